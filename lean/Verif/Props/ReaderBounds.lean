import Verif.Props.Reader
/-
C60: what is read comes from the file: no invented bytes, no amplification.
-/
namespace Vroom
open Spec

/-- The text of a cell; a missing value has none. -/
def Cell.bytes (c : Cell) : List UInt8 := c.toOption.getD []

/-- All texts of a chunk of columns with `rows` rows, row by row, in column order. -/
def Spec.rowMajor (rows : Nat) (cols : Cols) : List UInt8 :=
  (List.range rows).flatMap (fun i => cols.flatMap (fun col => (col.getD i .null).bytes))

theorem unescapeGo_sublist (q : UInt8) (v : Bytes) : (unescapeGo q v).Sublist v := by
  fun_induction unescapeGo q v with
  | case1 => exact .slnil
  | case2 c => exact List.Sublist.refl _
  | case3 c d rest h ih => rw [h.1, h.2]; exact .cons_cons _ (.cons _ ih)
  | case4 c d rest h ih => exact .cons_cons _ ih

theorem cellOf_sublist (nc : NullChecker) (q : UInt8) (f : Bytes) (needs : Bool) : (cellOf nc q f needs).bytes.Sublist f := by
  have hs : (stripCR f).Sublist f := by
    unfold stripCR; split
    · exact List.dropLast_sublist f
    · exact List.Sublist.refl f
  unfold cellOf
  dsimp only
  split
  · exact List.nil_sublist f
  · split
    · show (unescapeQuotes _ q).Sublist f
      have hu : ∀ v, (unescapeQuotes v q).Sublist v := by
        intro v; unfold unescapeQuotes; split
        · exact List.Sublist.refl v
        · exact unescapeGo_sublist q v
      refine (hu _).trans (List.Sublist.trans ?_ hs)
      split
      · exact (List.take_sublist _ _).trans (List.drop_sublist _ _)
      · exact List.Sublist.refl _
    · exact hs

theorem joinFields_sublist (sep : UInt8) (fs : List Bytes) : fs.flatten.Sublist (joinFields sep fs) := by
  induction fs with
  | nil => exact .slnil
  | cons f fs ih =>
    cases fs with
    | nil => simp [joinFields]
    | cons g gs =>
      rw [joinFields_cons _ _ _ (by simp), List.flatten_cons]
      exact (List.Sublist.refl f).append (.cons _ ih)

theorem cellsAt_sublist (nc : NullChecker) (q : UInt8) (n : Nat) (fs : List (Bytes × Bool)) :
    ((List.range n).flatMap (fun j => (cellAt nc q fs j).bytes)).Sublist (fs.map Prod.fst).flatten := by
  induction fs generalizing n with
  | nil =>
    have : ∀ j, (cellAt nc q [] j).bytes = [] := fun j => rfl
    simp [this]
  | cons f fs ih =>
    cases n with
    | zero => simp
    | succ n =>
      rw [List.range_succ_eq_map, List.flatMap_cons, List.map_cons, List.flatten_cons]
      refine List.Sublist.append (cellOf_sublist nc q f.1 f.2) ?_
      rw [List.flatMap_map]
      exact ih n

theorem skipBlank_sublist (d : Bytes) : (skipBlank d).Sublist d := by
  fun_induction skipBlank d with
  | case1 => exact .slnil
  | case2 rest ih => exact .cons _ ih
  | case3 => exact List.nil_sublist _
  | case4 rest' _ ih => exact .cons _ (.cons _ ih)
  | case5 d rest' _ _ ih => exact .cons _ ih
  | case6 c rest => exact List.Sublist.refl _

/-- The raw rows of a text, row by row, are a subsequence of it, and there are no more rows than bytes. -/
theorem rawRows_sublist (cfg : ReadCfg) (n : Nat) (fuel : Nat) : ∀ (rest : Bytes) (rs), rawRows cfg fuel rest = some rs →
    (rs.flatMap (fun fs => (List.range n).flatMap (fun j => (cellAt cfg.nc cfg.quote fs j).bytes))).Sublist rest ∧ rs.length ≤ rest.length := by
  induction fuel with
  | zero => intro rest rs h; simp [rawRows] at h
  | succ fuel ih =>
    intro rest rs h
    have hsb := skipBlank_sublist rest
    unfold rawRows at h
    by_cases h1 : (skipBlank rest).length = 0
    · rw [if_pos h1] at h
      obtain rfl := Option.some.inj h
      simp
    · rw [if_neg h1] at h
      obtain ⟨fs, tail, g1, g2, g3, _⟩ := C12_no_loss cfg.cpu cfg.dial cfg.junk (skipBlank rest)
      rw [g1] at h
      dsimp only at h
      cases h2 : rawRows cfg fuel tail with
      | none => rw [h2] at h; simp at h
      | some rs' =>
        rw [h2] at h
        simp only [Option.map_some, Option.some.injEq] at h
        subst h
        obtain ⟨i1, i2⟩ := ih tail rs' h2
        have hrow := (cellsAt_sublist cfg.nc cfg.quote n fs).trans (joinFields_sublist cfg.dial.sep (fs.map Prod.fst))
        have hle := hsb.length_le
        rw [List.flatMap_cons, List.length_cons]
        rcases g3 with g3 | ⟨g3, g4⟩
        · refine ⟨List.Sublist.trans ?_ hsb, ?_⟩
          · rw [g3]; exact hrow.append (.cons _ i1)
          · have := congrArg List.length g3
            simp only [List.length_append, List.length_cons] at this
            omega
        · subst g4
          refine ⟨List.Sublist.trans ?_ hsb, ?_⟩
          · rw [g3]
            have := hrow.append i1
            rwa [List.append_nil] at this
          · simp only [List.length_nil] at i2
            omega

theorem flatMap_congr_range {n : Nat} {β : Type} (f g : Nat → List β) (h : ∀ i, i < n → f i = g i) :
    (List.range n).flatMap f = (List.range n).flatMap g := by
  simp only [List.flatMap_def]
  congr 1
  exact List.map_congr_left (fun i hi => h i (List.mem_range.1 hi))

theorem range_flatMap_getD {α β : Type} (l : List α) (d : α) (f : α → List β) :
    (List.range l.length).flatMap (fun i => f (l.getD i d)) = l.flatMap f := by
  induction l with
  | nil => rfl
  | cons a t ih =>
    rw [List.length_cons, List.range_succ_eq_map, List.flatMap_cons, List.flatMap_map, List.flatMap_cons]
    exact congrArg _ ih

theorem rowMajor_rows (cfg : ReadCfg) (n : Nat) (rs : List (List (Bytes × Bool))) :
    rowMajor rs.length ((List.replicate n ([] : List Cell)).mapIdx (fun j col => col ++ rs.map (fun fs => cellAt cfg.nc cfg.quote fs j)))
      = rs.flatMap (fun fs => (List.range n).flatMap (fun j => (cellAt cfg.nc cfg.quote fs j).bytes)) := by
  have hc : (List.replicate n ([] : List Cell)).mapIdx (fun j col => col ++ rs.map (fun fs => cellAt cfg.nc cfg.quote fs j))
      = (List.range n).map (fun j => rs.map (fun fs => cellAt cfg.nc cfg.quote fs j)) := by
    apply List.ext_getElem?
    intro j
    by_cases hj : j < n <;> simp [hj]
  rw [hc, rowMajor, ← range_flatMap_getD rs [] (fun fs => (List.range n).flatMap (fun j => (cellAt cfg.nc cfg.quote fs j).bytes))]
  apply flatMap_congr_range
  intro i hi
  rw [List.flatMap_map]
  apply flatMap_congr_range
  intro j _
  simp [List.getD_eq_getElem?_getD, hi]

/-- **C60** Parsing a chunk, whatever its bytes and whether or not it starts inside quotes: the texts
delivered, taken row by row, are a subsequence of the bytes of the chunk (nothing is invented, repeated or
reordered), and there are no more rows than bytes. -/
theorem C60_chunk_from_text (cfg : ReadCfg) (n : Nat) (startInside : Bool) (data : List UInt8) :
    ∃ cols rows, parseChunk cfg n startInside data = some (cols, rows) ∧
      (rowMajor rows cols).Sublist data ∧ rows ≤ data.length := by
  unfold parseChunk
  dsimp only
  by_cases h : data.length = 0 ∨ n = 0
  · rw [if_pos h]
    exact ⟨_, _, rfl, by simp [rowMajor], Nat.zero_le _⟩
  · rw [if_neg h]
    have skipClose : ∀ q (l : Bytes), (skipToClose q l).2.Sublist l := by
      intro q l
      fun_induction skipToClose q l with
      | case1 => exact .slnil
      | case2 rest' ih => exact .cons _ (.cons _ ih)
      | case3 => exact .cons _ (List.Sublist.refl _)
      | case4 => exact List.nil_sublist _
      | case5 _ _ _ ih => exact .cons _ ih
    have skipRow : ∀ q b (l : Bytes), (skipPartialRow q b l).Sublist l := by
      intro q b l
      fun_induction skipPartialRow q b l with
      | case1 => exact .slnil
      | case2 _ _ _ _ ih => exact .cons _ (.cons _ ih)
      | case3 _ _ _ _ ih => exact .cons _ ih
      | case4 => exact List.nil_sublist _
      | case5 => exact .cons _ (.cons _ (List.Sublist.refl _))
      | case6 => exact .cons _ (List.Sublist.refl _)
      | case7 => exact List.nil_sublist _
      | case8 _ _ _ _ _ ih => exact .cons _ ih
    have hsub : (if startInside = true then skipPartialRow cfg.quote (skipToClose cfg.quote data).1 (skipToClose cfg.quote data).2
        else data).Sublist data := by
      split
      · exact (skipRow _ _ _).trans (skipClose _ _)
      · exact List.Sublist.refl _
    have hle := hsub.length_le
    obtain ⟨rs, hrs⟩ := rawRows_total cfg (data.length + 1) _ (Nat.add_le_add_right hle 1)
    obtain ⟨h1, h2⟩ := rawRows_sublist cfg n _ _ _ hrs
    rw [parseRows_spec, hrs]
    refine ⟨_, _, rfl, ?_, by omega⟩
    rw [Nat.zero_add, rowMajor_rows]
    exact h1.trans hsub

theorem C60_serial_from_text (cfg : ReadCfg) (n : Nat) (data : List UInt8) :
    ∃ res, readSerial cfg n data = some res ∧
      (res.chunks.flatMap (fun c => rowMajor (c.headD []).length c)).Sublist data ∧ res.totalRows ≤ data.length := by
  unfold readSerial
  by_cases hn : n = 0
  · rw [if_pos hn]; exact ⟨_, rfl, by simp, Nat.zero_le _⟩
  · rw [if_neg hn]
    obtain ⟨rs, hrs⟩ := rawRows_total cfg (data.length + 1) data (Nat.le_refl _)
    obtain ⟨h1, h2⟩ := rawRows_sublist cfg n _ _ _ hrs
    rw [parseRows_spec, hrs]
    have h0 : 0 < n := Nat.pos_of_ne_zero hn
    refine ⟨_, rfl, ?_, ?_⟩
    · simp only [List.flatMap_cons, List.flatMap_nil, List.append_nil]
      have hh : ((List.replicate n ([] : List Cell)).mapIdx (fun j col => col ++ rs.map (fun fs => cellAt cfg.nc cfg.quote fs j))).headD []
          = rs.map (fun fs => cellAt cfg.nc cfg.quote fs 0) := by
        obtain ⟨m, rfl⟩ : ∃ m, n = m + 1 := ⟨n - 1, by omega⟩
        rw [List.replicate_succ, List.mapIdx_cons]; rfl
      rw [hh, List.length_map, rowMajor_rows]
      exact h1
    · simpa [List.getElem?_mapIdx, List.getElem?_replicate, h0] using h2

/-- **C60** for a whole read, serial or parallel: the texts of all chunks, row by row, are a subsequence of
the data part of the file, and the number of rows does not exceed its bytes. -/
theorem C60_read_from_text (cfg : ReadCfg) (n threshold chunkSize : Nat)
    (hc : 0 < chunkSize) (file : List UInt8) (start : Nat) (hs : start ≤ file.length) :
    ∃ res, readAll cfg n threshold chunkSize file start = some res ∧
      (res.chunks.flatMap (fun c => rowMajor (c.headD []).length c)).Sublist (file.drop start) ∧
      res.totalRows ≤ (file.drop start).length := by
  unfold readAll
  by_cases hn : n = 0
  · rw [if_pos hn]; exact ⟨_, rfl, by simp, Nat.zero_le _⟩
  · rw [if_neg hn]
    split
    · exact C60_serial_from_text cfg n _
    · obtain ⟨rs, h1, h2⟩ := C06_ranges_tile cfg.cpu cfg.quote file start chunkSize hs hc
      simp only [h1, Option.bind_eq_bind, Option.bind_some]
      split
      · exact C60_serial_from_text cfg n _
      · unfold readChunks
        dsimp only
        have hflat := tiles_slices file rs start h2
        generalize (analyzeAndLink cfg.cpu cfg.quote (rs.map (slice file))) = link at *
        rw [← hflat]
        generalize rs.map (slice file) = chunks at *
        have key : ∀ (chunks : List Bytes) (sts : List Bool), ∃ ps, (chunks.zip sts).mapM (fun p => parseChunk cfg n p.2 p.1) = some ps ∧
            ((ps.map Prod.fst).flatMap (fun c => rowMajor (c.headD []).length c)).Sublist chunks.flatten ∧
            (ps.map Prod.snd).sum ≤ chunks.flatten.length := by
          intro chunks
          induction chunks with
          | nil => intro sts; exact ⟨[], by simp, by simp, by simp⟩
          | cons c cs ih =>
            intro sts
            cases sts with
            | nil => exact ⟨[], by simp, by simp, by simp⟩
            | cons s ss =>
              obtain ⟨ps, e1, e2, e3⟩ := ih ss
              obtain ⟨cols, rows, g1, g2, g3⟩ := C60_chunk_from_text cfg n s c
              obtain ⟨cols', rows', k1, k2, k3⟩ := C08_chunk_rectangular cfg n s c
              rw [g1, Option.some.injEq, Prod.mk.injEq] at k1
              obtain ⟨rfl, rfl⟩ := k1
              have hr : (cols.headD []).length = rows := by
                cases cols with
                | nil => simp at k2; omega
                | cons x xs => exact k3 x (by simp)
              refine ⟨(cols, rows) :: ps, by rw [List.zip_cons_cons, List.mapM_cons]; simp only [g1, e1]; rfl, ?_, ?_⟩
              · simp only [List.map_cons, List.flatMap_cons, List.flatten_cons, hr]
                exact g2.append e2
              · simp only [List.map_cons, List.sum_cons, List.flatten_cons, List.length_append]
                omega
        obtain ⟨ps, e1, e2, e3⟩ := key chunks link.1
        simp only [e1]
        exact ⟨_, rfl, e2, e3⟩

/-- Bytes of all texts of a column. -/
def Spec.textBytes (col : List Cell) : Nat := (col.map (fun c => c.bytes.length)).sum

theorem rowMajor_length (rows : Nat) (cols : Cols) (h : ∀ col ∈ cols, col.length = rows) :
    (rowMajor rows cols).length = (cols.map textBytes).sum := by
  induction cols with
  | nil => simp [rowMajor]
  | cons c cs ih =>
    have ih' := ih (fun col hc => h col (List.mem_cons_of_mem _ hc))
    rw [List.map_cons, List.sum_cons, ← ih']
    have hc : textBytes c = ((List.range rows).map (fun i => (c.getD i .null).bytes.length)).sum := by
      have := h c (by simp)
      subst this
      have e := congrArg List.length (range_flatMap_getD c Cell.null Cell.bytes)
      simp only [List.length_flatMap] at e
      rw [e]; rfl
    rw [hc, rowMajor, rowMajor]
    simp only [List.length_flatMap, List.map_cons, List.sum_cons]
    generalize List.range rows = l
    induction l with
    | nil => rfl
    | cons i t ih2 => simp only [List.map_cons, List.sum_cons]; omega

/-- **C60** Reading does not amplify: the text delivered in all columns of all chunks together is no longer than
the data part of the file. -/
theorem C60_no_amplification (cfg : ReadCfg) (n threshold chunkSize : Nat)
    (hc : 0 < chunkSize) (file : List UInt8) (start : Nat) (hs : start ≤ file.length) :
    ∃ res, readAll cfg n threshold chunkSize file start = some res ∧
      (res.chunks.map (fun c => (c.map textBytes).sum)).sum ≤ file.length - start := by
  obtain ⟨res, h1, h2, _⟩ := C60_read_from_text cfg n threshold chunkSize hc file start hs
  obtain ⟨res', g1, g2, _⟩ := C08_read_rectangular cfg n threshold chunkSize hc file start hs
  rw [h1, Option.some.injEq] at g1
  subst g1
  refine ⟨res, h1, ?_⟩
  have := h2.length_le
  rw [List.length_drop] at this
  refine Nat.le_trans (Nat.le_of_eq ?_) this
  rw [List.length_flatMap]
  congr 1
  apply List.map_congr_left
  intro c hcm
  obtain ⟨_, m, hm⟩ := g2 c hcm
  rw [rowMajor_length]
  intro col hcol
  cases c with
  | nil => simp at hcol
  | cons x xs => rw [hm col hcol]; exact (hm x (by simp)).symm

/-- Non-vacuity: quoted text with an escaped quote, a missing field, and blank lines. -/
example : ∃ res, readAll cfg0 2 0 4 [34, 97, 34, 34, 44, 34, 44, 98, 10, 10, 99, 10] 0 = some res ∧
    res.chunks.flatMap (fun c => rowMajor (c.headD []).length c) = [97, 34, 44, 98, 99] ∧ res.totalRows = 2 := by
  decide +kernel

end Vroom
