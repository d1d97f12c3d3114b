import Verif.Props.Convert
import Verif.Props.Reader
import Verif.Lemmas.Batches
import Verif.Lemmas.ChunkBounds
import Verif.Lemmas.PageSize
import Verif.Lemmas.FooterSize
import Verif.Lemmas.Minimum
/-
CSV text in, Parquet file out (C56).
-/
namespace Vroom
open Parquet Spec

/-- The typed columns of one chunk. -/
theorem typed_chunk (lanes : Nat) (fb : Bytes → Option UInt64) (m : Nat) :
    ∀ (schema : List ColSchema) (c : Cols), schema.length = c.length → (∀ col ∈ c, col.length = m) →
    (∀ p ∈ schema.zip c, (∀ v, Cell.text v ∈ p.2 → ¬ StoresUB lanes fb (stored p.1.type) v) ∧
      (stored p.1.type = .string → cellBytes p.2 < 2 ^ 32)) →
    ∃ cols, (schema.zip c).mapM (fun p => ArrowColumn.build lanes fb p.1.type p.2) = some cols ∧
      ColsAre m schema cols ((schema.zip c).map (fun p => p.2.map (fun x => cellVal lanes fb (stored p.1.type) x.toOption))) := by
  intro schema
  induction schema with
  | nil => intro c hl _ _; exact ⟨[], by simp, .nil⟩
  | cons s ss ih =>
    intro c hl hm hp
    cases c with
    | nil => simp at hl
    | cons x xs =>
      obtain ⟨cols, e1, e2⟩ := ih xs (by simpa using hl) (fun col h => hm col (List.mem_cons_of_mem _ h))
        (fun p h => hp p (by simp [h]))
      have hx := hp (s, x) (by simp)
      obtain ⟨col, f1, f2, f3⟩ := build_hist lanes fb s.type x hx.1 hx.2
      refine ⟨col :: cols, ?_, ?_⟩
      · rw [List.zip_cons_cons, List.mapM_cons, f1, e1]; rfl
      · rw [List.zip_cons_cons, List.map_cons]
        exact .cons f3 f2 (by simpa using hm x (by simp)) e2

/-- The typed chunks of a read result. -/
theorem typed_chunks (C : ConvCfg) :
    ∀ (chunks : List Cols), (∀ c ∈ chunks, c.length = C.schema.length ∧ ∃ m, ∀ col ∈ c, col.length = m) →
    (∀ c ∈ chunks, ∀ p ∈ C.schema.zip c, (∀ v, Cell.text v ∈ p.2 → ¬ StoresUB C.lanes C.floatBits (stored p.1.type) v) ∧
      (stored p.1.type = .string → cellBytes p.2 < 2 ^ 32)) →
    ∃ typed, C.typed chunks = some typed ∧ ChunksAre C.schema typed
      (chunks.map (fun c => (C.schema.zip c).map (fun p => p.2.map (fun x => cellVal C.lanes C.floatBits (stored p.1.type) x.toOption)))) := by
  intro chunks
  induction chunks with
  | nil => intro _ _; exact ⟨[], rfl, .nil⟩
  | cons c cs ih =>
    intro h1 h2
    obtain ⟨t, e1, e2⟩ := ih (fun x hx => h1 x (List.mem_cons_of_mem _ hx)) (fun x hx => h2 x (List.mem_cons_of_mem _ hx))
    obtain ⟨hl, m, hm⟩ := h1 c (by simp)
    obtain ⟨cols, f1, f2⟩ := typed_chunk C.lanes C.floatBits m C.schema c hl.symm hm (h2 c (by simp))
    refine ⟨cols :: t, ?_, .cons m f2 e2⟩
    unfold ConvCfg.typed at e1 ⊢
    rw [List.mapM_cons, f1, e1]; rfl

/-- Column `j` of the typed chunks is the read column `j`, typed. -/
theorem typed_column (C : ConvCfg) (chunks : List Cols) (hl : ∀ c ∈ chunks, c.length = C.schema.length) (j : Nat) (cs : ColSchema)
    (hj : C.schema[j]? = some cs) :
    tableColumn (chunks.map (fun c => (C.schema.zip c).map (fun p => p.2.map (fun x => cellVal C.lanes C.floatBits (stored p.1.type) x.toOption)))) j
      = ((chunks.map (fun c => c.getD j [])).flatten).map (fun x => cellVal C.lanes C.floatBits (stored cs.type) x.toOption) := by
  unfold tableColumn
  rw [List.map_flatten, List.map_map, List.map_map]
  congr 1
  apply List.map_congr_left
  intro c hc
  have hjl : j < c.length := by
    rw [hl c hc]
    exact (List.getElem?_eq_some_iff.1 hj).1
  simp only [Function.comp_apply, List.getD_eq_getElem?_getD, List.getElem?_map, List.getElem?_zip_eq_some, List.zip]
  rw [List.getElem?_zipWith, hj, List.getElem?_eq_getElem hjl]
  rfl

theorem writeAll_foldlM (env : WEnv) (gs : List (List ArrowColumn)) : ∀ p, writeAll env p gs = gs.foldlM (PWriter.write env) p := by
  induction gs with
  | nil => intro p; rfl
  | cons g gs ih =>
    intro p
    rw [List.foldlM_cons]
    simp only [writeAll]
    cases p.write env g with
    | none => rfl
    | some q => exact ih q

/-- Row groups as the writer's specification wants them: pages are small because the columns are. -/
theorem groups_tables {env : WEnv} {schema : List ColSchema} (hne : schema ≠ []) (hnull : ∀ c ∈ schema, c.nullable = true) {groups gcells}
    (h : ChunksAre schema groups gcells)
    (hsz : ∀ cells ∈ gcells, ∀ col ∈ cells, 16 * col.length + valBytes col + 64 < 2 ^ 31)
    (hagree : ∀ g ∈ groups, ∀ p ∈ schema.zip g, PagesAgree env p.1 p.2) :
    ∃ ts : List TableGroup, ts.map (·.cols) = groups ∧ ts.map (·.cells) = gcells ∧
      (ts.map (·.numRows)).sum = (tableColumn gcells 0).length ∧
      ∀ t ∈ ts, t.numRows < 2 ^ 31 ∧ ColsOk env t.numRows schema t.cols t.cells := by
  have hcols : ∀ {n : Nat} {sch : List ColSchema} {cols cells}, ColsAre n sch cols cells → (∀ c ∈ sch, c.nullable = true) →
      (∀ col ∈ cells, 16 * col.length + valBytes col + 64 < 2 ^ 31) → (∀ p ∈ sch.zip cols, PagesAgree env p.1 p.2) →
      ColsOk env n sch cols cells := by
    intro n sch cols cells h
    induction h with
    | nil => intro _ _ _; exact .nil
    | @cons cs col rows css cols rowss h1 h2 h3 _ ih =>
      intro hn hz ha
      exact .cons ⟨h1, h2, h3, .inl (hn cs (by simp)), pagesSmall_of env cs h1 (hz rows (by simp)), ha (cs, col) (by simp)⟩
        (ih (fun c hc => hn c (List.mem_cons_of_mem _ hc)) (fun r hr => hz r (List.mem_cons_of_mem _ hr)) (fun p hp => ha p (by simp [hp])))
  induction h with
  | nil => exact ⟨[], rfl, rfl, rfl, by simp⟩
  | @cons g cells gs cellss n h1 h2 ih =>
    obtain ⟨ts, e1, e2, e3, e4⟩ := ih (fun c hc => hsz c (List.mem_cons_of_mem _ hc)) (fun g hg => hagree g (List.mem_cons_of_mem _ hg))
    have hlen : (cells.getD 0 []).length = n ∧ n < 2 ^ 31 := by
      have hz := hsz cells (by simp)
      clear hsz hagree hnull h2 ih e4
      cases h1 with
      | nil => exact absurd rfl hne
      | @cons _ _ rows _ _ _ _ _ h3 _ =>
        have := hz rows (by simp)
        exact ⟨h3, by omega⟩
    have ht : (tableColumn (cells :: cellss) 0).length = n + (tableColumn cellss 0).length := by
      show ((cells.getD 0 []) ++ tableColumn cellss 0).length = _
      rw [List.length_append, hlen.1]
    refine ⟨⟨g, n, cells⟩ :: ts, by simp [e1], by simp [e2], by rw [ht, ← e3]; simp, ?_⟩
    intro t htm
    rcases List.mem_cons.1 htm with rfl | hm
    · exact ⟨hlen.2, hcols h1 hnull (hsz cells (by simp)) (hagree g (by simp))⟩
    · exact e4 t hm

theorem cellBytes_le {cols : List (List Cell)} {col : List Cell} (h : col ∈ cols) : cellBytes col ≤ cellBytes cols.flatten := by
  induction cols with
  | nil => simp at h
  | cons c cs ih =>
    have : cellBytes (c :: cs).flatten = cellBytes c + cellBytes cs.flatten := by simp [cellBytes]
    rw [this]
    rcases List.mem_cons.1 h with rfl | hm
    · omega
    · have := ih hm; omega

theorem text_valBytes (lanes : Nat) (fb : Bytes → Option UInt64) (cells : List Cell) :
    valBytes (cells.map (fun x => cellVal lanes fb .string x.toOption)) = totalBytes (cells.map Cell.toOption) := by
  simp only [valBytes, totalBytes, List.map_map]
  congr 1
  apply List.map_congr_left
  intro x _
  cases x <;> rfl

theorem cellBytes_eq_textBytes (col : List Cell) : cellBytes col = textBytes col := by
  unfold cellBytes textBytes
  congr 1

/-- Only text columns store text. -/
theorem storeText_text {lanes : Nat} {p : Bytes → Bool} {t : DataType} {v x : Bytes} (h : storeText lanes p t v = .text x) :
    stored t = .string := by
  cases t with
  | string | na | unknown => rfl
  | int32 | int64 =>
    exfalso
    revert h
    simp only [storeText]
    generalize parseInt32Simd lanes v = o
    generalize parseInt64Simd lanes v = o'
    cases o <;> cases o' <;> simp [Outcome.stored]
  | _ =>
    exfalso
    revert h
    simp only [storeText]
    repeat' split
    all_goals simp

/-- Values of any type but text take no text bytes. -/
theorem valBytes_typed (lanes : Nat) (fb : Bytes → Option UInt64) (t : DataType) (cells : List Cell) :
    valBytes (cells.map (fun x => cellVal lanes fb (stored t) x.toOption)) = if stored t = .string then cellBytes cells else 0 := by
  by_cases h : stored t = .string
  · rw [if_pos h, h, text_valBytes]
    simp only [totalBytes, cellBytes, List.map_map]; rfl
  · rw [if_neg h]
    unfold valBytes
    rw [List.map_map, List.sum_eq_zero_iff_forall_eq_nat]
    intro x hx
    obtain ⟨c, _, rfl⟩ := List.mem_map.1 hx
    simp only [Function.comp_apply]
    cases c with
    | null => rfl
    | text v =>
      simp only [Cell.toOption, cellVal]
      generalize hs : storeText lanes (fun v => (fb v).isSome) (stored t) v = o
      cases o with
      | text t' => exact absurd ((by cases t <;> rfl : stored t = stored (stored t)).trans (storeText_text hs)) h
      | float t' => dsimp only; cases fb t' <;> rfl
      | _ => rfl

theorem infix_of_map {α β : Type} (f : α → β) (l : List α) (s : List β) (h : s <:+: l.map f) : ∃ l', l' <:+: l ∧ s = l'.map f := by
  obtain ⟨a, b, e⟩ := h
  obtain ⟨x, y, h1, h2, h3⟩ := List.map_eq_append_iff.1 e.symm
  obtain ⟨p, q, g1, g2, g3⟩ := List.map_eq_append_iff.1 h2
  exact ⟨q, ⟨p, y, by rw [h1, g1]⟩, g3.symm⟩

theorem cellBytes_append (a b : List Cell) : cellBytes (a ++ b) = cellBytes a + cellBytes b := by simp [cellBytes]

theorem cellBytes_le_mul (N : Nat) (cells : List Cell) (h : ∀ v, Cell.text v ∈ cells → v.length ≤ N) : cellBytes cells ≤ N * cells.length := by
  induction cells with
  | nil => simp [cellBytes]
  | cons c cs ih =>
    have e : cellBytes (c :: cs) = (c.toOption.getD []).length + cellBytes cs := by simp [cellBytes]
    have h1 := ih (fun v hv => h v (List.mem_cons_of_mem _ hv))
    have h2 : (c.toOption.getD []).length ≤ N := by
      cases c with
      | null => simp [Cell.toOption]
      | text v => exact h v (by simp)
    rw [e, List.length_cons, Nat.mul_succ]
    omega

/-- The size of one column of a row group made of the chunks `l`. -/
theorem slice_column_small (C : ConvCfg) (l : List Cols) (B N : Nat)
    (hl : ∀ c ∈ l, c.length = C.schema.length)
    (hB : ∀ c ∈ l, ∃ m, m ≤ B ∧ ∀ col ∈ c, col.length = m ∧ textBytes col ≤ B)
    (hsize : C.target * (N + 16) + 17 * B + 64 < 2 ^ 31)
    (F : Cols → List (List (Option Val)))
    (hF : F = fun c => (C.schema.zip c).map (fun p => p.2.map (fun x => cellVal C.lanes C.floatBits (stored p.1.type) x.toOption)))
    (hsm : SmallSlice C.target (l.map F)) (j : Nat) (cs : ColSchema) (hj : C.schema[j]? = some cs)
    (hstr : l.length = 1 ∨ cs.type ≠ .string)
    (hN : cs.type = .na ∨ cs.type = .unknown → ∀ v, Cell.text v ∈ (l.map (fun c => c.getD j [])).flatten → v.length ≤ N) :
    16 * (tableColumn (l.map F) j).length + valBytes (tableColumn (l.map F) j) + 64 < 2 ^ 31 := by
  subst hF
  have hjl : j < C.schema.length := (List.getElem?_eq_some_iff.1 hj).1
  rw [typed_column C l hl j cs hj, List.length_map, valBytes_typed]
  have hcol : ∀ c ∈ l, (c.getD j []).length ≤ B ∧ cellBytes (c.getD j []) ≤ B ∧ (c.getD j []).length = (c.getD 0 []).length := by
    intro c hc
    obtain ⟨m, h1, h2⟩ := hB c hc
    have hlc := hl c hc
    have g : ∀ i < C.schema.length, c.getD i [] ∈ c := by
      intro i hi
      rw [List.getD_eq_getElem?_getD, List.getElem?_eq_getElem (by omega)]
      exact List.getElem_mem _
    have := h2 _ (g j hjl)
    have h0 := h2 _ (g 0 (by omega))
    rw [cellBytes_eq_textBytes]
    exact ⟨by omega, this.2, by omega⟩
  have hmul : C.target * (N + 16) = C.target * N + 16 * C.target := by rw [Nat.mul_add, Nat.mul_comm C.target 16]
  by_cases hone : l.length = 1
  · obtain ⟨c, rfl⟩ := List.length_eq_one_iff.1 hone
    obtain ⟨h1, h2, _⟩ := hcol c (by simp)
    simp only [List.map_cons, List.map_nil, List.flatten_cons, List.flatten_nil, List.append_nil]
    have : (if stored cs.type = .string then cellBytes (c.getD j []) else 0) ≤ B := by split <;> omega
    generalize (if stored cs.type = .string then cellBytes (c.getD j []) else 0) = x at *
    generalize C.target * N = y at *
    omega
  · have hns := hstr.resolve_left hone
    rcases List.eq_nil_or_concat l with rfl | ⟨a, c, rfl⟩
    · simp [cellBytes]
    · rw [List.concat_eq_append] at *
      rcases hsm with hsm | hsm
      · rw [List.length_map] at hsm; exact absurd hsm hone
      · rw [List.map_append, List.map_singleton, List.dropLast_concat] at hsm
        have hinit : ((a.map (fun c => c.getD j [])).flatten).length < C.target := by
          refine Nat.lt_of_le_of_lt (Nat.le_of_eq ?_) hsm
          unfold sliceRows
          rw [List.length_flatten, List.map_map, List.map_map]
          congr 1
          apply List.map_congr_left
          intro x hx
          have hx' := hcol x (by simp [hx])
          have hlx := hl x (by simp [hx])
          simp only [Function.comp_apply, chunkRows, hx'.2.2]
          have : ∀ (sch : List ColSchema) (x : Cols), sch.length = x.length →
              (((sch.zip x).map (fun p => p.2.map (fun x => cellVal C.lanes C.floatBits (stored p.1.type) x.toOption))).getD 0 []).length
              = (x.getD 0 []).length := by
            intro sch x h
            cases sch with
            | nil => cases x with
              | nil => rfl
              | cons _ _ => simp at h
            | cons s ss => cases x with
              | nil => simp at h
              | cons y ys => simp
          exact (this C.schema x hlx.symm).symm
        obtain ⟨h1, h2, _⟩ := hcol c (by simp)
        rw [List.map_append, List.map_singleton, List.flatten_append, List.flatten_singleton, List.length_append]
        by_cases hst : stored cs.type = .string
        · rw [if_pos hst, cellBytes_append]
          have hty : cs.type = .na ∨ cs.type = .unknown := by
            cases hc : cs.type <;> simp_all [stored]
          have h3 := cellBytes_le_mul N ((a.map (fun c => c.getD j [])).flatten) (by
            intro v hv
            apply hN hty v
            rw [List.map_append, List.flatten_append]
            exact List.mem_append_left _ hv)
          have h4 : N * ((a.map (fun c => c.getD j [])).flatten).length ≤ C.target * N := by
            rw [Nat.mul_comm C.target N]; exact Nat.mul_le_mul_left N (by omega)
          generalize C.target * N = y at *
          generalize N * ((a.map (fun c => c.getD j [])).flatten).length = z at *
          omega
        · rw [if_neg hst]
          generalize C.target * N = y at *
          omega

/-- The cells of one chunk as typed values. -/
def ConvCfg.values (C : ConvCfg) (c : Cols) : List (List (Option Val)) :=
  (C.schema.zip c).map (fun p => p.2.map (fun x => cellVal C.lanes C.floatBits (stored p.1.type) x.toOption))

/-- The columns read, as texts (`none` for a missing value). -/
def wholeTexts (n : Nat) (res : ReadResult) : List (List (Option (List UInt8))) := (wholeCols n res).map (fun col => col.map Cell.toOption)

/-- Everything between the table read, of which no row group is too large, and the finished output file. -/
theorem written_table (C : ConvCfg) (file : Bytes) (start : Nat) (hc : 0 < C.chunkSize) (hs : start ≤ file.length)
    (hne : C.schema ≠ []) (hnull : ∀ c ∈ C.schema, c.nullable = true)
    (res : ReadResult) (h1 : readAll C.read C.schema.length C.threshold C.chunkSize file start = some res)
    (hub : ∀ j cs, C.schema[j]? = some cs → ∀ v, Cell.text v ∈ (res.chunks.map (fun c => c.getD j [])).flatten →
      ¬ StoresUB C.lanes C.floatBits (stored cs.type) v)
    (h32 : ∀ c ∈ res.chunks, ∀ col ∈ c, textBytes col < 2 ^ 32)
    (hslice : ∀ l, l <:+: res.chunks → SmallSlice C.target (l.map C.values) → ∀ j cs, C.schema[j]? = some cs → l.length = 1 ∨ cs.type ≠ .string →
      16 * (tableColumn (l.map C.values) j).length + valBytes (tableColumn (l.map C.values) j) + 64 < 2 ^ 31)
    (hfoot : footerBound res.chunks.length (C.schema.map (·.name)) < 2 ^ 32)
    (hagree : ∀ chunks groups, C.typed res.chunks = some chunks → rowGroupsOf C.target C.schema chunks = some groups →
      ∀ g ∈ groups, ∀ p ∈ C.schema.zip g, PagesAgree C.env p.1 p.2)
    (dec : Int → List UInt8 → Option (List UInt8)) (hcodec : CodecOk C.env dec) (hlz : C.env.compression ≠ .lz4) :
    ∃ chunks groups p, C.typed res.chunks = some chunks ∧ rowGroupsOf C.target C.schema chunks = some groups ∧
      groups.foldlM (PWriter.write C.env) ({ schema := C.schema } : PWriter).openFile = some p ∧
      Holds dec C.lanes C.floatBits p.close.file (C.schema.map (·.name)) (C.schema.map (·.type)) (wholeTexts C.schema.length res)
        ((res.chunks.map (fun c => c.getD 0 [])).flatten).length := by
  have hn0 : C.schema.length ≠ 0 := by simpa using hne
  obtain ⟨res', g1, g2⟩ := C08_read_rectangular C.read C.schema.length C.threshold C.chunkSize hc file start hs
  rw [h1, Option.some.injEq] at g1
  subst g1
  have hlen' : ∀ c ∈ res.chunks, c.length = C.schema.length := fun c hc => (g2.1 c hc).1
  have hfacts : ∀ c ∈ res.chunks, ∀ p ∈ C.schema.zip c, (∀ v, Cell.text v ∈ p.2 → ¬ StoresUB C.lanes C.floatBits (stored p.1.type) v) ∧
      (stored p.1.type = .string → cellBytes p.2 < 2 ^ 32) := by
    intro c hcm p hp
    obtain ⟨j, hj⟩ := List.getElem?_of_mem hp
    rw [List.getElem?_zip_eq_some] at hj
    have hmem : p.2 ∈ res.chunks.map (fun c => c.getD j []) :=
      List.mem_map.2 ⟨c, hcm, by rw [List.getD_eq_getElem?_getD, hj.2]; rfl⟩
    refine ⟨?_, ?_⟩
    · intro v hv
      exact hub j p.1 hj.1 v (List.mem_flatten.2 ⟨_, hmem, hv⟩)
    · intro _
      rw [cellBytes_eq_textBytes]
      exact h32 c hcm p.2 (List.mem_of_getElem? hj.2)
  obtain ⟨chunks, h2, t2⟩ := typed_chunks C res.chunks g2.1 hfacts
  have hslice : ∀ s, s <:+: res.chunks.map (fun c => (C.schema.zip c).map (fun p => p.2.map (fun x => cellVal C.lanes C.floatBits (stored p.1.type) x.toOption))) →
      SmallSlice C.target s → ∀ j cs, C.schema[j]? = some cs → s.length = 1 ∨ cs.type ≠ .string →
      16 * (tableColumn s j).length + valBytes (tableColumn s j) + 64 < 2 ^ 31 := by
    intro s hinf hsm j cs hj hstr
    obtain ⟨l, hl, rfl⟩ := infix_of_map _ _ _ hinf
    exact hslice l hl hsm j cs hj (by rw [List.length_map] at hstr; exact hstr)
  obtain ⟨groups, slices, h3, r2, r3, r4⟩ := C34_groups_are_slices C.target C.schema hne t2 (by
    intro s hinf hsm j cs hj ht
    have := hslice s hinf hsm j cs hj (.inr (by rcases ht with h | h <;> rw [h] <;> decide))
    omega)
  have hgsz : ∀ cells ∈ slices.map (groupCells C.schema.length), ∀ col ∈ cells, 16 * col.length + valBytes col + 64 < 2 ^ 31 := by
    intro cells hcm col hcol'
    obtain ⟨s, hsm, rfl⟩ := List.mem_map.1 hcm
    obtain ⟨j, hj, rfl⟩ := List.mem_map.1 hcol'
    have hj' := List.mem_range.1 hj
    obtain ⟨-, q1, q2, q3⟩ := r4 s hsm
    exact hslice s q1 q2 j _ (List.getElem?_eq_getElem hj') (q3.imp_right (fun h => h _ (List.getElem_mem _)))
  obtain ⟨ts, e1, e2, e3, e4⟩ := groups_tables hne hnull r3 hgsz (hagree chunks groups h2 h3)
  have hcols : ∀ j cs, C.schema[j]? = some cs →
      tableColumn (slices.map (groupCells C.schema.length)) j =
        (((res.chunks.map (fun c => c.getD j [])).flatten).map Cell.toOption).map (cellVal C.lanes C.floatBits (stored cs.type)) := by
    intro j cs hj
    have hjl := (List.getElem?_eq_some_iff.1 hj).1
    have e : tableColumn (slices.map (groupCells C.schema.length)) j = tableColumn slices.flatten j := by
      rw [← flatten_tableColumn]
      unfold tableColumn
      rw [List.map_map]
      congr 1
      apply List.map_congr_left
      intro s _
      exact groupCells_getD _ s j hjl
    rw [e, r2, typed_column C res.chunks hlen' j cs hj, List.map_map]
    rfl
  have hlen : (tableColumn (slices.map (groupCells C.schema.length)) 0).length = ((res.chunks.map (fun c => c.getD 0 [])).flatten).length := by
    have hpos : 0 < C.schema.length := Nat.pos_of_ne_zero hn0
    rw [hcols 0 _ (List.getElem?_eq_getElem hpos), List.length_map, List.length_map]
  have hgcount : ts.length ≤ res.chunks.length := by
    have a1 := chunksAre_length r3
    rw [List.length_map, ← e1, List.length_map] at a1
    have a2 : slices.length ≤ slices.flatten.length := by
      clear a1 e1 e2 e3 e4 hgsz r2 r3 hcols hlen h3
      have hne' : ∀ s ∈ slices, 0 < s.length := by
        intro s hs'
        exact List.length_pos_iff.2 (r4 s hs').1
      clear r4
      induction slices with
      | nil => simp
      | cons s ss ih =>
        have := ih (fun s hs => hne' s (List.mem_cons_of_mem _ hs))
        have := hne' s (by simp)
        simp only [List.length_cons, List.flatten_cons, List.length_append]
        omega
    rw [r2, List.length_map] at a2
    omega
  have hfoot' : (ts.length + 1) * (400 + 265 * C.schema.length + nameBytes C.schema) < 2 ^ 32 := by
    refine Nat.lt_of_le_of_lt ?_ hfoot
    unfold footerBound nameBytes
    rw [List.length_map, List.map_map]
    exact Nat.mul_le_mul_right _ (by omega)
  obtain ⟨p, w1, w2⟩ := C53_file_roundtrip_sized C.env dec hcodec hlz C.schema hne ts hfoot' (fun t ht => e4 t ht)
  rw [writeAll_foldlM, e1] at w1
  refine ⟨chunks, groups, p, h2, h3, w1, ts.map (fun t => ⟨t.numRows, t.cells⟩), ?_, ?_, ?_⟩
  · rw [w2]
    congr 2
    rw [List.zip_map', List.map_map]
    apply List.map_congr_left
    intro c hcm
    show (c.name, (toParquetType c.type).toInt, c.nullable) = (c.name, (toParquetType c.type).toInt, true)
    rw [hnull c hcm]
  · intro j t hj
    rw [List.getElem?_map, Option.map_eq_some_iff] at hj
    obtain ⟨cs, hj, rfl⟩ := hj
    have hjl := (List.getElem?_eq_some_iff.1 hj).1
    have hcj : (wholeTexts C.schema.length res).getD j [] = ((res.chunks.map (fun c => c.getD j [])).flatten).map Cell.toOption := by
      simp [wholeTexts, wholeCols, List.getD_eq_getElem?_getD, hjl]
    rw [hcj, ← hcols j cs hj, ← e2, List.map_map]
    rfl
  · rw [← hlen, ← e3, List.map_map]
    rfl

/-- **C56** A successful conversion of a CSV text (written rows, without the stray quotes of C07; read serially or
with no chunk boundary inside quotes) leaves a Parquet file from which an independent reader gets the columns named in
the schema and, in each column, exactly the values of the CSV rows in order, converted by the rules of the
column's type; blank lines carry no row.  For every schedule of the pipeline, chunk size, thread and SIMD
width, compressor, and dictionary setting, and without a limit on the size of the file: only the chunks
(`B` bytes) and, in columns of unknown type, the single texts (`N` bytes) are limited. -/
theorem C56_csv_to_parquet_partial {C : ConvCfg} {w : ConvWorld} {file : Bytes} {start : Nat} {r : ConvResult} {out}
    (h : Converted C w file start r out) (hw : Spoken w) (hok : r.ok = true)
    (hM : ReadSane C.read.dial) (hc : 0 < C.chunkSize) (hs : start ≤ file.length)
    (rows : List WRow) (hwf : ∀ r ∈ rows, r.WF C.read.dial) (hfile : file.drop start = renderFile C.read.dial rows)
    (hcut : C.threshold ≤ file.length - start → CutsOutside C.read file start C.chunkSize)
    (hne : C.schema ≠ [])
    (hnull : ∀ c ∈ C.schema, c.nullable = true)
    (table : List (List (Option (List UInt8))))
    (htable : table = tableOf C.read.quote (commaPieces C.read.nullValues) C.schema.length rows)
    (hmin : ¬ HasMinimum (C.schema.map (·.type)) table)
    (B N : Nat) (hthr : C.threshold ≤ B + 1)
    (hB : C.threshold ≤ file.length - start → ∀ rs, chunkRanges C.read.cpu C.read.quote file start C.chunkSize = some rs →
      ∀ r ∈ rs, r.2 - r.1 ≤ B)
    (hN : ∀ j cs, C.schema[j]? = some cs → cs.type = .na ∨ cs.type = .unknown → ∀ v, some v ∈ table.getD j [] → v.length ≤ N)
    (hsize : C.target * (N + 16) + 17 * B + 64 < 2 ^ 31) (hfoot : footerBound ((file.length - start) / C.chunkSize + 1) (C.schema.map (·.name)) < 2 ^ 32)
    (hagree : ∀ res chunks groups, readAll C.read C.schema.length C.threshold C.chunkSize file start = some res →
      C.typed res.chunks = some chunks → rowGroupsOf C.target C.schema chunks = some groups →
      ∀ g ∈ groups, ∀ p ∈ C.schema.zip g, PagesAgree C.env p.1 p.2)
    (dec : Int → List UInt8 → Option (List UInt8)) (hcodec : CodecOk C.env dec) (hlz : C.env.compression ≠ .lz4) :
    ∃ bytes, out = some bytes ∧ Holds dec C.lanes C.floatBits bytes (C.schema.map (·.name)) (C.schema.map (·.type)) table
      (rows.filter (fun r => !r.blank)).length := by
  obtain ⟨-, -, -, -, res, chunks, groups, p, h1, h2, h3, h4, h5, -, -⟩ := C52_ok_means_done_partial h hw hok
  have hn0 : C.schema.length ≠ 0 := by simpa using hne
  obtain ⟨ser, par, -, hp1, -, -, hp2⟩ :=
    C07_parallel_eq_serial_partial C.read hM C.schema.length C.threshold C.chunkSize hc file start hs rows hwf hfile hn0 hcut
  rw [h1, Option.some.injEq] at hp1
  subst hp1
  rw [← htable] at hp2
  obtain ⟨hcount, hsizes⟩ := readAll_sizes C.read C.schema.length C.threshold C.chunkSize hc file start hs B hthr hB res h1
  obtain ⟨res', g1, g2⟩ := C08_read_rectangular C.read C.schema.length C.threshold C.chunkSize hc file start hs
  rw [h1, Option.some.injEq] at g1
  subst g1
  have hlen' : ∀ c ∈ res.chunks, c.length = C.schema.length := fun c hc => (g2.1 c hc).1
  -- whole columns
  have hcol : ∀ j cs, C.schema[j]? = some cs →
      ((res.chunks.map (fun c => c.getD j [])).flatten).map Cell.toOption = table.getD j [] := by
    intro j cs hj
    have hjl := (List.getElem?_eq_some_iff.1 hj).1
    rw [← hp2]
    simp [wholeCols, List.getD_eq_getElem?_getD, hjl]
  have htext : ∀ j cs, C.schema[j]? = some cs → ∀ v, Cell.text v ∈ (res.chunks.map (fun c => c.getD j [])).flatten →
      some v ∈ table.getD j [] := by
    intro j cs hj v hv
    rw [← hcol j cs hj]
    exact List.mem_map.2 ⟨_, hv, rfl⟩
  have hB31 : B < 2 ^ 31 := by generalize C.target * (N + 16) = y at hsize; omega
  obtain ⟨chunks', groups', p', t1, t2, t3, t4⟩ := written_table C file start hc hs hne hnull res h1
    (fun j cs hj v hv => not_minimum_defined _ _ hmin j cs.type (by rw [List.getElem?_map, hj]; rfl) v (htext j cs hj v hv))
    (by
      intro c hcm col hcol
      obtain ⟨m, _, e2⟩ := hsizes c hcm
      have := (e2 col hcol).2
      omega)
    (by
      intro l hl hsm j cs hj hstr
      have hmem : ∀ c ∈ l, c ∈ res.chunks := fun c hc => hl.subset hc
      refine slice_column_small C l B N (fun c hc => hlen' c (hmem c hc)) (fun c hc => hsizes c (hmem c hc)) hsize _ rfl hsm j cs hj hstr ?_
      intro ht v hv
      refine hN j cs hj ht v (htext j cs hj v ?_)
      obtain ⟨col, hcm, hvm⟩ := List.mem_flatten.1 hv
      obtain ⟨c, hc, rfl⟩ := List.mem_map.1 hcm
      exact List.mem_flatten.2 ⟨_, List.mem_map.2 ⟨c, hmem c hc, rfl⟩, hvm⟩)
    (by
      refine Nat.lt_of_le_of_lt ?_ hfoot
      unfold footerBound
      apply Nat.mul_le_mul_right
      have a3 : res.chunks.length ≤ (file.length - start) / C.chunkSize + 1 := by
        rw [show (file.length - start) / C.chunkSize + 1 = (file.length - start + C.chunkSize) / C.chunkSize by rw [Nat.add_div_right _ hc]]
        rw [Nat.le_div_iff_mul_le hc, Nat.mul_comm]
        omega
      omega)
    (fun chunks groups a b => hagree res chunks groups h1 a b) dec hcodec hlz
  rw [h2, Option.some.injEq] at t1
  subst t1
  rw [h3, Option.some.injEq] at t2
  subst t2
  rw [h4, Option.some.injEq] at t3
  subst t3
  refine ⟨_, h5, ?_⟩
  have hpos : 0 < C.schema.length := Nat.pos_of_ne_zero hn0
  have hl := congrArg List.length (hcol 0 _ (List.getElem?_eq_getElem hpos))
  rw [List.length_map] at hl
  have hrl : (table.getD 0 []).length = (rows.filter (fun r => !r.blank)).length := by
    rw [htable]
    simp [tableOf, List.getD_eq_getElem?_getD, hpos]
  rw [show wholeTexts C.schema.length res = table from hp2, hl, hrl] at t4
  exact t4

end Vroom

namespace Vroom
open Parquet Spec

/-! ### A concrete conversion, and what C52 leaves out -/

namespace Demo

/-- Two columns, a text and an integer; small chunks so that two chunks are read. -/
def conv : ConvCfg :=
  { read := cfg0, threshold := 0, chunkSize := 2, lanes := 16, floatBits := fun _ => none,
    schema := [⟨[97], .string, true⟩, ⟨[98], .int32, true⟩],
    env := { compression := .none, enableDictionary := true, compress := fun _ b => b, ratioLt := fun _ => true } }

/-- `x,1` / `y,` -/
def file : Bytes := [120, 44, 49, 10, 121, 44, 10]

def written : List WRow := [{ fields := [.plain [120], .plain [49]] }, { fields := [.plain [121], .plain []] },
  { fields := [.plain []] }]

def res : ReadResult := (readAll conv.read conv.schema.length conv.threshold conv.chunkSize file 0).get (by decide +kernel)
def chunks : List (List ArrowColumn) := (conv.typed res.chunks).get (by decide +kernel)
def groups : List (List ArrowColumn) := (rowGroupsOf conv.target conv.schema chunks).get (by decide +kernel)
def encoded : List EncodedRowGroup :=
  ((groups.filter (fun g => !g.isEmpty)).mapM (encodeRowGroup conv.env conv.schema)).get (by decide +kernel)
def start : PWriter := { ({} : PWriter).openFile with schema := conv.schema }

theorem res_eq : readAll conv.read conv.schema.length conv.threshold conv.chunkSize file 0 = some res := (Option.some_get _).symm
theorem chunks_eq : conv.typed res.chunks = some chunks := (Option.some_get _).symm
theorem groups_eq : rowGroupsOf conv.target conv.schema chunks = some groups := (Option.some_get _).symm
theorem encoded_eq : (groups.filter (fun g => !g.isEmpty)).mapM (encodeRowGroup conv.env conv.schema) = some encoded :=
  (Option.some_get _).symm

/-- The second of two row groups cannot be written. -/
theorem run_fails {α : Type} (a b : α) : ∃ n k s, PipeRun (α := α) 4 [a, b] n k s ∧ s.prod = .finished false ∧ s.written = [a] := by
  have h0 := PipeRun.start (cap := 4) (todo := [a, b])
  have h1 := h0.step (.submit _ _ _ a [b])
  have h2 := h1.step (.pushAccept _ _ _ _ a [b] rfl rfl)
  have h3 := h2.step (.submit _ _ _ b [])
  have h4 := h3.step (.pushAccept _ _ _ _ b [] rfl rfl)
  have h5 := h4.step (.finish _ _ _ _)
  have h6 := h5.step (.popSome _ _ _ _ a [b])
  have h7 := h6.step (.writeOk _ _ _ _ a)
  have h8 := h7.step (.popSome _ _ _ _ b [])
  have h9 := h8.step (.writeThrows _ _ _ _ b)
  have h10 := h9.step (.errClose _ _ _ _)
  have h11 := h10.step (.join _ _ _)
  exact ⟨_, _, _, h11, rfl, rfl⟩

/-- Both row groups are written. -/
theorem run_ok {α : Type} (a b : α) : ∃ n k s, PipeRun (α := α) 4 [a, b] n k s ∧ s.prod = .finished true ∧ s.written = [a, b] := by
  have h0 := PipeRun.start (cap := 4) (todo := [a, b])
  have h1 := h0.step (.submit _ _ _ a [b])
  have h2 := h1.step (.pushAccept _ _ _ _ a [b] rfl rfl)
  have h3 := h2.step (.submit _ _ _ b [])
  have h4 := h3.step (.popSome _ _ _ _ a [])
  have h5 := h4.step (.pushAccept _ _ _ _ b [] rfl rfl)
  have h6 := h5.step (.finish _ _ _ _)
  have h7 := h6.step (.writeOk _ _ _ _ a)
  have h8 := h7.step (.popSome _ _ _ _ b [])
  have h9 := h8.step (.writeOk _ _ _ _ b)
  have h10 := h9.step (.popNone _ _ _ _ rfl rfl)
  have h11 := h10.step (.join _ _ _)
  exact ⟨_, _, _, h11, rfl, rfl⟩

theorem encoded_two : ∃ a b, encoded = [a, b] := by
  have h : encoded.length = 2 := by decide +kernel
  match he : encoded, h with
  | [a, b], _ => exact ⟨a, b, rfl⟩

end Demo

/-- **C52 refuted** as stated for every failure: the reported error is the text of the exception that
stopped the writer; if that text is empty the conversion reports success although row groups are
missing.  Here two rows were read, `ok()` is true and the file has one row. -/
theorem C52_empty_message_refuted :
    ∃ (w : ConvWorld) (r : ConvResult) (f : List UInt8), Converted Demo.conv w Demo.file 0 r (some f) ∧ r.ok = true ∧ r.rows = 2 ∧
      (readFile (fun _ _ => none) f).map (fun t => (t.2.map (·.numRows)).sum) = some 1 := by
  obtain ⟨a, b, hab⟩ := Demo.encoded_two
  obtain ⟨n, k, s, h1, h2, h3⟩ := Demo.run_fails a b
  have hw := WritePhase.finishErr (env := Demo.conv.env) (whats := fun _ => True) (p := Demo.start) (nChunks := Demo.chunks.length)
    (groups := Demo.groups) [] (by decide +kernel) trivial (by rw [← hab]; exact Demo.encoded_eq) h1 h2
  have hc := Converted.wrote (C := Demo.conv) (w := {}) (file := Demo.file) (start := 0) (by decide) Demo.res_eq Demo.chunks_eq
    Demo.groups_eq hw
  rw [if_neg (by decide +kernel), h3] at hc
  refine ⟨{}, _, _, hc, by decide +kernel, by decide +kernel, ?_⟩
  have ha : a = (Demo.encoded[0]'(by decide +kernel)) := by simp [hab]
  rw [ha]
  decide +kernel

/-- **C52 finding** A conversion that fails while writing says so, but the writer's destructor still closes
the file: what is left on disk is a well-formed Parquet file with only part of the rows. -/
theorem C52_failed_output_looks_complete :
    ∃ (w : ConvWorld) (r : ConvResult) (f : List UInt8), Spoken w ∧ Converted Demo.conv w Demo.file 0 r (some f) ∧ r.ok = false ∧ r.rows = 2 ∧
      (readFile (fun _ _ => none) f).map (fun t => (t.2.map (·.numRows)).sum) = some 1 := by
  obtain ⟨a, b, hab⟩ := Demo.encoded_two
  obtain ⟨n, k, s, h1, h2, h3⟩ := Demo.run_fails a b
  have hw := WritePhase.finishErr (env := Demo.conv.env) (whats := fun m => m = [33]) (p := Demo.start) (nChunks := Demo.chunks.length)
    (groups := Demo.groups) [33] (by decide +kernel) rfl (by rw [← hab]; exact Demo.encoded_eq) h1 h2
  have hc := Converted.wrote (C := Demo.conv) (w := { whats := fun m => m = [33] }) (file := Demo.file) (start := 0) (by decide)
    Demo.res_eq Demo.chunks_eq Demo.groups_eq hw
  rw [if_neg (by decide +kernel), h3] at hc
  refine ⟨_, _, _, by simp [Spoken], hc, by decide +kernel, by decide +kernel, ?_⟩
  have ha : a = (Demo.encoded[0]'(by decide +kernel)) := by simp [hab]
  rw [ha]
  decide +kernel

/-- Non-vacuity of C52 and C56: a conversion through the pipeline (two chunks, two row groups), with the
hypotheses of C56 (here `B` = 10 bytes per chunk, `N` = 5), and the file it leaves. -/
example : ∃ (r : ConvResult) (f : List UInt8), Converted Demo.conv { whats := fun m => m ≠ [] } Demo.file 0 r (some f) ∧
    Spoken { whats := fun m => m ≠ [] } ∧ r.ok = true ∧
    FlatRows Demo.conv.read.dial Demo.written ∧ Demo.file.drop 0 = renderFile Demo.conv.read.dial Demo.written ∧
    CutsOutside Demo.conv.read Demo.file 0 Demo.conv.chunkSize ∧
    (∀ rs, chunkRanges Demo.conv.read.cpu Demo.conv.read.quote Demo.file 0 Demo.conv.chunkSize = some rs → ∀ r ∈ rs, r.2 - r.1 ≤ 10) ∧
    Demo.conv.target * (5 + 16) + 17 * 10 + 64 < 2 ^ 31 ∧
    (∀ j cs, Demo.conv.schema[j]? = some cs → ∀ v,
      some v ∈ (tableOf Demo.conv.read.quote (commaPieces Demo.conv.read.nullValues) 2 Demo.written).getD j [] →
      ¬ StoresUB Demo.conv.lanes Demo.conv.floatBits (stored cs.type) v) ∧
    (∀ g ∈ Demo.groups, ∀ p ∈ Demo.conv.schema.zip g, PagesAgree Demo.conv.env p.1 p.2) ∧
    readFile (fun _ _ => none) f = some ([([97], 6, true), ([98], 1, true)],
      [⟨1, [[some (.bytes [120])], [some (.num 1)]]⟩, ⟨1, [[some (.bytes [121])], [none]]⟩]) := by
  obtain ⟨a, b, hab⟩ := Demo.encoded_two
  obtain ⟨n, k, s, h1, h2, h3⟩ := Demo.run_ok a b
  have hw := WritePhase.finished (env := Demo.conv.env) (whats := fun m => m ≠ []) (p := Demo.start) (nChunks := Demo.chunks.length)
    (groups := Demo.groups) (by decide +kernel) (by rw [← hab]; exact Demo.encoded_eq) h1 h2
  have hc := Converted.wrote (C := Demo.conv) (w := { whats := fun m => m ≠ [] }) (file := Demo.file) (start := 0) (by decide)
    Demo.res_eq Demo.chunks_eq Demo.groups_eq hw
  rw [if_neg (by decide +kernel), h3] at hc
  have hflat : FlatRows Demo.conv.read.dial Demo.written := by
    have lf : LF = 10 := rfl
    intro r hr
    simp only [Demo.written, List.mem_cons, List.not_mem_nil, or_false] at hr
    rcases hr with h | h | h <;> subst h <;>
      exact ⟨⟨by decide, by intro f hf; simp at hf; rcases hf with rfl | rfl <;> simp [WField.WF, Demo.conv, cfg0, ReadCfg.dial, lf],
        by simp [TameAfterPlain, WField.Tame, Demo.conv, cfg0, ReadCfg.dial]⟩,
        by intro f hf; simp at hf; rcases hf with rfl | rfl <;> simp [WField.Flat]⟩
  refine ⟨_, _, hc, by simp [Spoken], by decide +kernel, hflat, by decide +kernel, ?_, ?_, by decide +kernel, ?_, ?_, ?_⟩
  · exact flat_cutsOutside _ cfg0_sane _ _ _ (by decide) (by decide) _ hflat (by decide +kernel)
  · have hr : chunkRanges Demo.conv.read.cpu Demo.conv.read.quote Demo.file 0 Demo.conv.chunkSize = some [(0, 4), (4, 7)] := by
      decide +kernel
    intro rs hrs
    rw [hr, Option.some.injEq] at hrs
    subst hrs
    decide
  · have hall : (List.range 2).all (fun j => (Demo.conv.schema[j]?).all (fun cs =>
        ((tableOf Demo.conv.read.quote (commaPieces Demo.conv.read.nullValues) 2 Demo.written).getD j []).all (fun x => match x with
          | none => true
          | some v => !decide (storeText 16 (fun _ => false) (stored cs.type) v = .ub)))) = true := by decide +kernel
    intro j cs hj v hv
    have hjl : j < 2 := (List.getElem?_eq_some_iff.1 hj).1
    have h1 := List.all_eq_true.1 hall j (List.mem_range.2 hjl)
    rw [hj, Option.all_some, List.all_eq_true] at h1
    simpa [StoresUB, Demo.conv] using h1 _ hv
  · intro g _ p _
    exact pagesAgree_of_options _ _ _ (.inr rfl)
  · have ha : a = (Demo.encoded[0]'(by decide +kernel)) := by simp [hab]
    have hb : b = (Demo.encoded[1]'(by decide +kernel)) := by simp [hab]
    rw [ha, hb]
    decide +kernel

end Vroom

namespace Vroom
open Parquet Spec

/-- Non-vacuity of C34: the two chunks of the example satisfy its hypotheses. -/
example : ∃ cells, ChunksAre Demo.conv.schema Demo.chunks cells ∧ tableColumn cells 1 = [some (.num 1), none] := by
  obtain ⟨t, h1, h2⟩ := typed_chunks Demo.conv Demo.res.chunks
    (by
      have h : Demo.res.chunks.all (fun c => c.length == 2 && c.all (fun col => col.length == 1)) = true := by decide +kernel
      intro c hc
      have := List.all_eq_true.1 h c hc
      simp only [Bool.and_eq_true, beq_iff_eq, List.all_eq_true] at this
      exact ⟨this.1, 1, this.2⟩)
    (by
      have h : Demo.res.chunks.all (fun c => (Demo.conv.schema.zip c).all (fun p => decide (cellBytes p.2 < 2 ^ 32) &&
          p.2.all (fun x => match x with
            | .null => true
            | .text v => !decide (storeText 16 (fun _ => false) (stored p.1.type) v = .ub)))) = true := by decide +kernel
      intro c hc p hp
      have := List.all_eq_true.1 (List.all_eq_true.1 h c hc) p hp
      simp only [Bool.and_eq_true, decide_eq_true_eq, List.all_eq_true] at this
      refine ⟨?_, fun _ => this.1⟩
      intro v hv
      have := this.2 _ hv
      simpa [StoresUB, Demo.conv] using this)
  rw [Demo.chunks_eq, Option.some.injEq] at h1
  subst h1
  exact ⟨_, h2, by decide +kernel⟩

end Vroom
