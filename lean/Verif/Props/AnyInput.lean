import Verif.Props.CliArgs
import Verif.Props.ReaderBounds
import Verif.Props.MemSafe
import Verif.Lemmas.Minimum
import Mathlib.Tactic.SplitIfs
/-
C82: the commands on arbitrary bytes, not only on texts that a CSV writer produced.
-/
namespace Vroom.Spec
open Vroom

/-- The table a read delivered: for each column the texts of its cells, `none` for a missing one. -/
def textTable (n : Nat) (res : ReadResult) : List (List (Option (List UInt8))) := (wholeCols n res).map (fun col => col.map Cell.toOption)

end Vroom.Spec

namespace Vroom
open Parquet Spec

theorem build_none (lanes : Nat) (fb : List UInt8 → Option UInt64) (t : DataType) (cells : List Cell) (v : List UInt8) (hv : Cell.text v ∈ cells)
    (hub : StoresUB lanes fb (stored t) v) : ArrowColumn.build lanes fb t cells = none := by
  obtain ⟨h1, h2⟩ := create_hist0 t
  unfold ArrowColumn.build
  rw [← h1] at hub
  generalize ArrowColumn.create t = col at *
  clear h1
  generalize ([] : List (Option Val)) = xs at h2
  induction cells generalizing col xs with
  | nil => simp at hv
  | cons c cs ih =>
    rw [List.foldlM_cons]
    by_cases hc : ∃ w, c = .text w ∧ StoresUB lanes fb col.type w
    · obtain ⟨w, rfl, hw⟩ := hc
      have : col.appendCell lanes fb (.text w) = none := by
        unfold ArrowColumn.appendCell ArrowColumn.appendText
        unfold StoresUB at hw
        dsimp only
        rw [hw]
      rw [this]; rfl
    · obtain ⟨c1, e1, e2, e3⟩ := appendCell_hist lanes fb h2 c (fun w hw hb => hc ⟨w, hw, hb⟩)
      rw [e1]
      have hv' : Cell.text v ∈ cs := by
        rcases List.mem_cons.1 hv with h | h
        · exact absurd ⟨v, h.symm, hub⟩ hc
        · exact h
      exact ih hv' c1 (by rw [e2]; exact hub) _ e3

theorem mapM_none {α β : Type} (f : α → Option β) : ∀ (l : List α) (x : α), x ∈ l → f x = none → l.mapM f = none := by
  intro l
  induction l with
  | nil => intro x hx; simp at hx
  | cons a as ih =>
    intro x hx hf
    rw [List.mapM_cons]
    rcases List.mem_cons.1 hx with rfl | hx
    · rw [hf]; rfl
    · rw [ih x hx hf]
      cases f a <;> rfl

theorem headerGo_ne (sep q : UInt8) : ∀ (k : Nat) (l : List UInt8) (inq : Bool) (cur : List UInt8) (hs : List (List UInt8)), l.length ≤ k → headerGo sep q inq cur hs l ≠ [] := by
  intro k
  induction k with
  | zero =>
    intro l inq cur hs hl
    have : l = [] := by simpa using hl
    subst this
    rw [headerGo.eq_def]
    dsimp only
    split_ifs with h
    · simp
    · intro h2; exact h (.inr h2)
  | succ k ih =>
    intro l inq cur hs hl
    rw [headerGo.eq_def]
    cases l with
    | nil =>
      dsimp only
      split_ifs with h
      · simp
      · intro h2; exact h (.inr h2)
    | cons c rest =>
      dsimp only
      simp only [List.length_cons] at hl
      split_ifs with h1 h2 h3 h4
      · simp
      · cases rest with
        | nil => exact ih _ _ _ _ (by simp)
        | cons d r =>
          simp only [List.length_cons] at hl
          dsimp only
          split_ifs
          · exact ih _ _ _ _ (by omega)
          · exact ih _ _ _ _ (by simp only [List.length_cons]; omega)
      · exact ih _ _ _ _ (by omega)
      · exact ih _ _ _ _ (by omega)
      · exact ih _ _ _ _ (by omega)

theorem countCols_ge (sep q : UInt8) : ∀ (k : Nat) (l : List UInt8) (inq : Bool) (n : Nat), l.length ≤ k → n ≤ countCols sep q inq n l := by
  intro k
  induction k with
  | zero =>
    intro l inq n hl
    have : l = [] := by simpa using hl
    subst this
    rw [countCols.eq_def]
  | succ k ih =>
    intro l inq n hl
    rw [countCols.eq_def]
    cases l with
    | nil => exact Nat.le_refl _
    | cons c rest =>
      dsimp only
      simp only [List.length_cons] at hl
      split_ifs with h1 h2
      · cases rest with
        | nil => exact Nat.le_refl _
        | cons d r =>
          simp only [List.length_cons] at hl
          dsimp only
          split_ifs
          · exact ih _ _ _ (by omega)
          · exact ih _ _ _ (by simp only [List.length_cons]; omega)
      · exact Nat.le_trans (Nat.le_succ n) (ih _ _ _ (by omega))
      · exact ih _ _ _ (by omega)

theorem assignTypes_length (s : List ColSchema) (t : List DataType) : (assignTypes s t).length = s.length := by
  unfold assignTypes; simp

/-- **C82** A successful `open` finds at least one column, whatever the bytes. -/
theorem C82_open_columns (cfg : InferCfg) (sampleRows : Nat) (st st' : ReaderState) (file : List UInt8)
    (h : openData cfg sampleRows st file = (none, st')) : st'.schema ≠ [] ∧ st'.dataStart ≤ file.length := by
  have hst := openData_start cfg sampleRows st file
  rw [h] at hst
  refine ⟨?_, hst rfl⟩
  unfold openData at h
  dsimp only at h
  by_cases h0 : file.length = 0
  · rw [if_pos h0] at h; cases h
  rw [if_neg h0] at h
  have hgt := findRowEnd_gt cfg.cpu cfg.quote file 0 (by omega)
  have hpos : ∀ s t, s ≠ [] → assignTypes s t ≠ [] := by
    intro s t hs hz
    have := congrArg List.length hz
    rw [assignTypes_length] at this
    exact hs (List.length_eq_zero_iff.1 this)
  split_ifs at h with h1 h2
  · cases h
  · cases h
    apply hpos
    unfold parseHeader
    rw [if_neg (by rw [List.length_take]; omega)]
    have := headerGo_ne cfg.sep cfg.quote _ (file.take (findRowEnd cfg.cpu cfg.quote file 0)) false [] [] (Nat.le_refl _)
    simp [this]
  · cases h
    apply hpos
    have := countCols_ge cfg.sep cfg.quote _ (file.take (findRowEnd cfg.cpu cfg.quote file 0)) false 1 (Nat.le_refl _)
    intro hz
    have := congrArg List.length hz
    simp at this
    omega

/-- Reading after a successful `open`, with the code's own constants. -/
theorem read_any (o : FileOpts) (data : List UInt8) (st : ReaderState) (h : openData o.infer o.sampleRows (ReaderState.new o.mode o.maxErrors) data = (none, st)) :
    ∃ res, readAll' o.read st.schema.length o.nThreads data st.dataStart = some res ∧ Rectangular st.schema.length res ∧ res.chunks ≠ [] ∧
      (res.chunks.map (fun c => (c.map textBytes).sum)).sum ≤ data.length := by
  obtain ⟨hne, hs⟩ := C82_open_columns _ _ _ _ _ h
  have hpos : 0 < calculateChunkSize (data.length - st.dataStart) st.schema.length o.nThreads :=
    Nat.lt_of_lt_of_le (by decide) (C50_chunk_size_bounds (data.length - st.dataStart) st.schema.length o.nThreads).1
  obtain ⟨res, h1, h2⟩ := C08_read_rectangular o.read st.schema.length (1024 * 1024) _ hpos data st.dataStart hs
  obtain ⟨res', h1', h3⟩ := C60_no_amplification o.read st.schema.length (1024 * 1024) _ hpos data st.dataStart hs
  rw [h1, Option.some.injEq] at h1'
  subst h1'
  exact ⟨res, h1, h2, readAll_chunks_ne _ _ _ _ (by simpa using hne) _ _ _ h1, by omega⟩

theorem sum_mem_le : ∀ (l : List Nat) (x : Nat), x ∈ l → x ≤ l.sum := by
  intro l
  induction l with
  | nil => intro x hx; simp at hx
  | cons a as ih =>
    intro x hx
    rw [List.sum_cons]
    rcases List.mem_cons.1 hx with rfl | hx
    · omega
    · have := ih x hx; omega

theorem textTable_getD (n : Nat) (res : ReadResult) (j : Nat) (hj : j < n) :
    (textTable n res).getD j [] = ((res.chunks.map (fun c => c.getD j [])).flatten).map Cell.toOption := by
  simp [textTable, wholeCols, List.getD_eq_getElem?_getD, hj]

/-- What a command does after a successful `open`. -/
theorem run_opened (c : CliCmd) (L : Libc) (o : FileOpts) (data : List UInt8) (st : ReaderState)
    (h : openData o.infer o.sampleRows (ReaderState.new o.mode o.maxErrors) data = (none, st)) :
    c.run L o (.file data) = c.onTable L o st data := by
  unfold CliCmd.run
  dsimp only
  rw [h]

theorem run_refused (c : CliCmd) (L : Libc) (o : FileOpts) (data : List UInt8) (e : OpenErr) (st : ReaderState)
    (h : openData o.infer o.sampleRows (ReaderState.new o.mode o.maxErrors) data = (some e, st)) :
    c.run L o (.file data) = some (c.onOpenError o e.msg) := by
  unfold CliCmd.run
  dsimp only
  rw [h]

/-- The typed chunks, when no integer column holds its minimum and the texts fit string columns. -/
theorem typed_any (L : Libc) (o : FileOpts) (data : List UInt8) (st : ReaderState) (res : ReadResult) (hne : st.schema ≠ [])
    (hrect : Rectangular st.schema.length res) (hch : res.chunks ≠ []) (hbytes : (res.chunks.map (fun c => (c.map textBytes).sum)).sum < 2 ^ 32)
    (hmin : ¬ HasMinimum (st.schema.map (·.type)) (textTable st.schema.length res)) :
    ∃ chunks cells, (o.conv st data).typed res.chunks = some chunks ∧ ChunksAre st.schema chunks cells ∧ chunks ≠ [] ∧
      (∀ i j, shown L st.schema cells i j = displayed L o.lanes o.floatBits (st.schema.map (·.type)) (textTable st.schema.length res) i j) ∧
      rowTotal cells = res.totalRows := by
  have hfacts : ∀ c ∈ res.chunks, ∀ p ∈ (o.conv st data).schema.zip c,
      (∀ v, Cell.text v ∈ p.2 → ¬ StoresUB (o.conv st data).lanes (o.conv st data).floatBits (stored p.1.type) v) ∧
      (stored p.1.type = .string → cellBytes p.2 < 2 ^ 32) := by
    intro c hcm p hp
    obtain ⟨j, hj⟩ := List.getElem?_of_mem hp
    rw [List.getElem?_zip_eq_some] at hj
    have hjl : j < st.schema.length := (List.getElem?_eq_some_iff.1 hj.1).1
    refine ⟨?_, ?_⟩
    · intro v hv hub
      rw [storesUB_iff] at hub
      refine hmin ⟨j, p.1.type, v, ?_, ?_, hub⟩
      · rw [List.getElem?_map, show st.schema[j]? = some p.1 from hj.1]; rfl
      · rw [textTable_getD _ _ _ hjl]
        refine List.mem_map.2 ⟨_, List.mem_flatten.2 ⟨_, List.mem_map.2 ⟨c, hcm, ?_⟩, hv⟩, rfl⟩
        rw [List.getD_eq_getElem?_getD, hj.2]; rfl
    · intro _
      rw [cellBytes_eq_textBytes]
      have h1 := sum_mem_le _ _ (List.mem_map.2 ⟨c, hcm, rfl⟩ : (fun c : Cols => (c.map textBytes).sum) c ∈ res.chunks.map (fun c => (c.map textBytes).sum))
      have h2 := sum_mem_le _ _ (List.mem_map.2 ⟨p.2, List.mem_of_getElem? hj.2, rfl⟩ : textBytes p.2 ∈ c.map textBytes)
      dsimp only at h1
      omega
  obtain ⟨typed, t1, t2⟩ := typed_chunks (o.conv st data) res.chunks hrect.1 hfacts
  have hlen' : ∀ c ∈ res.chunks, c.length = (o.conv st data).schema.length := fun c hc => (hrect.1 c hc).1
  have hcols : ∀ j cs, st.schema[j]? = some cs → tableColumn (res.chunks.map (fun c => ((o.conv st data).schema.zip c).map
        (fun p => p.2.map (fun x => cellVal (o.conv st data).lanes (o.conv st data).floatBits (stored p.1.type) x.toOption)))) j =
      ((textTable st.schema.length res).getD j []).map (cellVal o.lanes o.floatBits (stored cs.type)) := by
    intro j cs hj
    rw [typed_column (o.conv st data) res.chunks hlen' j cs hj, textTable_getD _ _ _ (List.getElem?_eq_some_iff.1 hj).1, List.map_map]
    rfl
  refine ⟨typed, _, t1, t2, ?_, ?_, ?_⟩
  · intro hz
    rw [hz] at t2
    have := chunksAre_length t2
    rw [List.length_map, List.length_nil] at this
    exact hch (List.length_eq_zero_iff.1 (by omega))
  · intro i j
    unfold shown displayed
    rw [List.getElem?_map]
    cases hj : st.schema[j]? with
    | none => rfl
    | some c =>
      have := hcols j c hj
      dsimp only [Option.map_some]
      rw [this]
      have e : ∀ (l : List (Option (List UInt8))), (l.map (cellVal o.lanes o.floatBits (stored c.type))).getD i none =
          cellVal o.lanes o.floatBits (stored c.type) (l.getD i none) := by
        intro l
        rw [List.getD_eq_getElem?_getD, List.getD_eq_getElem?_getD, List.getElem?_map]
        cases l[i]? <;> rfl
      exact congrArg _ (e _)
  · have hpos : 0 < st.schema.length := List.length_pos_iff.2 hne
    unfold rowTotal
    rw [hcols 0 _ (List.getElem?_eq_getElem hpos), List.length_map, textTable_getD _ _ _ hpos, List.length_map]
    have := hrect.2 0 hpos
    simpa [wholeCols, List.getD_eq_getElem?_getD, hpos] using this

theorem typed_minimum (o : FileOpts) (data : List UInt8) (st : ReaderState) (res : ReadResult) (hrect : Rectangular st.schema.length res)
    (hmin : HasMinimum (st.schema.map (·.type)) (textTable st.schema.length res)) : (o.conv st data).typed res.chunks = none := by
  obtain ⟨j, t, v, hj, hv, hm⟩ := hmin
  rw [List.getElem?_map, Option.map_eq_some_iff] at hj
  obtain ⟨cs, hcs, rfl⟩ := hj
  have hjl := (List.getElem?_eq_some_iff.1 hcs).1
  rw [textTable_getD _ _ _ hjl] at hv
  obtain ⟨cell, hc1, hc2⟩ := List.mem_map.1 hv
  have hcell : cell = .text v := by cases cell <;> simp [Cell.toOption] at hc2 ⊢; exact hc2
  subst hcell
  obtain ⟨col, hcol, hvc⟩ := List.mem_flatten.1 hc1
  obtain ⟨c, hcm, rfl⟩ := List.mem_map.1 hcol
  have hl := (hrect.1 c hcm).1
  unfold ConvCfg.typed
  refine mapM_none _ _ c hcm ?_
  have hcj : c[j]? = some (c.getD j []) := by
    rw [List.getD_eq_getElem?_getD, List.getElem?_eq_getElem (by omega)]; rfl
  refine mapM_none _ _ (cs, c.getD j []) ?_ ?_
  · refine List.mem_of_getElem? (i := j) ?_
    rw [List.getElem?_zip_eq_some]
    exact ⟨hcs, hcj⟩
  · exact build_none _ _ _ _ v hvc ((storesUB_iff _ _ _ _).2 hm)

theorem build_defined (lanes : Nat) (fb : List UInt8 → Option UInt64) (t : DataType) (cells : List Cell)
    (h : ∀ v, Cell.text v ∈ cells → ¬ StoresUB lanes fb (stored t) v) : (ArrowColumn.build lanes fb t cells).isSome = true := by
  obtain ⟨h1, h2⟩ := create_hist0 t
  obtain ⟨col, e, -⟩ := build_hist0 lanes fb cells h2 (by rw [h1]; exact h)
  unfold ArrowColumn.build
  rw [e]; rfl

theorem mapM_isSome {α β : Type} (f : α → Option β) : ∀ (l : List α), (∀ x ∈ l, (f x).isSome = true) → (l.mapM f).isSome = true := by
  intro l
  induction l with
  | nil => intro _; rfl
  | cons a as ih =>
    intro h
    have ha := h a (by simp)
    have hr := ih (fun x hx => h x (List.mem_cons_of_mem _ hx))
    rw [List.mapM_cons]
    obtain ⟨y, hy⟩ := Option.isSome_iff_exists.1 ha
    obtain ⟨z, hz⟩ := Option.isSome_iff_exists.1 hr
    rw [hy, hz]; rfl

theorem typed_defined (o : FileOpts) (data : List UInt8) (st : ReaderState) (res : ReadResult)
    (hmin : ¬ HasMinimum (st.schema.map (·.type)) (textTable st.schema.length res)) : ((o.conv st data).typed res.chunks).isSome = true := by
  unfold ConvCfg.typed
  refine mapM_isSome _ _ (fun c hcm => mapM_isSome _ _ (fun p hp => build_defined _ _ _ _ (fun v hv hub => ?_)))
  obtain ⟨j, hj⟩ := List.getElem?_of_mem hp
  rw [List.getElem?_zip_eq_some] at hj
  have hjl : j < st.schema.length := (List.getElem?_eq_some_iff.1 hj.1).1
  rw [storesUB_iff] at hub
  refine hmin ⟨j, p.1.type, v, ?_, ?_, hub⟩
  · rw [List.getElem?_map, show st.schema[j]? = some p.1 from hj.1]; rfl
  · rw [textTable_getD _ _ _ hjl]
    refine List.mem_map.2 ⟨_, List.mem_flatten.2 ⟨_, List.mem_map.2 ⟨c, hcm, ?_⟩, hv⟩, rfl⟩
    rw [List.getD_eq_getElem?_getD, hj.2]; rfl

/-! ### The commands -/

theorem chunks_none (o : FileOpts) (data : List UInt8) (st : ReaderState) (res : ReadResult)
    (h : readAll' o.read st.schema.length o.nThreads data st.dataStart = some res) :
    readAll (o.conv st data).read (o.conv st data).schema.length (o.conv st data).threshold (o.conv st data).chunkSize data st.dataStart = some res := h

/-- **C82** Exactly when a command runs into undefined behaviour, for every input file, option and command: the file was opened, and an integer
column of the table read holds its type's smallest number (for `select`: if the columns asked for exist). -/
theorem C82_undefined_iff (c : CliCmd) (L : Libc) (o : FileOpts) (data : List UInt8) :
    c.run L o (.file data) = none ↔
      ∃ st res, openData o.infer o.sampleRows (ReaderState.new o.mode o.maxErrors) data = (none, st) ∧
        readAll' o.read st.schema.length o.nThreads data st.dataStart = some res ∧
        HasMinimum (st.schema.map (·.type)) (textTable st.schema.length res) ∧
        (∀ spec, c = .select spec → ∃ l, resolveColumns o.infer.hasHeader (st.schema.map (·.name)) spec = .cols l) := by
  cases ho : openData o.infer o.sampleRows (ReaderState.new o.mode o.maxErrors) data with
  | mk e st =>
  cases e with
  | some e =>
    rw [run_refused c L o data e st ho]
    simp
  | none =>
    rw [run_opened c L o data st ho]
    obtain ⟨hne, -⟩ := C82_open_columns _ _ _ _ _ ho
    obtain ⟨res, h1, h2, h3, h4⟩ := read_any o data st ho
    have hred : (∃ st' res', (none, st) = ((none : Option OpenErr), st') ∧ readAll' o.read st'.schema.length o.nThreads data st'.dataStart = some res' ∧
        HasMinimum (st'.schema.map (·.type)) (textTable st'.schema.length res') ∧
        (∀ spec, c = .select spec → ∃ l, resolveColumns o.infer.hasHeader (st'.schema.map (·.name)) spec = .cols l)) ↔
        HasMinimum (st.schema.map (·.type)) (textTable st.schema.length res) ∧
        (∀ spec, c = .select spec → ∃ l, resolveColumns o.infer.hasHeader (st.schema.map (·.name)) spec = .cols l) := by
      constructor
      · rintro ⟨st', res', e1, e2, e3, e4⟩
        cases e1
        rw [h1, Option.some.injEq] at e2
        subst e2
        exact ⟨e3, e4⟩
      · rintro ⟨e3, e4⟩
        exact ⟨st, res, rfl, h1, e3, e4⟩
    rw [hred]
    have htyped : (o.conv st data).typed res.chunks = none ↔ HasMinimum (st.schema.map (·.type)) (textTable st.schema.length res) := by
      refine ⟨fun hn => ?_, typed_minimum o data st res h2⟩
      by_contra hc
      have := typed_defined o data st res hc
      rw [hn] at this
      exact absurd this (by simp)
    unfold CliCmd.onTable
    dsimp only
    rw [chunks_none o data st res h1]
    simp only [Option.bind_eq_bind, Option.bind_some]
    cases c with
    | select spec =>
      dsimp only
      cases hr : resolveColumns o.infer.hasHeader (st.schema.map (·.name)) spec with
      | abort => simp [hr]
      | error => simp [hr]
      | cols l =>
        simp only [Option.map_eq_none_iff, Option.bind_eq_none_iff, Option.pure_def]
        rw [← htyped]
        constructor
        · intro h
          refine ⟨?_, fun spec' hs => ?_⟩
          · cases ht : (o.conv st data).typed res.chunks with
            | none => rfl
            | some x => exact absurd (h x ht) (by simp)
          · cases hs; exact ⟨l, hr⟩
        · rintro ⟨h, -⟩ a ha
          rw [h] at ha; cases ha
    | _ =>
      simp only [Option.map_eq_none_iff, Option.bind_eq_none_iff, Option.pure_def, reduceCtorEq, false_implies, implies_true, and_true]
      rw [← htyped]
      cases ht : (o.conv st data).typed res.chunks with
      | none => simp
      | some x => simp


theorem onTable_defined (c : CliCmd) (L : Libc) (o : FileOpts) (data : List UInt8) (st : ReaderState) (res : ReadResult) (chunks : List (List ArrowColumn))
    (h1 : readAll' o.read st.schema.length o.nThreads data st.dataStart = some res) (h2 : (o.conv st data).typed res.chunks = some chunks) :
    c.onTable L o st data = (match c with
        | .count => some (.exit 0 (decText (ReadResult.totalRows res) ++ [LF]))
        | .head n => some (.exit 0 (headOut L o.infer.sep o.infer.quote o.infer.hasHeader n (st.schema.map (·.name)) chunks))
        | .pretty n => some (.exit 0 (prettyOut L o.infer.hasHeader n (st.schema.map (·.name)) chunks))
        | .info label => some (.exit 0 (infoOut label data.length o.infer.sep o.infer.quote (ReadResult.totalRows res) st.schema.length
            o.infer.hasHeader (st.schema.map (fun c => (c.name, c.type)))))
        | .select spec =>
          match resolveColumns o.infer.hasHeader (st.schema.map (·.name)) spec with
          | .abort => some .abort
          | .error => some (.exit 1 [])
          | .cols l => some (.exit 0 (selectOut L o.infer.sep o.infer.quote o.infer.hasHeader (st.schema.map (·.name)) l chunks))) := by
  unfold CliCmd.onTable
  dsimp only
  rw [chunks_none o data st res h1]
  simp only [Option.bind_eq_bind, Option.bind_some, h2, Option.map_some, Option.pure_def]
  cases c <;> rfl

/-- Everything about a file that was opened and read. -/
structure Spec.ReadFile (o : FileOpts) (data : List UInt8) (names : List (List UInt8)) (types : List DataType)
    (table : List (List (Option (List UInt8)))) (rows : Nat) : Prop where
  /-- `open` and `read_all` succeed; these are the schema, the table and the number of rows they give. -/
  read : ∃ st res, openData o.infer o.sampleRows (ReaderState.new o.mode o.maxErrors) data = (none, st) ∧
    readAll' o.read st.schema.length o.nThreads data st.dataStart = some res ∧
    names = st.schema.map (·.name) ∧ types = st.schema.map (·.type) ∧ table = textTable st.schema.length res ∧ rows = res.totalRows

/-- **C82** Whatever the bytes: if the file can be opened then it can be read, every column has a value in every row, and there is a column. -/
theorem C82_read (o : FileOpts) (data : List UInt8) (st : ReaderState)
    (h : openData o.infer o.sampleRows (ReaderState.new o.mode o.maxErrors) data = (none, st)) :
    ∃ table rows, ReadFile o data (st.schema.map (·.name)) (st.schema.map (·.type)) table rows ∧ table.length = st.schema.length ∧ table ≠ [] ∧
      ∀ col ∈ table, col.length = rows := by
  obtain ⟨hne, -⟩ := C82_open_columns _ _ _ _ _ h
  obtain ⟨res, h1, h2, -, -⟩ := read_any o data st h
  refine ⟨_, _, ⟨⟨st, res, h, h1, rfl, rfl, rfl, rfl⟩⟩, by simp [textTable, wholeCols], ?_, ?_⟩
  · intro hz
    have := congrArg List.length hz
    simp [textTable, wholeCols] at this
    exact hne this
  · intro col hcol
    obtain ⟨j, hj⟩ := List.getElem?_of_mem hcol
    have hjl : j < st.schema.length := by
      have := (List.getElem?_eq_some_iff.1 hj).1
      simpa [textTable, wholeCols] using this
    have e : (textTable st.schema.length res).getD j [] = col := by rw [List.getD_eq_getElem?_getD, hj]; rfl
    rw [← e, textTable_getD _ _ _ hjl, List.length_map]
    have := h2.2 j hjl
    simpa [wholeCols, List.getD_eq_getElem?_getD, hjl] using this

theorem run_read (c : CliCmd) (L : Libc) {o : FileOpts} {data names types table rows} (h : ReadFile o data names types table rows)
    (hmin : ¬ HasMinimum types table) (hsize : data.length < 2 ^ 32) :
    ∃ schema chunks cells, schema.length = names.length ∧ schema ≠ [] ∧ ChunksAre schema chunks cells ∧ chunks ≠ [] ∧
      (∀ i j, shown L schema cells i j = displayed L o.lanes o.floatBits types table i j) ∧ rowTotal cells = rows ∧
      c.run L o (.file data) = (match c with
        | .count => some (.exit 0 (decText rows ++ [LF]))
        | .head n => some (.exit 0 (headOut L o.infer.sep o.infer.quote o.infer.hasHeader n names chunks))
        | .pretty n => some (.exit 0 (prettyOut L o.infer.hasHeader n names chunks))
        | .info label => some (.exit 0 (infoOut label data.length o.infer.sep o.infer.quote rows names.length o.infer.hasHeader (names.zip types)))
        | .select spec =>
          match resolveColumns o.infer.hasHeader names spec with
          | .abort => some .abort
          | .error => some (.exit 1 [])
          | .cols l => some (.exit 0 (selectOut L o.infer.sep o.infer.quote o.infer.hasHeader names l chunks))) := by
  obtain ⟨st, res, ho, h1, rfl, rfl, rfl, rfl⟩ := h.read
  obtain ⟨hne, -⟩ := C82_open_columns _ _ _ _ _ ho
  obtain ⟨res', h1', h2, h3, h4⟩ := read_any o data st ho
  rw [h1, Option.some.injEq] at h1'
  subst h1'
  obtain ⟨chunks, cells, e1, e2, e3, e4, e5⟩ := typed_any L o data st res hne h2 h3 (by omega) hmin
  refine ⟨st.schema, chunks, cells, by simp, hne, e2, e3, e4, e5, ?_⟩
  rw [run_opened c L o data st ho, onTable_defined c L o data st res chunks h1 e1]
  have hz : st.schema.map (fun c => (c.name, c.type)) = (st.schema.map (·.name)).zip (st.schema.map (·.type)) := by rw [List.zip_map']
  cases c with
  | info label => simp only [hz, List.length_map]
  | _ => rfl

/-- **C82** `count` prints the number of rows read. -/
theorem C82_count_partial (L : Libc) {o : FileOpts} {data names types table rows} (h : ReadFile o data names types table rows)
    (hmin : ¬ HasMinimum types table) (hsize : data.length < 2 ^ 32) :
    CliCmd.count.run L o (.file data) = some (.exit 0 (asc (toString rows) ++ [10])) := by
  obtain ⟨schema, chunks, cells, -, -, -, -, -, -, h8⟩ := run_read .count L h hmin hsize
  rw [h8]; rfl

/-- **C82** `head -n N` prints the names (if there is a header) and the first `N` rows of the table read, as CSV. -/
theorem C82_head_partial (L : Libc) {o : FileOpts} {data names types table rows} (h : ReadFile o data names types table rows)
    (hmin : ¬ HasMinimum types table) (hsize : data.length < 2 ^ 32) (n : Nat) :
    (CliCmd.head n).run L o (.file data) = some (.exit 0 ((if o.infer.hasHeader then csvLine o.infer.marks names else []) ++
      (List.range (min n rows)).flatMap
        (fun i => csvLine o.infer.marks ((List.range names.length).map (displayed L o.lanes o.floatBits types table i))))) := by
  obtain ⟨schema, chunks, cells, hl, hne, h3, h4, h5, h6, h8⟩ := run_read (.head n) L h hmin hsize
  rw [h8]
  dsimp only
  have := C64_head L o.infer.marks rfl o.infer.hasHeader n hne h3 h4 names
  rw [show o.infer.sep = o.infer.marks.sep from rfl, show o.infer.quote = o.infer.marks.quote from rfl, this, h6, hl]
  congr 4
  funext i
  congr 2
  funext j
  exact h5 i j

/-- **C82** `pretty -n N` draws the same rows. -/
theorem C82_pretty_partial (L : Libc) {o : FileOpts} {data names types table rows} (h : ReadFile o data names types table rows)
    (hmin : ¬ HasMinimum types table) (hsize : data.length < 2 ^ 32) (n : Nat) :
    (CliCmd.pretty n).run L o (.file data) = some (.exit 0 ((tableLines o.infer.hasHeader ((if o.infer.hasHeader then [names] else []) ++
      (List.range (min n rows)).map (fun i => (List.range names.length).map (displayed L o.lanes o.floatBits types table i)))).flatMap (· ++ [10]))) := by
  obtain ⟨schema, chunks, cells, hl, hne, h3, h4, h5, h6, h8⟩ := run_read (.pretty n) L h hmin hsize
  rw [h8]
  dsimp only
  unfold prettyOut
  rw [if_neg (by simp [h4]), C66_pretty_drawn, emitChunks_eq, Nat.sub_zero, chunks_all L hne h3, ← List.map_take, List.take_range, h6, hl]
  congr 6
  funext i
  congr 1
  funext j
  exact h5 i j

/-- **C82** `info` reports the size, the number of rows and the columns with their types. -/
theorem C82_info_partial (L : Libc) {o : FileOpts} {data names types table rows} (h : ReadFile o data names types table rows)
    (hmin : ¬ HasMinimum types table) (hsize : data.length < 2 ^ 32) (label : List UInt8) :
    (CliCmd.info label).run L o (.file data) = some (.exit 0
      ((infoLines label data.length o.infer.sep o.infer.quote rows names.length o.infer.hasHeader (names.zip types)).flatMap (· ++ [10]))) := by
  obtain ⟨schema, chunks, cells, hl, hne, -, -, -, -, h8⟩ := run_read (.info label) L h hmin hsize
  rw [h8]
  dsimp only
  obtain ⟨st, res, ho, h1, e1, e2, e3, e4⟩ := h.read
  rw [infoOut_lines]
  intro hz
  have hl1 : names.length = types.length := by rw [e1, e2]; simp
  have := congrArg List.length hz
  rw [List.length_zip, List.length_nil] at this
  have := List.length_pos_iff.2 hne
  omega

/-- **C82** `select` prints the columns asked for, of all rows read. -/
theorem C82_select_partial (L : Libc) {o : FileOpts} {data names types table rows} (h : ReadFile o data names types table rows)
    (hmin : ¬ HasMinimum types table) (hsize : data.length < 2 ^ 32) (pieces : List (List UInt8)) (hne : pieces ≠ [])
    (hp : ∀ p ∈ pieces, (44 : UInt8) ∉ p) (hn : names.length ≤ 2 ^ 64)
    (cols : List Nat) (hc : cols ≠ []) (hcols : List.Forall₂ (Picks o.infer.hasHeader names) (words pieces) cols) :
    (CliCmd.select (joinFields 44 pieces)).run L o (.file data) = some (.exit 0
      ((if o.infer.hasHeader then csvLine o.infer.marks (cols.map (fun j => names.getD j [])) else []) ++
        (List.range rows).flatMap (fun i => csvLine o.infer.marks (cols.map (displayed L o.lanes o.floatBits types table i))))) := by
  have hspec := (C67_resolve o.infer.hasHeader names hn pieces hne hp cols).2 ⟨hc, hcols⟩
  have hlt := C67_in_range o.infer.hasHeader names hn _ cols hspec
  obtain ⟨schema, chunks, cells, hl, hne, h3, h4, h5, h6, h8⟩ := run_read (.select (joinFields 44 pieces)) L h hmin hsize
  rw [h8]
  dsimp only
  rw [hspec]
  dsimp only
  have := C67_select L o.infer.marks rfl o.infer.hasHeader hne h3 names cols (by rw [hl]; exact hlt)
  rw [show o.infer.sep = o.infer.marks.sep from rfl, show o.infer.quote = o.infer.marks.quote from rfl, this, h6]
  congr 4
  funext i
  congr 2
  funext j
  exact h5 i j


/-! ### Inputs that cannot trigger it -/

theorem minimum_minus {t : DataType} {v : List UInt8} (h : IsMinimum t v) : (45 : UInt8) ∈ v := by
  have key : ∀ z : Int, z < 0 → IntLit v z → (45 : UInt8) ∈ v := by
    intro z hz hl
    cases hl with
    | bare _ _ => omega
    | plus ds _ _ => omega
    | minus ds _ _ => simp
  rcases h with ⟨-, h, -⟩ | ⟨-, h, -⟩
  · exact key _ (by decide) h
  · exact key _ (by decide) h

theorem rowMajor_mem (m : Nat) (c : Cols) (col : List Cell) (hcol : col ∈ c) (hm : col.length = m) (v : List UInt8) (hv : Cell.text v ∈ col) :
    ∀ b ∈ v, b ∈ rowMajor m c := by
  intro b hb
  obtain ⟨i, hi⟩ := List.getElem?_of_mem hv
  have hil : i < m := by rw [← hm]; exact (List.getElem?_eq_some_iff.1 hi).1
  unfold rowMajor
  refine List.mem_flatMap.2 ⟨i, List.mem_range.2 hil, List.mem_flatMap.2 ⟨col, hcol, ?_⟩⟩
  rw [List.getD_eq_getElem?_getD, hi]
  exact hb

/-- **C82** Every byte of every text delivered occurs in the file, so a file without a minus sign holds no integer minimum. -/
theorem C82_no_minimum {o : FileOpts} {data names types table rows} (h : ReadFile o data names types table rows) (hm : (45 : UInt8) ∉ data) :
    ¬ HasMinimum types table := by
  obtain ⟨st, res, ho, h1, rfl, rfl, rfl, rfl⟩ := h.read
  rintro ⟨j, t, v, hj, hv, hmin⟩
  apply hm
  obtain ⟨hne, hs⟩ := C82_open_columns _ _ _ _ _ ho
  have hpos : 0 < calculateChunkSize (data.length - st.dataStart) st.schema.length o.nThreads :=
    Nat.lt_of_lt_of_le (by decide) (C50_chunk_size_bounds (data.length - st.dataStart) st.schema.length o.nThreads).1
  obtain ⟨res', e1, e2, -⟩ := C60_read_from_text o.read st.schema.length (1024 * 1024) _ hpos data st.dataStart hs
  obtain ⟨res'', g1, g2⟩ := C08_read_rectangular o.read st.schema.length (1024 * 1024) _ hpos data st.dataStart hs
  unfold readAll' at h1
  rw [h1, Option.some.injEq] at e1 g1
  subst e1 g1
  have hjl : j < st.schema.length := by
    have := (List.getElem?_eq_some_iff.1 hj).1
    simpa using this
  rw [textTable_getD _ _ _ hjl] at hv
  obtain ⟨cell, hc1, hc2⟩ := List.mem_map.1 hv
  have hcell : cell = .text v := by cases cell <;> simp [Cell.toOption] at hc2 ⊢; exact hc2
  subst hcell
  obtain ⟨col, hcol, hvc⟩ := List.mem_flatten.1 hc1
  obtain ⟨c, hcm, rfl⟩ := List.mem_map.1 hcol
  obtain ⟨hl, m, hm'⟩ := g2.1 c hcm
  have hcj : c.getD j [] ∈ c := by
    rw [List.getD_eq_getElem?_getD, List.getElem?_eq_getElem (by omega), Option.getD_some]
    exact List.getElem_mem _
  have hhead : (c.headD []).length = m := by
    cases c with
    | nil => simp at hl; omega
    | cons x xs => exact hm' x (by simp)
  have := rowMajor_mem m c _ hcj (hm' _ hcj) v hvc 45 (minimum_minus hmin)
  refine List.mem_of_mem_drop (i := st.dataStart) (e2.subset (List.mem_flatMap.2 ⟨c, hcm, ?_⟩))
  rw [hhead]
  exact this

/-- **C82** So every command has a defined outcome on it. -/
theorem C82_defined (c : CliCmd) (L : Libc) (o : FileOpts) (data : List UInt8) (hm : (45 : UInt8) ∉ data) : ∃ out, c.run L o (.file data) = some out := by
  cases hr : c.run L o (.file data) with
  | some out => exact ⟨out, rfl⟩
  | none =>
    obtain ⟨st, res, h1, h2, h3, -⟩ := (C82_undefined_iff c L o data).1 hr
    exact absurd h3 (C82_no_minimum ⟨⟨st, res, h1, h2, rfl, rfl, rfl, rfl⟩⟩ hm)

theorem splitComma_pieces (s : List UInt8) : splitComma s = commaPieces s := by
  induction s with
  | nil => rfl
  | cons c r ih =>
    simp only [splitComma, commaPieces, ih]
    cases commaPieces r <;> rfl

theorem resolveGo_abort (hasHeader : Bool) (names : List (List UInt8)) : ∀ (ps : List (List UInt8)) (acc : List Nat),
    resolveGo hasHeader names acc ps = .abort → ∃ w ∈ words ps, allDigits w ∧ 2 ^ 64 ≤ decValue w := by
  intro ps
  induction ps with
  | nil =>
    intro acc h
    simp only [resolveGo] at h
    split_ifs at h
  | cons p rest ih =>
    intro acc h
    have hw : words (p :: rest) = if trimSpec p = [] then words rest else trimSpec p :: words rest := by
      unfold words
      have ht : trimEnd (trimStart p) = trimSpec p := rfl
      rw [List.map_cons, List.filter_cons, ht]
      by_cases h : trimSpec p = [] <;> simp [h]
    rw [hw]
    simp only [resolveGo] at h
    by_cases hp : trimSpec p = []
    · rw [if_pos hp] at h ⊢
      exact ih _ h
    · rw [if_neg hp] at h ⊢
      cases hr : resolveSpec hasHeader names (trimSpec p) with
      | cols l =>
        rw [hr] at h
        obtain ⟨w, h1, h2⟩ := ih _ h
        exact ⟨w, List.mem_cons_of_mem _ h1, h2⟩
      | error => rw [hr] at h; cases h
      | abort =>
        refine ⟨_, List.mem_cons_self, ?_⟩
        unfold resolveSpec at hr
        split_ifs at hr with h1 h2 h3 h4
        · refine ⟨⟨h1.1, fun c hc => ?_⟩, by rw [← decDigits_eq]; exact h2⟩
          have := List.all_eq_true.1 h1.2 c hc
          simpa using this
        · split at hr <;> cases hr

/-- **C82** A command that reads an input either ends with exit status 0 or 1, or is `select` with a column number of 2^64 or more, whose exception nobody catches. -/
theorem C82_ends (c : CliCmd) (L : Libc) (o : FileOpts) (data : List UInt8) (out : CliOut) (h : c.run L o (.file data) = some out) :
    (∃ text, out = .exit 0 text) ∨ out = .exit 1 [] ∨
      (out = .abort ∧ ∃ spec w, c = .select spec ∧ w ∈ words (commaPieces spec) ∧ allDigits w ∧ 2 ^ 64 ≤ decValue w) := by
  have hempty : ∀ (c : CliCmd), ∃ text, c.onEmpty o = .exit 0 text := by
    intro c; cases c <;> exact ⟨_, rfl⟩
  cases ho : openData o.infer o.sampleRows (ReaderState.new o.mode o.maxErrors) data with
  | mk e st =>
  cases e with
  | some e =>
    rw [run_refused c L o data e st ho, Option.some.injEq] at h
    subst h
    unfold CliCmd.onOpenError
    split_ifs
    · exact .inl (hempty c)
    · exact .inr (.inl rfl)
  | none =>
    rw [run_opened c L o data st ho] at h
    obtain ⟨res, h1, h2, h3, h4⟩ := read_any o data st ho
    cases ht : (o.conv st data).typed res.chunks with
    | some chunks =>
      rw [onTable_defined c L o data st res chunks h1 ht] at h
      cases c with
      | select spec =>
        dsimp only at h
        cases hr : resolveColumns o.infer.hasHeader (st.schema.map (·.name)) spec with
        | abort =>
          rw [hr] at h
          cases h
          unfold resolveColumns at hr
          rw [splitComma_pieces] at hr
          obtain ⟨w, w1, w2⟩ := resolveGo_abort _ _ _ _ hr
          exact .inr (.inr ⟨rfl, spec, w, rfl, w1, w2⟩)
        | error => rw [hr] at h; cases h; exact .inr (.inl rfl)
        | cols l => rw [hr] at h; cases h; exact .inl ⟨_, rfl⟩
      | _ => cases h; exact .inl ⟨_, rfl⟩
    | none =>
      unfold CliCmd.onTable at h
      dsimp only at h
      rw [chunks_none o data st res h1] at h
      simp only [Option.bind_eq_bind, Option.bind_some, ht, Option.bind_none, Option.map_none] at h
      cases c with
      | select spec =>
        dsimp only at h
        cases hr : resolveColumns o.infer.hasHeader (st.schema.map (·.name)) spec with
        | abort =>
          rw [hr] at h
          cases h
          unfold resolveColumns at hr
          rw [splitComma_pieces] at hr
          obtain ⟨w, w1, w2⟩ := resolveGo_abort _ _ _ _ hr
          exact .inr (.inr ⟨rfl, spec, w, rfl, w1, w2⟩)
        | error => rw [hr] at h; cases h; exact .inr (.inl rfl)
        | cols l => rw [hr] at h; cases h
      | _ => cases h

/-- The same bytes on standard input; nothing at all on standard input is an empty table. -/
theorem run_stdin (c : CliCmd) (L : Libc) (o : FileOpts) (data : List UInt8) (h : data ≠ []) : c.run L o (.stdin data) = c.run L o (.file data) := by
  have : ¬ data.length = 0 := fun e => h (List.length_eq_zero_iff.1 e)
  simp only [CliCmd.run, if_neg this]

/-- How a command can end. -/
def Spec.Ends (out : CliOut) : Prop := out = .abort ∨ ∃ text, out = .exit 0 text ∨ out = .exit 1 text

/-- The bytes of an input, if it can be read. -/
def Spec.bytesOf : CliInput → List UInt8
  | .unreadable _ => []
  | .stdin data => data
  | .file data => data

theorem run_ends (c : CliCmd) (L : Libc) (o : FileOpts) (i : CliInput) (hm : (45 : UInt8) ∉ bytesOf i) : ∃ out, c.run L o i = some out ∧ Ends out := by
  have hempty : ∀ (c : CliCmd), Ends (c.onEmpty o) := by
    intro c; cases c <;> exact .inr ⟨_, .inl rfl⟩
  have hfile : ∀ data, (45 : UInt8) ∉ data → ∃ out, c.run L o (.file data) = some out ∧ Ends out := by
    intro data hd
    obtain ⟨out, h⟩ := C82_defined c L o data hd
    refine ⟨out, h, ?_⟩
    rcases C82_ends c L o data out h with ⟨t, rfl⟩ | rfl | ⟨rfl, -⟩
    · exact .inr ⟨_, .inl rfl⟩
    · exact .inr ⟨_, .inr rfl⟩
    · exact .inl rfl
  cases i with
  | unreadable msg =>
    refine ⟨_, rfl, ?_⟩
    unfold CliCmd.onOpenError
    split_ifs
    · exact hempty c
    · exact .inr ⟨_, .inr rfl⟩
  | file data => exact hfile data hm
  | stdin data =>
    by_cases hz : data = []
    · subst hz
      exact ⟨_, rfl, hempty c⟩
    · rw [run_stdin c L o data hz]
      exact hfile data hm

/-- The command line asks for a conversion: `vroom convert …`, or `vroom in.csv …`. -/
def Spec.AsksConvert : List (List UInt8) → Prop
  | [] => False
  | cmd :: _ => cmd = asc "convert" ∨ (cmd.head? ≠ some 45 ∧ (46 : UInt8) ∈ cmd)

/-- **C82** The whole program, for every command line that is not a conversion and every content of the inputs without a minus sign: it ends, with exit status 0 or 1 or by an
uncaught exception, and never reaches undefined behaviour. -/
theorem C82_program (m : Machine) (stdin : List UInt8) (files : Files) (args : List (List UInt8)) (hconv : ¬ AsksConvert args)
    (hs : (45 : UInt8) ∉ stdin) (hf : ∀ p, (45 : UInt8) ∉ bytesOf (files p)) : ∃ out, vroom m stdin files args = some out ∧ Ends out := by
  have hmain : ∀ (cmd : CmdName) (rest : List (List UInt8)), ∃ out, cmd.main m stdin files rest = some out ∧ Ends out := by
    intro cmd rest
    unfold CmdName.main
    cases hp : parseCommon {} rest with
    | fail => exact ⟨_, rfl, .inr ⟨_, .inr rfl⟩⟩
    | help => exact ⟨_, rfl, .inr ⟨_, .inl rfl⟩⟩
    | abort => exact ⟨_, rfl, .inl rfl⟩
    | ok o =>
      dsimp only
      have hi : (45 : UInt8) ∉ bytesOf (inputOf stdin files o.input) := by
        unfold inputOf
        split_ifs
        · exact hs
        · exact hf _
      unfold CmdName.exec
      cases cmd with
      | select =>
        dsimp only
        split_ifs
        · exact ⟨_, rfl, .inr ⟨_, .inr rfl⟩⟩
        · exact run_ends _ _ _ _ hi
      | _ => exact run_ends _ _ _ _ hi
  have hout : ∀ (code : Nat) (t : List UInt8), code = 0 ∨ code = 1 → ∃ out, (some (CliOut.exit code t)) = some out ∧ Ends out := by
    rintro code t (rfl | rfl)
    · exact ⟨_, rfl, .inr ⟨_, .inl rfl⟩⟩
    · exact ⟨_, rfl, .inr ⟨_, .inr rfl⟩⟩
  cases args with
  | nil => exact hout 1 _ (.inr rfl)
  | cons cmd rest =>
    simp only [AsksConvert, not_or] at hconv
    have hfc : ¬ (firstChar cmd ≠ 45 ∧ (46 : UInt8) ∈ cmd) := by
      rintro ⟨h1, h2⟩
      refine hconv.2 ⟨?_, h2⟩
      intro h
      cases cmd with
      | nil => cases h
      | cons x xs => exact h1 (by simpa [firstChar] using h)
    unfold vroom mainPlan
    dsimp only
    rw [if_neg hconv.1, if_neg hfc]
    split_ifs
    · exact hout 0 _ (.inl rfl)
    · exact hout 0 _ (.inl rfl)
    · exact hmain .count rest
    · exact hmain .head rest
    · exact hmain .info rest
    · exact hmain .select rest
    · exact hmain .pretty rest
    · exact hout 1 _ (.inr rfl)
    · exact hout 1 _ (.inr rfl)
    · exact hout 1 _ (.inr rfl)

/-- A machine for the examples of this file. -/
def anyMachine : Machine :=
  { L := ⟨fun _ => [], fun _ => [], fun _ => []⟩, cpu := cpu32, lanes := 32, isFloat := fun _ => false, floatBits := fun _ => none, autoThreads := 4, junk := false,
    compress := fun _ b => b, ratioLt := fun _ => true, usage := [], version := [] }

/-- **C82** refuted without the restriction: `vroom count` on the two rows `1` and `-9223372036854775808` reaches undefined behaviour (the signed negation of the parser). -/
theorem C82_minimum_refuted : vroom anyMachine [] (fun _ => .file (asc "x\n1\n-9223372036854775808\n")) [asc "count", asc "a.csv"] = none := by
  decide +kernel

/-- Non-vacuity: a text that is no CSV (unbalanced quotes, ragged rows, NUL) is opened and read, and holds no minimum. -/
example : ∃ names types table rows, ReadFile (anyMachine.fileOpts {} .zstd) (asc "a,\"b\n1,\"2,3\n\"\"\"x,4\n") names types table rows ∧ ¬ HasMinimum types table := by
  have ho : (openData (anyMachine.fileOpts {} .zstd).infer 1000 (ReaderState.new .disabled 10000) (asc "a,\"b\n1,\"2,3\n\"\"\"x,4\n")).1 = none := by decide +kernel
  obtain ⟨table, rows, h, -⟩ := C82_read (anyMachine.fileOpts {} .zstd) (asc "a,\"b\n1,\"2,3\n\"\"\"x,4\n") _ (Prod.ext ho rfl)
  exact ⟨_, _, _, _, h, C82_no_minimum h (by decide +kernel)⟩

/-- … and the program has an outcome for it. -/
example : ∃ out, vroom anyMachine [] (fun _ => .file (asc "a,\"b\n1,\"2,3\n\"\"\"x,4\n")) [asc "head", asc "a.csv"] = some out ∧ Ends out :=
  C82_program _ _ _ _ (by unfold AsksConvert; decide +kernel) (by decide +kernel) (fun _ => by decide +kernel)

end Vroom
