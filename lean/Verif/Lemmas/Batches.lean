import Verif.Props.Convert
/-
Row groups as slices of the chunks, with a bound on each slice (C34, C62).
-/
namespace Vroom
open Parquet

/-- The cells of a row group made from a slice of the chunks, for `n` columns. -/
def groupCells (n : Nat) (s : List (List (List (Option Val)))) : List (List (Option Val)) :=
  (List.range n).map (tableColumn s)

theorem groupCells_getD (n : Nat) (s : List (List (List (Option Val)))) (j : Nat) (hj : j < n) :
    (groupCells n s).getD j [] = tableColumn s j := by
  simp [groupCells, List.getD_eq_getElem?_getD, hj]

theorem cells_eq_groupCells {n : Nat} (cells : List (List (Option Val))) (s : List (List (List (Option Val))))
    (hl : cells.length = n) (h : ∀ j < n, cells.getD j [] = tableColumn s j) : cells = groupCells n s := by
  apply List.ext_getElem?
  intro j
  by_cases hj : j < n
  · have := h j hj
    simp only [List.getD_eq_getElem?_getD] at this
    rw [List.getElem?_eq_getElem (by omega)] at this ⊢
    simp [groupCells, hj]
    simpa using this
  · simp [groupCells, hj]; omega

theorem single_groupCells {m : Nat} {schema : List ColSchema} {c cells} (h : ColsAre m schema c cells) :
    cells = groupCells schema.length [cells] := by
  apply cells_eq_groupCells
  · exact (colsAre_length h).2.symm
  · intro j _; simp [tableColumn]

theorem mergeBatches_slices {schema : List ColSchema}
    {chunks : List (List ArrowColumn)} {cellss : List (List (List (Option Val)))} (h : ChunksAre schema chunks cellss)
    (bs : List (Nat × Nat))
    (hs : ∀ b ∈ bs, ∀ j cs, schema[j]? = some cs → stored cs.type = .string →
      valBytes (tableColumn ((cellss.drop b.1).take (b.2 - b.1)) j) < 2 ^ 32) :
    ∃ gs, bs.mapM (mergeBatch schema chunks) = some gs ∧
      ChunksAre schema gs (bs.map (fun b => groupCells schema.length ((cellss.drop b.1).take (b.2 - b.1)))) := by
  induction bs with
  | nil => exact ⟨[], rfl, .nil⟩
  | cons b bs ih =>
    obtain ⟨gs, e1, e2⟩ := ih (fun b hb => hs b (List.mem_cons_of_mem _ hb))
    have hc := create_are schema
    have hsl := chunksAre_take (chunksAre_drop h b.1) (b.2 - b.1)
    have h0 : ∀ j, (schema.map (fun _ => ([] : List (Option Val)))).getD j [] = [] := by
      intro j
      simp only [List.getD_eq_getElem?_getD, List.getElem?_map]
      cases schema[j]? <;> simp
    have hg : ∀ j, (concatCells (schema.map (fun _ => [])) ((cellss.drop b.1).take (b.2 - b.1))).getD j []
        = tableColumn ((cellss.drop b.1).take (b.2 - b.1)) j := by
      intro j
      rw [concatCells_getD hsl (schema.map (fun _ => [])) (by simp) j, h0 j]; rfl
    obtain ⟨g, f1, m, f2⟩ := mergeAll_are hsl hc (by
      intro j cs hj ht
      rw [hg j]
      exact hs b (by simp) j cs hj ht)
    have hl := (colsAre_length f2).2
    rw [cells_eq_groupCells _ _ hl.symm (fun j _ => hg j)] at f2
    refine ⟨g :: gs, ?_, .cons m f2 e2⟩
    rw [List.mapM_cons, e1, show mergeBatch schema chunks b = some g from f1]; rfl

/-- Rows of a slice of chunks. -/
def sliceRows (s : List (List (List (Option Val)))) : Nat := (s.map chunkRows).sum

/-- A row group is a single chunk, or a batch that was below the target before its last chunk. -/
def SmallSlice (target : Nat) (s : List (List (List (Option Val)))) : Prop := s.length = 1 ∨ sliceRows s.dropLast < target

theorem sliceRows_dropLast (l : List (List (List (Option Val)))) : sliceRows l.dropLast ≤ sliceRows l := by
  rcases List.eq_nil_or_concat l with rfl | ⟨a, b, rfl⟩
  · exact Nat.le_refl _
  · simp [sliceRows]

theorem colRows_eq {m : Nat} {schema : List ColSchema} (hne : schema ≠ []) {c cells} (h : ColsAre m schema c cells) :
    colRows c = chunkRows cells := by
  cases h with
  | nil => exact absurd rfl hne
  | @cons cs col rows css cols rowss h1 h2 h3 _ =>
    show col.size = rows.length
    exact (colHist_basic h1).2

theorem batchGo_small {schema : List ColSchema} (hne : schema ≠ []) (target : Nat) (all : List (List (List (Option Val))))
    (rest : List (List ArrowColumn)) :
    ∀ (i start rows : Nat), start ≤ i → ChunksAre schema rest (all.drop i) → rows = sliceRows ((all.drop start).take (i - start)) →
      (rows < target ∨ start = i) →
      ∀ b ∈ batchGo target i start rows rest, SmallSlice target ((all.drop b.1).take (b.2 - b.1)) := by
  induction rest with
  | nil =>
    intro i start rows hs hr hsum hlt b hb
    simp only [batchGo] at hb
    by_cases h : start < i
    · rw [if_pos h, List.mem_singleton] at hb
      subst hb
      right
      have h1 : rows < target := by omega
      have h2 := sliceRows_dropLast ((all.drop start).take (i - start))
      rw [← hsum] at h2
      show sliceRows ((all.drop start).take (i - start)).dropLast < target
      omega
    · rw [if_neg h] at hb; simp at hb
  | cons c cs ih =>
    intro i start rows hs hr hsum hlt b hb
    generalize hd : all.drop i = al at hr
    cases hr with
    | @cons _ cells _ cellss m h1 h2 =>
    have hnext : all.drop (i + 1) = cellss := by
      rw [← List.drop_drop, hd]; rfl
    rw [← hnext] at h2
    have hget : all[i]? = some cells := by
      have := congrArg (fun l => l[0]?) hd
      simpa [List.getElem?_drop] using this
    have happ : (all.drop start).take (i + 1 - start) = (all.drop start).take (i - start) ++ [cells] := by
      rw [show i + 1 - start = (i - start) + 1 by omega, List.take_add_one]
      congr 1
      rw [List.getElem?_drop, show start + (i - start) = i by omega, hget]; rfl
    have hcr := colRows_eq hne h1
    have hstep : sliceRows ((all.drop start).take (i + 1 - start)) = rows + colRows c := by
      rw [happ, hcr, hsum]; simp [sliceRows]
    have hsmall : SmallSlice target ((all.drop start).take (i + 1 - start)) := by
      rw [happ]
      rcases hlt with h | h
      · right; rw [List.dropLast_concat, ← hsum]; exact h
      · left; subst h; simp
    cases c with
    | nil =>
      have := (colsAre_length h1).1
      exact absurd (List.length_eq_zero_iff.1 this) hne
    | cons col cols =>
      simp only [batchGo] at hb
      by_cases h : rows + col.size ≥ target
      · rw [if_pos h, List.mem_cons] at hb
        rcases hb with rfl | hb
        · exact hsmall
        · exact ih (i + 1) (i + 1) 0 (Nat.le_refl _) h2 (by simp [sliceRows]) (.inr rfl) b hb
      · rw [if_neg h] at hb
        exact ih (i + 1) start _ (by omega) h2 hstep.symm (.inl (by show rows + col.size < target; omega)) b hb

theorem batchGo_bounds (target : Nat) (rest : List (List ArrowColumn)) : ∀ (i start rows : Nat), start ≤ i →
    ∀ b ∈ batchGo target i start rows rest, b.1 < b.2 ∧ b.2 ≤ i + rest.length := by
  induction rest with
  | nil =>
    intro i start rows hs b hb
    simp only [batchGo] at hb
    by_cases h : start < i
    · rw [if_pos h, List.mem_singleton] at hb
      subst hb
      exact ⟨h, by simp⟩
    · rw [if_neg h] at hb; simp at hb
  | cons c cs ih =>
    intro i start rows hs b hb
    rw [List.length_cons]
    cases c with
    | nil =>
      simp only [batchGo] at hb
      have := ih (i + 1) start rows (by omega) b hb
      omega
    | cons col cols =>
      simp only [batchGo] at hb
      by_cases h : rows + col.size ≥ target
      · rw [if_pos h, List.mem_cons] at hb
        rcases hb with rfl | hb
        · exact ⟨by dsimp only; omega, by dsimp only; omega⟩
        · have := ih (i + 1) (i + 1) 0 (Nat.le_refl _) b hb
          omega
      · rw [if_neg h] at hb
        have := ih (i + 1) start _ (by omega) b hb
        omega

/-- **C34** The row groups are consecutive non-empty slices of the chunks that together are all of them, each a single
chunk or, if no column is text, a batch that had fewer than the target number of rows before its last chunk
was added.  Only text in batches needs a bound (4 GiB, C25), and only for columns of unknown type. -/
theorem C34_groups_are_slices (target : Nat) (schema : List ColSchema) (hne : schema ≠ [])
    {chunks : List (List ArrowColumn)} {cells : List (List (List (Option Val)))} (h : ChunksAre schema chunks cells)
    (hs : ∀ s, s <:+: cells → SmallSlice target s → ∀ j cs, schema[j]? = some cs → cs.type = .na ∨ cs.type = .unknown →
      valBytes (tableColumn s j) < 2 ^ 32) :
    ∃ (groups : List (List ArrowColumn)) (slices : List (List (List (List (Option Val))))), rowGroupsOf target schema chunks = some groups ∧ slices.flatten = cells ∧
      ChunksAre schema groups (slices.map (groupCells schema.length)) ∧
      ∀ s ∈ slices, s ≠ [] ∧ s <:+: cells ∧ SmallSlice target s ∧ (s.length = 1 ∨ ∀ c ∈ schema, c.type ≠ .string) := by
  have singles : ∀ {chunks cells}, ChunksAre schema chunks cells →
      ChunksAre schema chunks ((cells.map (fun c => [c])).map (groupCells schema.length)) := by
    intro chunks cells h
    induction h with
    | nil => exact .nil
    | @cons c cell cs cellss k h1 _ ih =>
      refine .cons k ?_ ih
      rw [← single_groupCells h1]; exact h1
  have hsing : ∀ cells : List (List (List (Option Val))), (cells.map (fun c => [c])).flatten = cells ∧
      ∀ s ∈ cells.map (fun c => [c]), s ≠ [] ∧ s <:+: cells ∧ SmallSlice target s ∧ (s.length = 1 ∨ ∀ c ∈ schema, c.type ≠ .string) := by
    intro cells
    refine ⟨by simp [← List.flatMap_def], ?_⟩
    intro s hsm
    obtain ⟨c, hc, rfl⟩ := List.mem_map.1 hsm
    refine ⟨by simp, ?_, .inl rfl, .inl rfl⟩
    obtain ⟨a, b, e⟩ := List.append_of_mem hc
    exact ⟨a, b, by rw [e]; simp⟩
  cases h with
  | nil => exact ⟨[], [], rfl, rfl, .nil, by simp⟩
  | @cons c cell cs cellss k h1 h2 =>
    cases h2 with
    | nil =>
      have := hsing [cell]
      exact ⟨[c], [[cell]], rfl, rfl, singles (.cons k h1 .nil), this.2⟩
    | @cons c' cell' cs' cellss' k' h1' h2' =>
      have hall : ChunksAre schema (c :: c' :: cs') (cell :: cell' :: cellss') := .cons k h1 (.cons k' h1' h2')
      simp only [rowGroupsOf]
      by_cases hstr : schema.any (fun c => c.type == .string) = true
      · rw [if_pos hstr, filter_nonempty hne hall]
        exact ⟨_, _, rfl, (hsing _).1, singles hall, (hsing _).2⟩
      · rw [if_neg hstr]
        have hns : ∀ c ∈ schema, c.type ≠ .string := fun c hc ht => hstr (List.any_eq_true.2 ⟨c, hc, by simp [ht]⟩)
        have hsm := batchGo_small hne target (cell :: cell' :: cellss') (c :: c' :: cs') 0 0 0 (Nat.le_refl _) hall (by simp [sliceRows]) (.inr rfl)
        have hinf : ∀ b : Nat × Nat, ((cell :: cell' :: cellss').drop b.1).take (b.2 - b.1) <:+: cell :: cell' :: cellss' :=
          fun b => (List.take_prefix _ _).isInfix.trans (List.drop_suffix _ _).isInfix
        obtain ⟨gs, e1, e2⟩ := mergeBatches_slices hall (batchGo target 0 0 0 (c :: c' :: cs')) (by
          intro b hb j cs hj ht
          apply hs _ (hinf b) (hsm b hb) j cs hj
          have := hns cs (List.mem_of_getElem? hj)
          cases hc : cs.type <;> simp_all [stored])
        refine ⟨gs, (batchGo target 0 0 0 (c :: c' :: cs')).map (fun b => ((cell :: cell' :: cellss').drop b.1).take (b.2 - b.1)), e1, ?_, ?_, ?_⟩
        · rw [batchGo_cover target (cell :: cell' :: cellss') _ 0 0 0 (by omega)
            (by rw [Nat.zero_add]; exact chunksAre_length hall)]
          rfl
        · rw [List.map_map]; exact e2
        · intro s hsm'
          obtain ⟨b, hb, rfl⟩ := List.mem_map.1 hsm'
          refine ⟨?_, hinf b, hsm b hb, .inr hns⟩
          have hbd := batchGo_bounds target (c :: c' :: cs') 0 0 0 (Nat.le_refl _) b hb
          have hl := chunksAre_length hall
          intro hz
          have := congrArg List.length hz
          rw [List.length_take, List.length_drop] at this
          simp only [List.length_nil] at this
          omega

/- A run that meets the hypotheses is built in Props/EndToEnd (namespace `Demo`). -/

end Vroom
