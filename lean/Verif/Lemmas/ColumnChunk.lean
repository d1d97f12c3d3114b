import Verif.Spec.ColumnChunk
import Verif.Props.HybridCut
import Verif.Props.ParquetPage
import Verif.Props.Compression
/- Lemmas for C95. -/
namespace Vroom
open Parquet Spec

theorem readBack_mem : ∀ (k : Nat) (l : List UInt32), l.length = k → ∀ x ∈ readBack l, x ∈ l ∨ x = 0 := by
  intro k
  induction k using Nat.strongRecOn with
  | _ k ih =>
  intro l hk x hx
  by_cases hl : l = []
  · subst hl; rw [readBack] at hx; simp at hx
  have hpos := hybridCut_pos hl
  have hlen : 0 < l.length := List.length_pos_iff.2 hl
  rw [readBack, dif_neg hl, List.mem_append] at hx
  rcases hx with hx | hx
  · split at hx
    · exact .inl (List.mem_of_mem_take hx)
    · rcases List.mem_append.1 hx with h | h
      · exact .inl (List.mem_of_mem_take h)
      · exact .inr (List.mem_replicate.1 h).2
  · rcases ih _ (by rw [List.length_drop]; omega) _ rfl x hx with h | h
    · exact .inl (List.mem_of_mem_drop h)
    · exact .inr h

/-- The rows the loops see, and the cells meant. -/
theorem loopRows_fits {T : Type} (vs : List T) (nulls : List Bool) (h : nulls = [] ∨ nulls.length = vs.length) :
    ∃ rows : List (T × Bool), loopRows vs nulls = some rows ∧ rows.map (·.1) = vs ∧ bitmapCells vs nulls = rows.map (fun r => if r.2 then some r.1 else none) ∧
      (nulls ≠ [] → rows.map (fun r => !r.2) = nulls) ∧ (nulls = [] → ∀ r ∈ rows, r.2 = true) := by
  by_cases hn : nulls = []
  · subst hn
    refine ⟨vs.map (fun v => (v, true)), by simp [loopRows], by simp [Function.comp_def], ?_, fun h => absurd rfl h, ?_⟩
    · clear h
      induction vs with
      | nil => rfl
      | cons v vs ih => simp [bitmapCells, ih]
    · intro _ r hr
      obtain ⟨v, -, rfl⟩ := List.mem_map.1 hr
      rfl
  · have hl := h.resolve_left hn
    have key : ∀ (vs : List T) (nulls : List Bool), nulls.length = vs.length →
        (vs.zip (nulls.map (fun b => !b))).map (·.1) = vs ∧ bitmapCells vs nulls = (vs.zip (nulls.map (fun b => !b))).map (fun r => if r.2 then some r.1 else none) ∧
        (vs.zip (nulls.map (fun b => !b))).map (fun r => !r.2) = nulls := by
      intro vs
      induction vs with
      | nil => intro nulls h; have := List.length_eq_zero_iff.1 h; subst this; simp [bitmapCells]
      | cons v vs ih =>
        intro nulls h
        cases nulls with
        | nil => simp at h
        | cons b nulls =>
          obtain ⟨i1, i2, i3⟩ := ih nulls (by simpa using h)
          refine ⟨by simp [i1], ?_, by simp [i3]⟩
          cases b <;> simp [bitmapCells, i2]
    obtain ⟨i1, i2, i3⟩ := key vs nulls hl
    exact ⟨_, by rw [loopRows, if_neg hn, if_neg (by omega)], i1, i2, fun _ => i3, fun h => absurd h hn⟩

theorem keptRows_cells {T : Type} (rows : List (T × Bool)) : keptRows rows = (rows.map (fun r => if r.2 then some r.1 else none)).filterMap id := by
  induction rows with
  | nil => rfl
  | cons r rows ih =>
    obtain ⟨v, b⟩ := r
    cases b <;> simp [keptRows] at ih ⊢ <;> exact ih

theorem spread_inv : ∀ (ls : List Nat) (vs : List Val) (cells : List (Option Val)), spread ls vs = some cells →
    vs = cells.filterMap id ∧ ls.map (fun l => decide (l ≠ 0)) = cells.map Option.isSome := by
  intro ls
  induction ls with
  | nil => intro vs cells h; cases vs <;> simp [spread] at h; subst h; exact ⟨rfl, rfl⟩
  | cons l ls ih =>
    intro vs cells h
    cases l with
    | zero =>
      simp only [spread, Option.map_eq_some_iff] at h
      obtain ⟨t, h1, rfl⟩ := h
      obtain ⟨i1, i2⟩ := ih _ _ h1
      exact ⟨by simpa using i1, by simpa using i2⟩
    | succ l =>
      cases vs with
      | nil => simp [spread] at h
      | cons v vs =>
        simp only [spread, Option.map_eq_some_iff] at h
        obtain ⟨t, h1, rfl⟩ := h
        obtain ⟨i1, i2⟩ := ih _ _ h1
        exact ⟨by subst i1; rfl, by simpa using i2⟩

/-- Reading a page: the rows come back exactly if the levels and the values do. -/
theorem pageRows_iff (nulls : List Bool) (cells : List (Option Val)) (h0 : cells.length ≠ 0) (hlen : cells.length < 2 ^ 31)
    (hnull : true ∈ nulls → cells.map Option.isNone = nulls) (hnone : true ∉ nulls → none ∉ cells)
    (ptype enc : Int) (dict : Option (List Val)) (body : List UInt8) :
    pageRows (nulls.contains true) ptype enc dict cells.length (pageLevels nulls ++ body) = some cells ↔
      (true ∈ nulls → Undisplaced (levelsOf nulls)) ∧ pageValues ptype enc dict (cells.filterMap id).length body = some (cells.filterMap id) := by
  unfold pageRows
  rw [if_neg h0]
  by_cases hn : true ∈ nulls
  · have hc : nulls.contains true = true := by simpa using hn
    have ha : nulls.any id = true := by rw [List.any_eq_true]; exact ⟨true, hn, rfl⟩
    have hl : cells.length = nulls.length := by rw [← hnull hn, List.length_map]
    rw [if_pos hc, pageLevels, if_pos ha, hl, C28_legacy_exact nulls hn (by omega) body]
    simp only [Option.bind_eq_bind, Option.bind_some]
    have hrb : (readBack (levelsOf nulls)).take nulls.length = levelsOf nulls ↔ Undisplaced (levelsOf nulls) := by
      have := readBack_iff _ (levelsOf nulls) rfl
      rw [show (levelsOf nulls).length = nulls.length by simp [levelsOf]] at this
      exact this
    have hlv : (levelsOf nulls).map UInt32.toNat = cells.map (fun o => if o.isSome then 1 else 0) := by
      rw [← hnull hn]
      simp only [levelsOf, List.map_map]
      apply List.map_congr_left
      intro o _
      cases o <;> rfl
    constructor
    · intro h
      rw [Option.bind_eq_some_iff] at h
      obtain ⟨vals, h1, h2⟩ := h
      obtain ⟨i1, i2⟩ := spread_inv _ _ _ h2
      have heq : (readBack (levelsOf nulls)).take nulls.length = levelsOf nulls := by
        have hb : ∀ x ∈ (readBack (levelsOf nulls)).take nulls.length, x = 0 ∨ x = 1 := by
          intro x hx
          rcases readBack_mem _ _ rfl x (List.mem_of_mem_take hx) with h | h
          · simp only [levelsOf, List.mem_map] at h
            obtain ⟨b, -, rfl⟩ := h
            cases b <;> simp
          · exact .inl h
        have hmap : ((readBack (levelsOf nulls)).take nulls.length).map (fun x => decide (x.toNat ≠ 0)) = (levelsOf nulls).map (fun x => decide (x.toNat ≠ 0)) := by
          rw [List.map_map] at i2
          have : ((readBack (levelsOf nulls)).take nulls.length).map (fun x => decide (x.toNat ≠ 0)) = cells.map Option.isSome := i2
          rw [this, ← hnull hn]
          simp only [levelsOf, List.map_map]
          apply List.map_congr_left
          intro o _
          cases o <;> rfl
        have hb' : ∀ x ∈ levelsOf nulls, x = 0 ∨ x = 1 := by
          intro x hx
          simp only [levelsOf, List.mem_map] at hx
          obtain ⟨b, -, rfl⟩ := hx
          cases b <;> simp
        generalize (readBack (levelsOf nulls)).take nulls.length = A at hb hmap
        generalize levelsOf nulls = B at hb' hmap
        clear * - hb hb' hmap
        induction A generalizing B with
        | nil => cases B <;> simp at hmap ⊢
        | cons a A ih =>
          cases B with
          | nil => simp at hmap
          | cons b B =>
            simp only [List.map_cons, List.cons.injEq] at hmap
            rw [ih (fun x hx => hb x (by simp [hx])) B (fun x hx => hb' x (by simp [hx])) hmap.2]
            rcases hb a (by simp) with rfl | rfl <;> rcases hb' b (by simp) with rfl | rfl <;> simp at hmap ⊢
      refine ⟨fun _ => hrb.1 heq, ?_⟩
      change pageValues ptype enc dict (List.count 1 (((readBack (levelsOf nulls)).take nulls.length).map UInt32.toNat)) body = some vals at h1
      rw [heq, hlv, count_levels] at h1
      rw [h1, i1]
    · rintro ⟨h1, h2⟩
      have heq := hrb.2 (h1 hn)
      change Option.bind (pageValues ptype enc dict (List.count 1 (((readBack (levelsOf nulls)).take nulls.length).map UInt32.toNat)) body)
        (fun vals => spread (((readBack (levelsOf nulls)).take nulls.length).map UInt32.toNat) vals) = some cells
      rw [heq, hlv, count_levels, h2, Option.bind_some, spread_rows]
  · have hc : nulls.contains true = false := by simpa using hn
    have ha : nulls.any id = false := by
      rw [List.any_eq_false]
      intro b hb
      cases b with
      | true => exact absurd hb hn
      | false => simp
    rw [hc, pageLevels, ha]
    simp only [Bool.false_eq_true, if_false, List.nil_append]
    have hall : (cells.filterMap id).map some = cells := by
      have := hnone hn
      clear * - this
      induction cells with
      | nil => rfl
      | cons o t ih =>
        cases o with
        | none => simp at this
        | some a =>
          show some a :: _ = _
          rw [ih (by simp at this; exact this)]
    have hl : (cells.filterMap id).length = cells.length := by
      conv_rhs => rw [← hall]
      simp
    rw [hl]
    constructor
    · intro h
      rw [Option.map_eq_some_iff] at h
      obtain ⟨vals, h1, h2⟩ := h
      refine ⟨fun h => absurd h hn, ?_⟩
      rw [h1, ← h2]
      simp [List.filterMap_map]
    · rintro ⟨-, h2⟩
      rw [h2, Option.map_some, hall]

theorem eraseDups_map {α β : Type} [BEq α] [LawfulBEq α] [BEq β] [LawfulBEq β] (f : α → β) (hf : ∀ a b, f a = f b → a = b) :
    ∀ (k : Nat) (l : List α), l.length = k → (l.map f).eraseDups = l.eraseDups.map f := by
  intro k
  induction k using Nat.strongRecOn with
  | _ k ih =>
  intro l hk
  cases l with
  | nil => simp
  | cons a l =>
    rw [List.map_cons, List.eraseDups_cons, List.eraseDups_cons, List.map_cons, List.filter_map]
    have : (fun b => !b == f a) ∘ f = fun b => !b == a := by
      funext b
      simp only [Function.comp_apply]
      congr 1
      rw [Bool.eq_iff_iff]
      simp only [beq_iff_eq]
      exact ⟨hf b a, fun h => by rw [h]⟩
    rw [this, ih _ (by have := List.length_filter_le (fun b => !b == a) l; simp at hk; omega) _ rfl]

theorem createDictionary_eraseDups {T : Type} [BEq T] [LawfulBEq T] (rows : List (T × Bool)) : (createDictionary rows).1 = (keptRows rows).eraseDups := by
  have key : ∀ (todo done : List (T × Bool)) (s : DictState T), DictInv done s → s.dict = (keptRows done).eraseDups →
      (todo.foldl DictState.step s).dict = (keptRows (done ++ todo)).eraseDups := by
    intro todo
    induction todo with
    | nil => intro d s _ h; simpa using h
    | cons r t ih =>
      intro d s hI h
      have hstep : (s.step r).dict = (keptRows (d ++ [r])).eraseDups := by
        have hk : keptRows (d ++ [r]) = keptRows d ++ (if r.2 then [r.1] else []) := by
          obtain ⟨v, b⟩ := r
          cases b <;> simp [keptRows]
        rw [hk]
        obtain ⟨v, b⟩ := r
        cases b with
        | false => rw [DictState.step, if_pos rfl]; simp [h]
        | true =>
          rw [DictState.step, if_neg (by simp), hI.map v]
          have hmem : v ∈ s.dict ↔ v ∈ keptRows d := by rw [h, List.mem_eraseDups]
          simp only [if_true]
          rw [List.eraseDups_append]
          by_cases hv : v ∈ s.dict
          · rw [if_pos hv]
            have : [v].removeAll (keptRows d) = [] := by simp [List.removeAll, hmem.1 hv]
            rw [this]; simp [h]
          · rw [if_neg hv]
            have : [v].removeAll (keptRows d) = [v] := by
              have hv' : v ∉ keptRows d := fun hx => hv (hmem.2 hx)
              simp [List.removeAll, hv']
            rw [this, List.eraseDups_cons]; simp [h]
      have := ih (d ++ [r]) (s.step r) (dictInv_step hI r) hstep
      simpa using this
  have := key rows [] {} ⟨List.nodup_nil, by simp, by simp, rfl⟩ (by simp [keptRows])
  simpa [createDictionary] using this

end Vroom
