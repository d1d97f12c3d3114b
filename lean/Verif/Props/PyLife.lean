import Verif.Model.PyLife
import Mathlib.Data.List.Basic
import Mathlib.Data.List.Nodup
/-
C71: lifetime of what Python exports.
-/
namespace Vroom.Life

/-- Something still uses the column memory: the Python object, a stream or a struct array. -/
def State.users (s : State) : Nat :=
  (if s.held then 1 else 0) + s.streams.countP (·.live) + s.arrays.countP (·.live)

/-- Child `j` of array `i` has not been released yet: it is still in its place, or with the consumer. -/
def State.pending (s : State) (i j : Nat) : Prop :=
  (∃ a, s.arrays[i]? = some a ∧ a.children[j]? = some true) ∨ (⟨i, j, true⟩ ∈ s.moved)

structure Inv (s : State) : Prop where
  count : s.count = s.users
  table : Obj.table ∈ s.freed ↔ s.count = 0
  stream : ∀ i, Obj.stream i ∈ s.freed ↔ ∃ st, s.streams[i]? = some st ∧ st.live = false
  array : ∀ i, Obj.array i ∈ s.freed ↔ ∃ a, s.arrays[i]? = some a ∧ a.live = false
  child : ∀ i j, Obj.child i j ∈ s.freed ↔ i < s.arrays.length ∧ j < s.cols ∧ ¬ s.pending i j
  cols : ∀ a ∈ s.arrays, a.children.length = s.cols
  dead : ∀ a ∈ s.arrays, a.live = false → ∀ c ∈ a.children, c = false
  moved : ∀ m ∈ s.moved, ∃ a, s.arrays[m.array]? = some a ∧ a.children[m.child]? = some false
  distinct : (s.moved.map (fun m => (m.array, m.child))).Nodup
  once : s.freed.Nodup

theorem countP_set' {α : Type} (p : α → Bool) (l : List α) (i : Nat) (x y : α) (h : l[i]? = some x) :
    (l.set i y).countP p + (if p x then 1 else 0) = l.countP p + (if p y then 1 else 0) := by
  induction l generalizing i with
  | nil => simp at h
  | cons a l ih =>
    cases i with
    | zero =>
      simp only [List.getElem?_cons_zero, Option.some.injEq] at h
      subst h
      simp only [List.set_cons_zero, List.countP_cons]
      split <;> split <;> omega
    | succ i =>
      simp only [List.getElem?_cons_succ] at h
      have := ih i h
      simp only [List.set_cons_succ, List.countP_cons]
      omega

theorem fresh_inv (cols : Nat) : Inv (fresh cols) := by
  refine ⟨rfl, ?_, ?_, ?_, ?_, ?_, ?_, ?_, ?_, ?_⟩ <;> simp [fresh, State.pending]

theorem freeChildren_mem (i : Nat) (cs : List Bool) : ∀ (k : Nat) (freed : List Obj) (o : Obj),
    o ∈ freeChildren i k cs freed ↔ o ∈ freed ∨ ∃ j, cs[j]? = some true ∧ o = .child i (k + j) := by
  induction cs with
  | nil => intro k freed o; simp [freeChildren]
  | cons c cs ih =>
    intro k freed o
    rw [freeChildren, ih]
    constructor
    · rintro (h | ⟨j, h1, h2⟩)
      · cases c with
        | false => exact .inl h
        | true =>
          rcases List.mem_cons.1 h with h | h
          · exact .inr ⟨0, rfl, h⟩
          · exact .inl h
      · exact .inr ⟨j + 1, h1, by rw [h2]; congr 1; omega⟩
    · rintro (h | ⟨j, h1, h2⟩)
      · left
        cases c with
        | false => exact h
        | true => exact List.mem_cons_of_mem _ h
      · cases j with
        | zero =>
          simp only [List.getElem?_cons_zero, Option.some.injEq] at h1
          subst h1
          left
          rw [h2]
          exact List.mem_cons_self
        | succ j => exact .inr ⟨j, h1, by rw [h2]; congr 1; omega⟩

theorem freeChildren_nodup (i : Nat) (cs : List Bool) : ∀ (k : Nat) (freed : List Obj), freed.Nodup →
    (∀ j, cs[j]? = some true → Obj.child i (k + j) ∉ freed) → (freeChildren i k cs freed).Nodup := by
  induction cs with
  | nil => intro k freed h _; exact h
  | cons c cs ih =>
    intro k freed h hn
    rw [freeChildren]
    cases c with
    | false =>
      refine ih _ _ h ?_
      intro j hj
      have := hn (j + 1) hj
      rwa [show k + 1 + j = k + (j + 1) by omega]
    | true =>
      refine ih _ _ (List.nodup_cons.2 ⟨hn 0 rfl, h⟩) ?_
      intro j hj hm
      rcases List.mem_cons.1 hm with he | hm
      · simp only [Obj.child.injEq, true_and] at he; omega
      · exact hn (j + 1) hj (by rwa [show k + (j + 1) = k + 1 + j by omega])

/-- The state just before a `shared_ptr` is destroyed. -/
theorem unref_inv {s : State} (hc : s.count = s.users + 1) (ht : Obj.table ∉ s.freed)
    (stream : ∀ i, Obj.stream i ∈ s.freed ↔ ∃ st, s.streams[i]? = some st ∧ st.live = false)
    (array : ∀ i, Obj.array i ∈ s.freed ↔ ∃ a, s.arrays[i]? = some a ∧ a.live = false)
    (child : ∀ i j, Obj.child i j ∈ s.freed ↔ i < s.arrays.length ∧ j < s.cols ∧ ¬ s.pending i j)
    (cols : ∀ a ∈ s.arrays, a.children.length = s.cols)
    (dead : ∀ a ∈ s.arrays, a.live = false → ∀ c ∈ a.children, c = false)
    (moved : ∀ m ∈ s.moved, ∃ a, s.arrays[m.array]? = some a ∧ a.children[m.child]? = some false)
    (distinct : (s.moved.map (fun m => (m.array, m.child))).Nodup)
    (once : s.freed.Nodup) : Inv s.unref := by
  unfold State.unref
  dsimp only
  have hu : s.count - 1 = s.users := by omega
  by_cases hz : s.count - 1 = 0
  · rw [if_pos hz]
    refine ⟨hu, ?_, ?_, ?_, ?_, cols, dead, moved, distinct, ?_⟩
    · simp [State.free, hz]
    · intro i; simpa [State.free] using stream i
    · intro i; simpa [State.free] using array i
    · intro i j; simpa [State.free, State.pending] using child i j
    · exact List.nodup_cons.2 ⟨ht, once⟩
  · rw [if_neg hz]
    exact ⟨hu, by simp [ht, hz], stream, array, child, cols, dead, moved, distinct, once⟩

theorem step_inv {s s' : State} {op : Op} (h : Inv s) (hs : step s op = some s') : Inv s' := by
  obtain ⟨h1, h2, h3, h4, h5, h6, h7, h8, h9, h10⟩ := h
  cases op with
  | drop =>
    simp only [step] at hs
    split at hs
    · next hh =>
      cases hs
      have hpos : s.count ≠ 0 := by rw [h1]; unfold State.users; rw [if_pos hh]; omega
      refine unref_inv ?_ ?_ h3 h4 h5 h6 h7 h8 h9 h10
      · show s.count = _
        rw [h1]; unfold State.users; simp [hh]; omega
      · exact fun hm => hpos (h2.1 hm)
    · cases hs
  | openStream =>
    simp only [step] at hs
    split at hs
    · next hh =>
      cases hs
      have hpos : s.count ≠ 0 := by rw [h1]; unfold State.users; rw [if_pos hh]; omega
      refine ⟨?_, ?_, ?_, h4, h5, h6, h7, h8, h9, h10⟩
      · show s.count + 1 = _
        rw [h1]; unfold State.users; simp [List.countP_append]; omega
      · simp only [h2]; constructor
        · intro h; exact absurd h hpos
        · intro h; cases h
      · intro i
        rw [h3]
        constructor
        · rintro ⟨st, e, hl⟩
          exact ⟨st, by show (s.streams ++ [_])[i]? = _; rw [List.getElem?_append_left (List.getElem?_eq_some_iff.1 e).1]; exact e, hl⟩
        · rintro ⟨st, e, hl⟩
          have e : (s.streams ++ [({} : Stream)])[i]? = some st := e
          rw [List.getElem?_append] at e
          split at e
          · exact ⟨st, e, hl⟩
          · exfalso
            rw [List.getElem?_eq_some_iff] at e
            obtain ⟨hi, e⟩ := e
            have hm := List.getElem_mem hi
            rw [e] at hm
            rw [List.mem_singleton] at hm
            rw [hm] at hl
            cases hl
    · cases hs
  | getNext i =>
    simp only [step] at hs
    cases hst : s.streams[i]? with
    | none => rw [hst] at hs; cases hs
    | some st =>
      rw [hst] at hs
      dsimp only at hs
      cases hl : st.live with
      | false => rw [hl] at hs; cases hs
      | true =>
        rw [hl] at hs
        simp only [Bool.not_true, Bool.false_eq_true, if_false] at hs
        cases hr : st.returned with
        | true => rw [hr] at hs; cases hs; exact ⟨h1, h2, h3, h4, h5, h6, h7, h8, h9, h10⟩
        | false =>
          rw [hr] at hs
          simp only [Bool.false_eq_true, if_false] at hs
          cases hs
          have hlt := (List.getElem?_eq_some_iff.1 hst).1
          have hpos : s.count ≠ 0 := by
            rw [h1]; unfold State.users
            have : 0 < s.streams.countP (·.live) := List.countP_pos_iff.2 ⟨st, List.mem_of_getElem? hst, hl⟩
            omega
          have hold : ∀ {i' : Nat} {a : StructArray}, s.arrays[i']? = some a → (s.arrays ++ [({ children := List.replicate s.cols true } : StructArray)])[i']? = some a := by
            intro i' a e
            rw [List.getElem?_append_left (List.getElem?_eq_some_iff.1 e).1]; exact e
          have hnew : ∀ {i' : Nat} {a : StructArray}, (s.arrays ++ [({ children := List.replicate s.cols true } : StructArray)])[i']? = some a →
              s.arrays[i']? = some a ∨ (i' = s.arrays.length ∧ a = { children := List.replicate s.cols true }) := by
            intro i' a e
            rw [List.getElem?_append] at e
            split at e
            · exact .inl e
            · next hx =>
              right
              rw [List.getElem?_eq_some_iff] at e
              obtain ⟨hi, e⟩ := e
              have hm := List.getElem_mem hi
              rw [e, List.mem_singleton] at hm
              simp only [List.length_singleton] at hi
              exact ⟨by omega, hm⟩
          refine ⟨?_, ?_, ?_, ?_, ?_, ?_, ?_, ?_, h9, h10⟩
          · show s.count + 1 = _
            rw [h1]; unfold State.users
            have := countP_set' (fun x : Stream => x.live) s.streams i st { st with returned := true } hst
            simp only [hl, if_true] at this
            simp only [List.countP_append, List.countP_singleton, if_true]
            omega
          · simp only [h2]; constructor
            · intro h; exact absurd h hpos
            · intro h; cases h
          · intro k
            rw [h3]
            show _ ↔ ∃ x, (s.streams.set i _)[k]? = some x ∧ _
            by_cases hk : k = i
            · subst hk
              rw [List.getElem?_set_self hlt, hst]
              simp [hl]
            · rw [List.getElem?_set_ne (Ne.symm hk)]
          · intro k
            rw [h4]
            constructor
            · rintro ⟨a, e, hl⟩; exact ⟨a, hold e, hl⟩
            · rintro ⟨a, e, hl⟩
              rcases hnew e with e | ⟨_, rfl⟩
              · exact ⟨a, e, hl⟩
              · cases hl
          · intro k j
            rw [h5]
            show _ ↔ k < (s.arrays ++ [_]).length ∧ j < s.cols ∧ ¬ ((∃ a, (s.arrays ++ [_])[k]? = some a ∧ _) ∨ _)
            rw [List.length_append, List.length_singleton]
            constructor
            · rintro ⟨a1, a2, a3⟩
              refine ⟨by omega, a2, ?_⟩
              rintro (⟨a, e, hc⟩ | hm)
              · rcases hnew e with e | ⟨e, _⟩
                · exact a3 (.inl ⟨a, e, hc⟩)
                · omega
              · exact a3 (.inr hm)
            · rintro ⟨a1, a2, a3⟩
              have hk : k < s.arrays.length := by
                by_contra hx
                have : k = s.arrays.length := by omega
                subst this
                refine a3 (.inl ⟨{ children := List.replicate s.cols true }, by simp, by simp [a2]⟩)
              refine ⟨hk, a2, ?_⟩
              rintro (⟨a, e, hc⟩ | hm)
              · exact a3 (.inl ⟨a, hold e, hc⟩)
              · exact a3 (.inr hm)
          · intro a ha
            rcases List.mem_append.1 ha with ha | ha
            · exact h6 a ha
            · rw [List.mem_singleton] at ha; rw [ha]; simp
          · intro a ha hl
            rcases List.mem_append.1 ha with ha | ha
            · exact h7 a ha hl
            · rw [List.mem_singleton] at ha; rw [ha] at hl; cases hl
          · intro m hm
            obtain ⟨a, e, hc⟩ := h8 m hm
            exact ⟨a, hold e, hc⟩
  | releaseStream i =>
    simp only [step] at hs
    cases hst : s.streams[i]? with
    | none => rw [hst] at hs; cases hs
    | some st =>
      rw [hst] at hs
      dsimp only at hs
      cases hl : st.live with
      | false => rw [hl] at hs; cases hs; exact ⟨h1, h2, h3, h4, h5, h6, h7, h8, h9, h10⟩
      | true =>
        rw [hl] at hs
        simp only [Bool.not_true, Bool.false_eq_true, if_false] at hs
        cases hs
        have hlt := (List.getElem?_eq_some_iff.1 hst).1
        have hpos : s.count ≠ 0 := by
          rw [h1]; unfold State.users
          have : 0 < s.streams.countP (·.live) := List.countP_pos_iff.2 ⟨st, List.mem_of_getElem? hst, hl⟩
          omega
        refine unref_inv ?_ ?_ ?_ ?_ ?_ h6 h7 h8 h9 ?_
        · have := countP_set' (fun x : Stream => x.live) s.streams i st { st with live := false } hst
          simp only [hl, if_true, Bool.false_eq_true, if_false] at this
          show s.count = (if s.held then 1 else 0) + (s.streams.set i { st with live := false }).countP (·.live) + s.arrays.countP (·.live) + 1
          rw [h1]; unfold State.users
          omega
        · simp only [State.free, List.mem_cons, reduceCtorEq, false_or]
          exact fun hm => hpos (h2.1 hm)
        · intro k
          simp only [State.free, List.mem_cons, Obj.stream.injEq]
          by_cases hk : k = i
          · subst hk
            rw [List.getElem?_set_self hlt]
            simp
          · rw [List.getElem?_set_ne (Ne.symm hk), h3]
            simp [hk]
        · intro k; simpa [State.free] using h4 k
        · intro k j; simpa [State.free, State.pending] using h5 k j
        · refine List.nodup_cons.2 ⟨?_, h10⟩
          intro hm
          obtain ⟨x, e, hx⟩ := (h3 i).1 hm
          rw [hst] at e
          cases e
          rw [hl] at hx
          cases hx
  | releaseArray i =>
    simp only [step] at hs
    cases hst : s.arrays[i]? with
    | none => rw [hst] at hs; cases hs
    | some a =>
      rw [hst] at hs
      dsimp only at hs
      cases hl : a.live with
      | false => rw [hl] at hs; cases hs; exact ⟨h1, h2, h3, h4, h5, h6, h7, h8, h9, h10⟩
      | true =>
        rw [hl] at hs
        simp only [Bool.not_true, Bool.false_eq_true, if_false] at hs
        cases hs
        have hlt := (List.getElem?_eq_some_iff.1 hst).1
        have hpos : s.count ≠ 0 := by
          rw [h1]; unfold State.users
          have : 0 < s.arrays.countP (·.live) := List.countP_pos_iff.2 ⟨a, List.mem_of_getElem? hst, hl⟩
          omega
        have hkeep : ∀ {k : Nat}, k ≠ i → (s.arrays.set i { live := false, children := a.children.map (fun _ => false) })[k]? = s.arrays[k]? :=
          fun hk => List.getElem?_set_ne (Ne.symm hk)
        have hself : (s.arrays.set i { live := false, children := a.children.map (fun _ => false) })[i]? = some { live := false, children := a.children.map (fun _ => false) } :=
          List.getElem?_set_self hlt
        refine unref_inv ?_ ?_ ?_ ?_ ?_ ?_ ?_ ?_ h9 ?_
        · have := countP_set' (fun x : StructArray => x.live) s.arrays i a { live := false, children := a.children.map (fun _ => false) } hst
          simp only [hl, if_true, Bool.false_eq_true, if_false] at this
          show s.count = (if s.held then 1 else 0) + s.streams.countP (·.live) +
            (s.arrays.set i { live := false, children := a.children.map (fun _ => false) }).countP (·.live) + 1
          rw [h1]; unfold State.users
          omega
        · simp only [State.free, List.mem_cons, reduceCtorEq, false_or, freeChildren_mem, and_false, exists_false, or_false]
          exact fun hm => hpos (h2.1 hm)
        · intro k
          simp only [State.free, List.mem_cons, reduceCtorEq, false_or, freeChildren_mem, and_false, exists_false, or_false]
          exact h3 k
        · intro k
          simp only [State.free, List.mem_cons, freeChildren_mem, reduceCtorEq, and_false, exists_false, or_false, Obj.array.injEq]
          by_cases hk : k = i
          · subst hk
            rw [hself]
            simp
          · rw [hkeep hk, h4]
            simp [hk]
        · intro k j
          simp only [State.free, List.mem_cons, freeChildren_mem, reduceCtorEq, false_or, Obj.child.injEq, Nat.zero_add, State.pending, List.length_set]
          by_cases hk : k = i
          · subst hk
            rw [hself, h5]
            unfold State.pending
            rw [hst]
            have hcl := h6 a (List.mem_of_getElem? hst)
            constructor
            · rintro (⟨a1, a2, a3⟩ | ⟨j', hj, -, rfl⟩)
              · refine ⟨a1, a2, ?_⟩
                rintro (⟨x, e, hx⟩ | hm)
                · cases e
                  rw [List.getElem?_map] at hx
                  cases hy : a.children[j]? <;> rw [hy] at hx <;> cases hx
                · exact a3 (.inr hm)
              · refine ⟨hlt, by rw [← hcl]; exact (List.getElem?_eq_some_iff.1 hj).1, ?_⟩
                rintro (⟨x, e, hx⟩ | hm)
                · cases e
                  rw [List.getElem?_map] at hx
                  cases hy : a.children[j]? <;> rw [hy] at hx <;> cases hx
                · obtain ⟨x, e, hx⟩ := h8 _ hm
                  dsimp only at e hx
                  rw [hst] at e
                  cases e
                  rw [hj] at hx
                  cases hx
            · rintro ⟨a1, a2, a3⟩
              by_cases hj : a.children[j]? = some true
              · exact .inr ⟨j, hj, rfl, rfl⟩
              · refine .inl ⟨a1, a2, ?_⟩
                rintro (⟨x, e, hx⟩ | hm)
                · cases e; exact hj hx
                · exact a3 (.inr hm)
          · rw [hkeep hk, h5]
            unfold State.pending
            constructor
            · rintro (h | ⟨j', hj, e, _⟩)
              · exact h
              · exact absurd e hk
            · exact .inl
        · intro x hx
          rcases List.mem_or_eq_of_mem_set hx with hx | rfl
          · exact h6 x hx
          · simp only [List.length_map]; exact h6 a (List.mem_of_getElem? hst)
        · intro x hx hxl
          rcases List.mem_or_eq_of_mem_set hx with hx | rfl
          · exact h7 x hx hxl
          · intro c hc
            rw [List.mem_map] at hc
            obtain ⟨_, _, rfl⟩ := hc
            rfl
        · intro m hm
          obtain ⟨x, e, hx⟩ := h8 m hm
          by_cases hk : m.array = i
          · rw [hk] at e
            rw [hst] at e
            cases e
            refine ⟨_, by rw [hk]; exact hself, ?_⟩
            rw [List.getElem?_map, hx]
            rfl
          · exact ⟨x, by simp only [State.free]; rw [hkeep hk]; exact e, hx⟩
        · refine List.nodup_cons.2 ⟨?_, freeChildren_nodup _ _ _ _ h10 ?_⟩
          · simp only [freeChildren_mem, reduceCtorEq, and_false, exists_false, or_false]
            intro hm
            obtain ⟨x, e, hx⟩ := (h4 i).1 hm
            rw [hst] at e
            cases e
            rw [hl] at hx
            cases hx
          · intro j hj hm
            rw [Nat.zero_add] at hm
            exact ((h5 i j).1 hm).2.2 (.inl ⟨a, hst, hj⟩)
  | moveChild i j =>
    simp only [step] at hs
    cases hst : s.arrays[i]? with
    | none => rw [hst] at hs; cases hs
    | some a =>
      rw [hst] at hs
      dsimp only at hs
      by_cases hc : a.live = true ∧ a.children[j]? = some true
      · rw [if_pos hc] at hs
        cases hs
        have hlt := (List.getElem?_eq_some_iff.1 hst).1
        have hjt := (List.getElem?_eq_some_iff.1 hc.2).1
        have hkeep : ∀ {k : Nat}, k ≠ i → (s.arrays.set i { a with children := a.children.set j false })[k]? = s.arrays[k]? :=
          fun hk => List.getElem?_set_ne (Ne.symm hk)
        have hself : (s.arrays.set i { a with children := a.children.set j false })[i]? = some { a with children := a.children.set j false } :=
          List.getElem?_set_self hlt
        refine ⟨?_, h2, h3, ?_, ?_, ?_, ?_, ?_, ?_, h10⟩
        · show s.count = _
          rw [h1]; unfold State.users
          have := countP_set' (fun x : StructArray => x.live) s.arrays i a { a with children := a.children.set j false } hst
          dsimp only at this ⊢
          omega
        · intro k
          rw [h4]
          by_cases hk : k = i
          · subst hk
            rw [hself, hst]
            simp
          · rw [hkeep hk]
        · intro k j'
          rw [h5]
          simp only [State.pending, List.length_set, List.mem_append, List.mem_singleton, Moved.mk.injEq, and_true]
          by_cases hk : k = i
          · subst hk
            rw [hself, hst]
            refine and_congr Iff.rfl (and_congr Iff.rfl (not_congr ?_))
            constructor
            · rintro (⟨x, e, hx⟩ | hm)
              · cases e
                by_cases hj : j' = j
                · exact .inr (.inr ⟨rfl, hj⟩)
                · exact .inl ⟨_, rfl, by rw [List.getElem?_set_ne (Ne.symm hj)]; exact hx⟩
              · exact .inr (.inl hm)
            · rintro (⟨x, e, hx⟩ | hm | ⟨-, rfl⟩)
              · cases e
                by_cases hj : j' = j
                · subst hj; exact .inl ⟨a, rfl, hc.2⟩
                · rw [List.getElem?_set_ne (Ne.symm hj)] at hx; exact .inl ⟨a, rfl, hx⟩
              · exact .inr hm
              · exact .inl ⟨a, rfl, hc.2⟩
          · rw [hkeep hk]
            simp [hk]
        · intro x hx
          rcases List.mem_or_eq_of_mem_set hx with hx | rfl
          · exact h6 x hx
          · simp only [List.length_set]; exact h6 a (List.mem_of_getElem? hst)
        · intro x hx hxl
          rcases List.mem_or_eq_of_mem_set hx with hx | rfl
          · exact h7 x hx hxl
          · dsimp only at hxl
            rw [hc.1] at hxl
            cases hxl
        · intro m hm
          rcases List.mem_append.1 hm with hm | hm
          · obtain ⟨x, e, hx⟩ := h8 m hm
            by_cases hk : m.array = i
            · rw [hk, hst] at e
              cases e
              refine ⟨_, by rw [hk]; exact hself, ?_⟩
              have hne : j ≠ m.child := by
                intro e
                rw [← e, hc.2] at hx
                cases hx
              rw [List.getElem?_set_ne hne]
              exact hx
            · exact ⟨x, by dsimp only; rw [hkeep hk]; exact e, hx⟩
          · rw [List.mem_singleton] at hm
            subst hm
            exact ⟨_, hself, by simp [hjt]⟩
        · show ((s.moved ++ [_]).map _).Nodup
          rw [List.map_append, List.nodup_append]
          refine ⟨h9, by simp, ?_⟩
          intro x hx y hy
          rw [List.map_cons, List.map_nil, List.mem_singleton] at hy
          subst hy
          rintro rfl
          rw [List.mem_map] at hx
          obtain ⟨m, hm, e⟩ := hx
          obtain ⟨z, e2, hz⟩ := h8 m hm
          simp only [Prod.mk.injEq] at e
          rw [e.1, hst] at e2
          cases e2
          rw [e.2, hc.2] at hz
          cases hz
      · rw [if_neg hc] at hs
        cases hs
  | releaseMoved k =>
    simp only [step] at hs
    cases hst : s.moved[k]? with
    | none => rw [hst] at hs; cases hs
    | some c =>
      rw [hst] at hs
      dsimp only at hs
      cases hl : c.live with
      | false => rw [hl] at hs; cases hs; exact ⟨h1, h2, h3, h4, h5, h6, h7, h8, h9, h10⟩
      | true =>
        rw [hl] at hs
        simp only [Bool.not_true, Bool.false_eq_true, if_false] at hs
        cases hs
        have hlt := (List.getElem?_eq_some_iff.1 hst).1
        have hcm := List.mem_of_getElem? hst
        have hc' : c = ⟨c.array, c.child, true⟩ := by rw [← hl]
        have hmap : (s.moved.set k { c with live := false }).map (fun m => (m.array, m.child)) = s.moved.map (fun m => (m.array, m.child)) := by
          apply List.ext_getElem?
          intro n
          rw [List.getElem?_map, List.getElem?_map]
          by_cases hn : n = k
          · subst hn
            rw [List.getElem?_set_self hlt, hst]
            rfl
          · rw [List.getElem?_set_ne (Ne.symm hn)]
        obtain ⟨ac, eac, hac⟩ := h8 c hcm
        have hcol : c.child < s.cols := by
          rw [← h6 ac (List.mem_of_getElem? eac)]
          exact (List.getElem?_eq_some_iff.1 hac).1
        refine ⟨h1, ?_, ?_, ?_, ?_, h6, h7, ?_, ?_, ?_⟩
        · simpa [State.free] using h2
        · intro i; simpa [State.free] using h3 i
        · intro i; simpa [State.free] using h4 i
        · intro i j
          simp only [State.free, List.mem_cons, Obj.child.injEq]
          rw [h5]
          simp only [State.pending]
          have hset : (⟨i, j, true⟩ : Moved) ∈ s.moved.set k { c with live := false } ↔ (⟨i, j, true⟩ : Moved) ∈ s.moved ∧ ¬ (i = c.array ∧ j = c.child) := by
            constructor
            · intro hm
              obtain ⟨n, e⟩ := List.getElem?_of_mem hm
              by_cases hn : n = k
              · subst hn
                rw [List.getElem?_set_self hlt] at e
                cases e
              · rw [List.getElem?_set_ne (Ne.symm hn)] at e
                refine ⟨List.mem_of_getElem? e, ?_⟩
                rintro ⟨rfl, rfl⟩
                apply hn
                refine (List.Nodup.getElem_inj_iff h9 (i := n) (j := k) (hi := by simpa using (List.getElem?_eq_some_iff.1 e).1) (hj := by simpa using hlt)).1 ?_
                rw [List.getElem_map, List.getElem_map, (List.getElem?_eq_some_iff.1 e).2, (List.getElem?_eq_some_iff.1 hst).2]
            · rintro ⟨hm, hne⟩
              obtain ⟨n, e⟩ := List.getElem?_of_mem hm
              refine List.mem_of_getElem? (i := n) ?_
              rw [List.getElem?_set_ne]
              · exact e
              · rintro rfl
                rw [hst] at e
                cases e
                exact hne ⟨rfl, rfl⟩
          rw [hset]
          constructor
          · rintro (⟨rfl, rfl⟩ | ⟨a1, a2, a3⟩)
            · refine ⟨(List.getElem?_eq_some_iff.1 eac).1, hcol, ?_⟩
              rintro (⟨x, e, hx⟩ | ⟨_, hne⟩)
              · rw [eac] at e; cases e; rw [hac] at hx; cases hx
              · exact hne ⟨rfl, rfl⟩
            · exact ⟨a1, a2, fun hx => a3 (hx.imp id (·.1))⟩
          · rintro ⟨a1, a2, a3⟩
            by_cases hx : i = c.array ∧ j = c.child
            · exact .inl hx
            · exact .inr ⟨a1, a2, fun hy => a3 (hy.imp id (fun hm => ⟨hm, hx⟩))⟩
        · intro m hm
          rcases List.mem_or_eq_of_mem_set hm with hm | rfl
          · exact h8 m hm
          · exact ⟨ac, eac, hac⟩
        · simp only [State.free]; rw [hmap]; exact h9
        · refine List.nodup_cons.2 ⟨?_, h10⟩
          intro hm
          exact ((h5 _ _).1 hm).2.2 (.inr (hc' ▸ hcm))

theorem run_inv {s s' : State} {ops : List Op} (h : Inv s) (hs : run s ops = some s') : Inv s' := by
  induction ops generalizing s with
  | nil => cases hs; exact h
  | cons op ops ih =>
    rw [run, Option.bind_eq_some_iff] at hs
    obtain ⟨t, h1, h2⟩ := hs
    exact ih (step_inv h h1) h2

/-! ### The statements -/

/-- The column memory is still there, and so is the private data with the pointers to it. -/
def State.readable (s : State) (i j : Nat) : Prop := Obj.table ∉ s.freed ∧ Obj.child i j ∉ s.freed

end Vroom.Life

namespace Vroom
open Life

/-- **C71** Whatever a consumer does: every column of every batch it has not released (and not taken apart) stays readable, no matter if the Python object and the
stream are gone. Missing: columns moved out of a batch (false, `C71_moved_refuted`). -/
theorem C71_readable_partial (cols : Nat) (ops : List Op) (s : State) (h : run (fresh cols) ops = some s) (i j : Nat) (a : StructArray)
    (ha : s.arrays[i]? = some a) (hl : a.live = true) (hj : a.children[j]? = some true) : s.readable i j := by
  have hi := run_inv (fresh_inv cols) h
  refine ⟨?_, ?_⟩
  · intro hm
    have := hi.table.1 hm
    rw [hi.count] at this
    unfold State.users at this
    have : 0 < s.arrays.countP (·.live) := List.countP_pos_iff.2 ⟨a, List.mem_of_getElem? ha, hl⟩
    omega
  · intro hm
    exact ((hi.child i j).1 hm).2.2 (.inl ⟨a, ha, hj⟩)

/-- **C71** Nothing is freed twice. -/
theorem C71_freed_once (cols : Nat) (ops : List Op) (s : State) (h : run (fresh cols) ops = some s) : s.freed.Nodup :=
  (run_inv (fresh_inv cols) h).once

/-- **C71** The table is freed exactly when the Python object, all streams and all batches are gone. -/
theorem C71_table_freed (cols : Nat) (ops : List Op) (s : State) (h : run (fresh cols) ops = some s) :
    Obj.table ∈ s.freed ↔ s.held = false ∧ (∀ st ∈ s.streams, st.live = false) ∧ (∀ a ∈ s.arrays, a.live = false) := by
  have hi := run_inv (fresh_inv cols) h
  rw [hi.table, hi.count]
  unfold State.users
  rw [Nat.add_eq_zero_iff, Nat.add_eq_zero_iff, List.countP_eq_zero, List.countP_eq_zero]
  simp only [and_assoc, Bool.not_eq_true]
  refine and_congr ?_ Iff.rfl
  cases s.held <;> simp

/-- **C71** Nothing leaks: once the Python object is gone and everything handed out is released, everything allocated is freed. -/
theorem C71_no_leak (cols : Nat) (ops : List Op) (s : State) (h : run (fresh cols) ops = some s)
    (h1 : s.held = false) (h2 : ∀ st ∈ s.streams, st.live = false) (h3 : ∀ a ∈ s.arrays, a.live = false) (h4 : ∀ m ∈ s.moved, m.live = false) :
    Obj.table ∈ s.freed ∧ (∀ i, i < s.streams.length → Obj.stream i ∈ s.freed) ∧
      (∀ i, i < s.arrays.length → Obj.array i ∈ s.freed ∧ ∀ j, j < cols → Obj.child i j ∈ s.freed) := by
  have hi := run_inv (fresh_inv cols) h
  have hcols : s.cols = cols := by
    have : ∀ (ops : List Op) (s0 s : State), run s0 ops = some s → s.cols = s0.cols := by
      intro ops
      induction ops with
      | nil => intro s0 s h; cases h; rfl
      | cons op ops ih =>
        intro s0 s h
        rw [run, Option.bind_eq_some_iff] at h
        obtain ⟨t, h1, h2⟩ := h
        rw [ih t s h2]
        have hu : ∀ s : State, s.unref.cols = s.cols := by
          intro s; unfold State.unref; dsimp only; split <;> rfl
        cases op <;> simp only [step] at h1 <;> (try split at h1) <;> (try split at h1) <;> (try split at h1) <;> cases h1 <;> first | rfl | exact hu _
    exact this ops _ s h
  refine ⟨(C71_table_freed cols ops s h).2 ⟨h1, h2, h3⟩, ?_, ?_⟩
  · intro i hlt
    exact (hi.stream i).2 ⟨_, List.getElem?_eq_getElem hlt, h2 _ (List.getElem_mem hlt)⟩
  · intro i hlt
    refine ⟨(hi.array i).2 ⟨_, List.getElem?_eq_getElem hlt, h3 _ (List.getElem_mem hlt)⟩, ?_⟩
    intro j hj
    refine (hi.child i j).2 ⟨hlt, by omega, ?_⟩
    rintro (⟨a, e, hc⟩ | hm)
    · have := hi.dead a (List.mem_of_getElem? e) (h3 a (List.mem_of_getElem? e)) true (List.mem_of_getElem? hc)
      cases this
    · exact absurd (h4 _ hm) (by simp)

/-- **C71** A column moved out of a batch is readable as long as something else keeps the table. -/
theorem C71_moved_partial (cols : Nat) (ops : List Op) (s : State) (h : run (fresh cols) ops = some s) (i j : Nat) (hm : ⟨i, j, true⟩ ∈ s.moved)
    (hk : s.held = true ∨ (∃ st ∈ s.streams, st.live = true) ∨ ∃ a ∈ s.arrays, a.live = true) : s.readable i j := by
  have hi := run_inv (fresh_inv cols) h
  refine ⟨?_, ?_⟩
  · intro hx
    obtain ⟨a1, a2, a3⟩ := (C71_table_freed cols ops s h).1 hx
    rcases hk with hk | ⟨st, hst, hk⟩ | ⟨a, ha, hk⟩
    · rw [a1] at hk; cases hk
    · rw [a2 st hst] at hk; cases hk
    · rw [a3 a ha] at hk; cases hk
  · intro hx
    exact ((hi.child i j).1 hx).2.2 (.inr hm)

/-- **C71** refuted for columns moved out of a batch: the Arrow rules let a consumer move a child and then release the parent; the column it holds, not yet released,
then points into freed memory. -/
theorem C71_moved_refuted : ∃ s, run (fresh 2) [.openStream, .getNext 0, .releaseStream 0, .drop, .moveChild 0 1, .releaseArray 0] = some s ∧
    ⟨0, 1, true⟩ ∈ s.moved ∧ ¬ s.readable 0 1 :=
  ⟨_, rfl, by decide, by unfold State.readable; decide⟩

/-- Non-vacuity: a consumer that keeps a batch after stream and Python object are gone can read both columns, and releases everything in the end. -/
example : ∃ s a, run (fresh 2) [.openStream, .getNext 0, .getNext 0, .releaseStream 0, .drop] = some s ∧ s.arrays[0]? = some a ∧ a.live = true ∧
    a.children = [true, true] ∧ s.held = false ∧ (∀ st ∈ s.streams, st.live = false) ∧
    (∃ t, step s (.releaseArray 0) = some t ∧ Obj.table ∈ t.freed) :=
  ⟨_, _, rfl, rfl, rfl, rfl, rfl, by decide, _, rfl, by decide⟩

end Vroom
