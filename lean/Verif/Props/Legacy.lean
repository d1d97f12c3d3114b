import Verif.Model.Legacy
import Verif.Props.Statistics
import Mathlib.Tactic.Positivity

/-!
C43: copy-on-write buffers are isolated.  C44: chunked storage is a sequence.  C45: statistics of legacy columns.
-/
namespace Vroom

/-! ### C43 -/

namespace Cow
variable {α : Type}

/-- Every variable points to a vector that has been made. -/
def Wf (m : Cow α) : Prop := ∀ i v : Nat, m.ptr[i]? = some (some v) → v < m.next

theorem data_some {m : Cow α} {i v : Nat} : m.data i = some v ↔ m.ptr[i]? = some (some v) := by
  simp only [data]
  cases h : m.ptr[i]? with
  | none => simp
  | some o => cases o <;> simp

theorem getElem?_set' (l : List (Option Nat)) (i k : Nat) (x : Option Nat) :
    (l.set i x)[k]? = if k = i ∧ i < l.length then some x else l[k]? := by
  rw [List.getElem?_set]
  by_cases hik : i = k
  · subst hik
    by_cases hl : i < l.length
    · simp [hl]
    · simp [hl]
  · simp [hik, Ne.symm hik]

/-- Content of a variable by pointer and heap. -/
def contentOf (heap : Nat → List α) : Option (Option Nat) → List α
  | some (some v) => heap v
  | _ => []

theorem asVec_eq (m : Cow α) (i : Nat) : m.asVec i = contentOf m.heap m.ptr[i]? := by
  simp only [asVec, data, contentOf]
  cases h : m.ptr[i]? with
  | none => rfl
  | some o => cases o <;> rfl

/-- The memory represents independent variables. -/
def Rep (m : Cow α) (vars : List (List α)) : Prop := m.Wf ∧ m.ptr.length = vars.length ∧ ∀ i, m.asVec i = vars.getD i []

theorem getD_set (l : List (List α)) (i k : Nat) (x : List α) :
    (l.set i x).getD k [] = if k = i ∧ i < l.length then x else l.getD k [] := by
  simp only [List.getD_eq_getElem?_getD]
  rw [List.getElem?_set]
  by_cases hik : i = k
  · subst hik
    by_cases hl : i < l.length
    · simp [hl]
    · simp [hl]
  · simp [hik, Ne.symm hik]

theorem getD_append_one (l : List (List α)) (k : Nat) (x : List α) :
    (l ++ [x]).getD k [] = if k = l.length then x else l.getD k [] := by
  simp only [List.getD_eq_getElem?_getD]
  rw [List.getElem?_append]
  by_cases h : k < l.length
  · rw [if_pos h, if_neg (by omega)]
  · rw [if_neg h]
    by_cases h2 : k = l.length
    · subst h2; simp
    · rw [if_neg h2, List.getElem?_eq_none (by simp; omega), List.getElem?_eq_none (by omega)]

theorem getElem?_append_one (l : List (Option Nat)) (k : Nat) (x : Option Nat) :
    (l ++ [x])[k]? = if k = l.length then some x else l[k]? := by
  rw [List.getElem?_append]
  by_cases h : k < l.length
  · rw [if_pos h, if_neg (by omega)]
  · rw [if_neg h]
    by_cases h2 : k = l.length
    · subst h2; simp
    · rw [if_neg h2, List.getElem?_eq_none (by simp; omega), List.getElem?_eq_none (by omega)]

/-- Pointing a variable elsewhere: `x` is a pointer held by some variable, or null. -/
theorem rep_set {m : Cow α} {vars : List (List α)} (h : Rep m vars) (i : Nat) (x : Option Nat) (c : List α)
    (hx : ∀ v, x = some v → v < m.next) (hc : contentOf m.heap (some x) = c) :
    Rep { m with ptr := m.ptr.set i x } (vars.set i c) := by
  obtain ⟨h1, h2, h3⟩ := h
  refine ⟨?_, by simpa using h2, ?_⟩
  · intro k v hk
    simp only [getElem?_set'] at hk
    by_cases hik : k = i ∧ i < m.ptr.length
    · rw [if_pos hik] at hk; exact hx v (by simpa using hk)
    · rw [if_neg hik] at hk; exact h1 k v hk
  · intro k
    rw [asVec_eq]
    simp only [getElem?_set', getD_set, ← h2]
    by_cases hik : k = i ∧ i < m.ptr.length
    · rw [if_pos hik, if_pos hik]; exact hc
    · rw [if_neg hik, if_neg hik, ← asVec_eq]; exact h3 k

theorem rep_push {m : Cow α} {vars : List (List α)} (h : Rep m vars) (x : Option Nat) (c : List α)
    (hx : ∀ v, x = some v → v < m.next) (hc : contentOf m.heap (some x) = c) :
    Rep { m with ptr := m.ptr ++ [x] } (vars ++ [c]) := by
  obtain ⟨h1, h2, h3⟩ := h
  refine ⟨?_, by simp [h2], ?_⟩
  · intro k v hk
    simp only [getElem?_append_one] at hk
    by_cases hik : k = m.ptr.length
    · rw [if_pos hik] at hk; exact hx v (by simpa using hk)
    · rw [if_neg hik] at hk; exact h1 k v hk
  · intro k
    rw [asVec_eq]
    simp only [getElem?_append_one, getD_append_one, ← h2]
    by_cases hik : k = m.ptr.length
    · rw [if_pos hik, if_pos hik]; exact hc
    · rw [if_neg hik, if_neg hik, ← asVec_eq]; exact h3 k

theorem content_data (m : Cow α) (i : Nat) : contentOf m.heap (some (m.data i)) = m.asVec i := by
  rw [asVec_eq]; simp only [data]
  cases h : m.ptr[i]? with
  | none => rfl
  | some o => cases o <;> rfl

theorem data_lt {m : Cow α} (h : m.Wf) (i v : Nat) (hv : m.data i = some v) : v < m.next := h i v (data_some.1 hv)

/-- Allocating does not disturb existing variables. -/
theorem rep_alloc {m : Cow α} {vars : List (List α)} (h : Rep m vars) (c : List α) :
    Rep { m with heap := fun k => if k = m.next then c else m.heap k, next := m.next + 1 } vars := by
  obtain ⟨h1, h2, h3⟩ := h
  refine ⟨fun i v hv => Nat.lt_succ_of_lt (h1 i v hv), h2, ?_⟩
  intro i
  rw [← h3 i, asVec_eq, asVec_eq]
  simp only
  cases hp : m.ptr[i]? with
  | none => rfl
  | some o =>
    cases o with
    | none => rfl
    | some v => simp only [contentOf]; rw [if_neg (Nat.ne_of_lt (h1 i v hp))]

theorem rep_makeShared {m : Cow α} {vars : List (List α)} (h : Rep m vars) (i : Nat) (c : List α) :
    Rep (m.makeShared i c) (vars.set i c) :=
  rep_set (rep_alloc h c) i (some m.next) c (by intro v hv; simp at hv; subst hv; exact Nat.lt_succ_self _) (by simp [contentOf])

theorem set_getD_self (vars : List (List α)) (i : Nat) (h : i < vars.length) : vars.set i (vars.getD i []) = vars := by
  apply List.ext_getElem?
  intro k
  rw [List.getElem?_set]
  by_cases hik : i = k
  · subst hik; simp [h, List.getD_eq_getElem?_getD]
  · rw [if_neg hik]

/-- After `ensure_unique` the variables read the same, and variable `i` has a vector of its own. -/
theorem rep_ensureUnique {m : Cow α} {vars : List (List α)} (h : Rep m vars) (i : Nat) (hi : i < vars.length) :
    Rep (m.ensureUnique i) vars ∧ ∃ v, (m.ensureUnique i).ptr[i]? = some (some v) ∧
      ∀ k, (m.ensureUnique i).ptr[k]? = some (some v) → k = i := by
  have hil : i < m.ptr.length := by have := h.2.1; omega
  have fresh : ∀ c, ∃ v, (m.makeShared i c).ptr[i]? = some (some v) ∧ ∀ k, (m.makeShared i c).ptr[k]? = some (some v) → k = i := by
    intro c
    refine ⟨m.next, by simp [makeShared, hil], ?_⟩
    intro k hk
    simp only [makeShared, getElem?_set'] at hk
    by_cases hik : k = i ∧ i < m.ptr.length
    · exact hik.1
    · rw [if_neg hik] at hk; exact absurd (h.1 k _ hk) (Nat.lt_irrefl _)
  simp only [ensureUnique]
  cases hd : m.data i with
  | none =>
    refine ⟨?_, fresh []⟩
    have := rep_makeShared h i []
    have h3 := h.2.2 i
    have : m.asVec i = [] := by simp [asVec, hd]
    rw [this] at h3
    have h4 := rep_makeShared h i []
    have h5 := set_getD_self vars i hi
    rw [← h3] at h5
    rwa [h5] at h4
  | some v =>
    simp only
    by_cases hc : m.ptr.count (some v) > 1
    · rw [if_pos hc]
      refine ⟨?_, fresh _⟩
      have h3 := h.2.2 i
      have : m.asVec i = m.heap v := by simp [asVec, hd]
      rw [this] at h3
      have h4 := rep_makeShared h i (m.heap v)
      have h5 := set_getD_self vars i hi
      rw [← h3] at h5
      rwa [h5] at h4
    · rw [if_neg hc]
      refine ⟨h, v, data_some.1 hd, ?_⟩
      intro k hk
      by_contra hne
      apply hc
      have hi' := data_some.1 hd
      have hkl : k < m.ptr.length := (List.getElem?_eq_some_iff.1 hk).1
      rcases Nat.lt_or_gt_of_ne hne with hlt | hlt
      · have e : m.ptr = m.ptr.take i ++ m.ptr.drop i := (List.take_append_drop i m.ptr).symm
        rw [e, List.count_append]
        have c1 : 0 < (m.ptr.take i).count (some v) := by
          rw [List.count_pos_iff, List.mem_iff_getElem?]; exact ⟨k, by rw [List.getElem?_take, if_pos hlt]; exact hk⟩
        have c2 : 0 < (m.ptr.drop i).count (some v) := by
          rw [List.count_pos_iff, List.mem_iff_getElem?]; exact ⟨0, by rw [List.getElem?_drop]; simpa using hi'⟩
        omega
      · have e : m.ptr = m.ptr.take k ++ m.ptr.drop k := (List.take_append_drop k m.ptr).symm
        rw [e, List.count_append]
        have c1 : 0 < (m.ptr.take k).count (some v) := by
          rw [List.count_pos_iff, List.mem_iff_getElem?]; exact ⟨i, by rw [List.getElem?_take, if_pos hlt]; exact hi'⟩
        have c2 : 0 < (m.ptr.drop k).count (some v) := by
          rw [List.count_pos_iff, List.mem_iff_getElem?]; exact ⟨0, by rw [List.getElem?_drop]; simpa using hk⟩
        omega

theorem rep_write {m : Cow α} {vars : List (List α)} (h : Rep m vars) (i : Nat) (hi : i < vars.length) (f : List α → List α) (v : Nat)
    (hv : m.ptr[i]? = some (some v)) (hu : ∀ k, m.ptr[k]? = some (some v) → k = i) :
    Rep (m.write i f) (vars.set i (f (vars.getD i []))) := by
  have hd : m.data i = some v := data_some.2 hv
  simp only [write, hd]
  obtain ⟨h1, h2, h3⟩ := h
  refine ⟨h1, by simpa using h2, ?_⟩
  intro k
  rw [asVec_eq, getD_set]
  simp only
  by_cases hik : k = i
  · subst hik
    rw [if_pos ⟨rfl, hi⟩, hv]
    simp only [contentOf, if_true]
    rw [← h3 k, asVec_eq, hv]; rfl
  · rw [if_neg (by tauto), ← h3 k, asVec_eq]
    cases hp : m.ptr[k]? with
    | none => rfl
    | some o =>
      cases o with
      | none => rfl
      | some w =>
        simp only [contentOf]
        rw [if_neg]
        intro he; subst he; exact hik (hu k hp)

theorem rep_step {m : Cow α} {vars : List (List α)} (h : Rep m vars) (op : CowOp α) (hv : op.Valid vars.length) :
    Rep (m.step op) (op.apply vars) := by
  cases op with
  | new c =>
    exact rep_push (rep_alloc h c) (some m.next) c (by intro v hv; simp at hv; subst hv; exact Nat.lt_succ_self _) (by simp [contentOf])
  | copy i => exact rep_push h (m.data i) _ (data_lt h.1 i) (by rw [content_data, h.2.2 i])
  | move i =>
    have h1 := rep_set h i none [] (by simp) rfl
    exact rep_push h1 (m.data i) _ (data_lt h.1 i) (by rw [← h.2.2 i]; exact content_data m i)
  | assign i j => exact rep_set h i (m.data j) _ (data_lt h.1 j) (by rw [content_data, h.2.2 j])
  | moveAssign i j =>
    simp only [step, CowOp.apply]
    by_cases hij : i = j
    · rw [if_pos hij, if_pos hij]; exact h
    · rw [if_neg hij, if_neg hij]
      have h1 := rep_set h i (m.data j) _ (data_lt h.1 j) (by rw [content_data, h.2.2 j])
      exact rep_set h1 j none [] (by simp) rfl
  | mutate i f =>
    obtain ⟨h1, v, h2, h3⟩ := rep_ensureUnique h i hv
    exact rep_write h1 i hv f v h2 h3
  | intoVec i =>
    simp only [step, CowOp.apply]
    cases hd : m.data i with
    | none =>
      have h3 := h.2.2 i
      have : m.asVec i = [] := by simp [asVec, hd]
      rw [this] at h3
      have h5 := set_getD_self vars i hv
      rw [← h3] at h5
      rw [h5]; exact h
    | some w =>
      obtain ⟨h1, v, h2, h3⟩ := rep_ensureUnique h i hv
      exact rep_write h1 i hv (fun _ => []) v h2 h3
  | swap i j =>
    have h1 := rep_set h i (m.data j) _ (data_lt h.1 j) (by rw [content_data, h.2.2 j])
    exact rep_set h1 j (m.data i) _ (data_lt h.1 i) (by rw [← h.2.2 i]; exact content_data m i)
  | destroy i => exact rep_set h i none [] (by simp) rfl

end Cow

/-- Programs in which every operation names existing variables. -/
def CowValid {α : Type} : List (List α) → List (CowOp α) → Prop
  | _, [] => True
  | vars, op :: ops => op.Valid vars.length ∧ CowValid (op.apply vars) ops

theorem cow_run {α : Type} : ∀ (ops : List (CowOp α)) (m : Cow α) (vars : List (List α)), m.Rep vars → CowValid vars ops →
    (ops.foldl Cow.step m).Rep (ops.foldl CowOp.apply vars)
  | [], _, _, h, _ => h
  | op :: ops, _, _, h, hv => cow_run ops _ _ (Cow.rep_step h op hv.1) hv.2

/-- Any program over copy-on-write buffers reads, in every variable, what it would read if every variable owned its
content: a mutation through one variable is invisible through every other. -/
theorem C43_isolated {α : Type} (ops : List (CowOp α)) (hv : CowValid [] ops) (i : Nat) :
    (ops.foldl Cow.step ({} : Cow α)).asVec i = (ops.foldl CowOp.apply []).getD i [] :=
  (cow_run ops {} [] ⟨by intro i v h; simp at h, rfl, by intro i; simp [Cow.asVec, Cow.data]⟩ hv).2.2 i

/-- Copies share storage, and a variable that is not shared is changed in place. -/
theorem C43_shares {α : Type} (m : Cow α) (i : Nat) :
    (m.step (.copy i)).data m.ptr.length = m.data i ∧
      (m.useCount i = 1 → ∀ f, (m.step (.mutate i f)).data i = m.data i ∧ (m.step (.mutate i f)).next = m.next) := by
  constructor
  · simp [Cow.step, Cow.data]
  · intro hu f
    simp only [Cow.useCount] at hu
    cases hd : m.data i with
    | none => simp [hd] at hu
    | some v =>
      simp only [hd] at hu
      have he : m.ensureUnique i = m := by simp only [Cow.ensureUnique, hd]; rw [if_neg (by omega)]
      simp only [Cow.step, he, Cow.write, hd]
      exact ⟨hd, trivial⟩

/-- The hypotheses on a program with shared copies, moves and mutations. -/
def demoCow : List (CowOp Nat) := [.new [1, 2], .copy 0, .mutate 1 (· ++ [3]), .move 0, .copy 1, .assign 0 2, .mutate 0 (fun _ => []), .swap 1 2]

example : CowValid [] demoCow := by simp [CowValid, demoCow, CowOp.Valid, CowOp.apply]
example : demoCow.foldl CowOp.apply [] = [[], [1, 2], [1, 2, 3], [1, 2, 3]] := by decide +kernel

/-- A pointer kept from `mutable_data` or a reference from `operator[]` writes through to a copy made later:
`p = a.mutable_data(); b = a.share(); p[0] = 9` changes `b`. -/
theorem C43_retained_pointer_refuted :
    let m := (({} : Cow Nat).step (.new [1])).ensureUnique 0
    let m := m.step (.copy 0)
    m.asVec 1 = [1] ∧ (m.writeRetained 0 (fun _ => [9])).asVec 1 = [9] := by decide +kernel

/-- **C43** Exactly who sees a write through a kept pointer: the variables that share the vector at the time of the write see the change, all others keep their content. -/
theorem C43_retained_exact {α : Type} (m : Cow α) (i v : Nat) (hi : m.data i = some v) (f : List α → List α) (k : Nat) :
    (m.writeRetained v f).asVec k = if m.data k = m.data i then f (m.asVec k) else m.asVec k := by
  have hd : (m.writeRetained v f).data k = m.data k := rfl
  unfold Cow.asVec
  rw [hd, hi]
  cases hk : m.data k with
  | none => simp
  | some w =>
    simp only [Cow.writeRetained, Option.some.injEq]
    split
    · next h => rw [h]
    · rfl

/-- **C43** A kept pointer is safe as long as its variable is not shared: the write is seen by that variable only. -/
theorem C43_retained_alone {α : Type} (m : Cow α) (i v : Nat) (hi : m.data i = some v) (hu : m.useCount i = 1) (f : List α → List α) (k : Nat) (hk : k ≠ i) :
    (m.writeRetained v f).asVec k = m.asVec k ∧ (m.writeRetained v f).asVec i = f (m.asVec i) := by
  refine ⟨?_, by rw [C43_retained_exact m i v hi f i, if_pos rfl]⟩
  rw [C43_retained_exact m i v hi f k, if_neg]
  rw [hi]
  intro hd
  have hg : ∀ j, m.data j = some v → m.ptr[j]? = some (some v) := fun j h => by
    unfold Cow.data at h
    cases hp : m.ptr[j]? with
    | none => rw [hp] at h; simp at h
    | some o => rw [hp] at h; simpa using h
  have h1 : m.ptr.count (some v) = 1 := by simpa [Cow.useCount, hi] using hu
  have key : ∀ (l : List (Option Nat)) (a b : Nat), a < b → l[a]? = some (some v) → l[b]? = some (some v) → 2 ≤ l.count (some v) := by
    intro l
    induction l with
    | nil => intro a b _ h; simp at h
    | cons x l ih =>
      intro a b hab ha hb
      cases b with
      | zero => omega
      | succ b =>
        rw [List.getElem?_cons_succ] at hb
        cases a with
        | zero =>
          rw [List.getElem?_cons_zero, Option.some.injEq] at ha
          subst ha
          rw [List.count_cons_self]
          have := List.count_pos_iff.2 (List.mem_of_getElem? hb)
          omega
        | succ a =>
          rw [List.getElem?_cons_succ] at ha
          have := ih a b (by omega) ha hb
          have := List.count_le_count_cons (a := some v) (b := x) (l := l)
          omega
  rcases Nat.lt_or_gt_of_ne hk with h | h
  · have := key m.ptr k i h (hg k hd) (hg i hi); omega
  · have := key m.ptr i k h (hg i hi) (hg k hd); omega

/-- Non-vacuity of `C43_retained_exact` and `C43_retained_alone`: a variable that shares and one that does not. -/
example : let m := [CowOp.new [1], .copy 0, .new [5]].foldl Cow.step ({} : Cow Nat)
    m.data 0 = some 0 ∧ m.data 1 = m.data 0 ∧ m.data 2 = some 1 ∧ m.useCount 2 = 1 := by decide +kernel

/-! ### C44 -/

namespace Chunked
variable {α : Type}

/-- Values and flags have equal lengths; no chunk is empty. -/
def Wf (s : Chunked α) : Prop := s.active.length = s.activeNulls.length ∧ ∀ c ∈ s.chunks, c.1.length = c.2.length ∧ c.1 ≠ []

def chunkCells (cs : List (List α × List Bool)) : List (α × Bool) := cs.flatMap (fun c => c.1.zip c.2)

/-- Everything stored, in order. -/
def contents (s : Chunked α) : List (α × Bool) := chunkCells s.chunks ++ s.active.zip s.activeNulls

theorem wf_append {s : Chunked α} (h : s.Wf) (v : α) (b : Bool) : (s.append v b).Wf := ⟨by simp [append, h.1], h.2⟩
theorem contents_append {s : Chunked α} (h : s.Wf) (v : α) (b : Bool) : (s.append v b).contents = s.contents ++ [(v, b)] := by
  simp only [contents, append]
  rw [List.zip_append h.1]; simp

theorem zip_map_cells (cs : List (α × Bool)) : (cs.map (·.1)).zip (cs.map (·.2)) = cs := by
  induction cs with
  | nil => rfl
  | cons c cs ih => simp [ih]

theorem wf_direct {s : Chunked α} (h : s.Wf) (cs : List (α × Bool)) : (s.direct cs).Wf := ⟨by simp [direct, h.1], h.2⟩
theorem contents_direct {s : Chunked α} (h : s.Wf) (cs : List (α × Bool)) : (s.direct cs).contents = s.contents ++ cs := by
  simp only [contents, direct]
  rw [List.zip_append h.1, zip_map_cells]; simp

theorem finalize_cases (s : Chunked α) :
    (s.active = [] ∧ s.finalizeActive = s) ∨
    (s.active ≠ [] ∧ s.finalizeActive = { active := [], activeNulls := [], chunks := s.chunks ++ [(s.active, s.activeNulls)] }) := by
  simp only [finalizeActive]
  by_cases h : s.active = []
  · exact .inl ⟨h, by simp [h]⟩
  · exact .inr ⟨h, by simp [h]⟩

theorem wf_finalize {s : Chunked α} (h : s.Wf) : s.finalizeActive.Wf := by
  rcases finalize_cases s with ⟨_, he⟩ | ⟨hne, he⟩ <;> rw [he]
  · exact h
  · refine ⟨rfl, ?_⟩
    intro c hc
    rcases List.mem_append.1 hc with hc | hc
    · exact h.2 c hc
    · simp at hc; subst hc; exact ⟨h.1, hne⟩

theorem contents_finalize (s : Chunked α) : s.finalizeActive.contents = s.contents := by
  rcases finalize_cases s with ⟨_, he⟩ | ⟨_, he⟩ <;> rw [he]
  simp [contents, chunkCells]

theorem finalize_active (s : Chunked α) : s.finalizeActive.active = [] := by
  rcases finalize_cases s with ⟨h, he⟩ | ⟨_, he⟩ <;> rw [he]
  exact h

theorem filter_nonempty {s : Chunked α} (h : s.Wf) : s.chunks.filter (fun c => !c.1.isEmpty) = s.chunks := by
  rw [List.filter_eq_self]; intro c hc; simpa using (h.2 c hc).2

theorem contents_active_nil {s : Chunked α} (h : s.active = []) : s.contents = chunkCells s.chunks := by simp [contents, h]

theorem wf_merge {s t : Chunked α} (hs : s.Wf) (ht : t.Wf) : (s.mergeFrom t).Wf := by
  simp only [mergeFrom, filter_nonempty (wf_finalize ht)]
  refine ⟨(wf_finalize hs).1, ?_⟩
  intro c hc
  rcases List.mem_append.1 hc with hc | hc
  · exact (wf_finalize hs).2 c hc
  · exact (wf_finalize ht).2 c hc

theorem contents_merge {s t : Chunked α} (ht : t.Wf) : (s.mergeFrom t).contents = s.contents ++ t.contents := by
  simp only [mergeFrom, filter_nonempty (wf_finalize ht)]
  rw [← contents_finalize s, ← contents_finalize t, contents_active_nil (finalize_active t), contents_active_nil (finalize_active s)]
  rw [contents_active_nil (by exact finalize_active s)]
  simp [chunkCells]

theorem wf_away {t : Chunked α} (ht : t.Wf) : t.mergedAway.Wf := ⟨(wf_finalize ht).1, by simp [mergedAway]⟩
theorem contents_away (t : Chunked α) : t.mergedAway.contents = [] := by
  simp [mergedAway, contents, chunkCells, finalize_active]

theorem run_ok (d : α) (h : ColHistory α) : (run d h).Wf ∧ (run d h).contents = h.cells d := by
  induction h with
  | new => exact ⟨⟨rfl, by simp [run]⟩, rfl⟩
  | append h v ih =>
    cases v with
    | none => exact ⟨wf_append ih.1 d true, by rw [run, contents_append ih.1, ih.2]; rfl⟩
    | some v => exact ⟨wf_append ih.1 v false, by rw [run, contents_append ih.1, ih.2]; rfl⟩
  | direct h cs ih => exact ⟨wf_direct ih.1 cs, by rw [run, contents_direct ih.1, ih.2]; rfl⟩
  | finalize h ih => exact ⟨wf_finalize ih.1, by rw [run, contents_finalize, ih.2]; rfl⟩
  | read h ih => exact ih
  | merge h k ih1 ih2 => exact ⟨wf_merge ih1.1 ih2.1, by rw [run, contents_merge ih2.1, ih1.2, ih2.2]; rfl⟩
  | drained h k _ ih => exact ⟨wf_away ih.1, by rw [run, contents_away]; rfl⟩

theorem size_eq {s : Chunked α} (h : s.Wf) : s.size = s.contents.length := by
  have key : ∀ (cs : List (List α × List Bool)) (n : Nat), (∀ c ∈ cs, c.1.length = c.2.length ∧ c.1 ≠ []) →
      cs.foldl (fun n c => n + c.1.length) n = n + (chunkCells cs).length := by
    intro cs
    induction cs with
    | nil => intro n _; simp [chunkCells]
    | cons c cs ih =>
      intro n hc
      rw [List.foldl_cons, ih _ (fun x hx => hc x (List.mem_cons_of_mem _ hx))]
      simp [chunkCells, (hc c (by simp)).1]; omega
  rw [size, key _ _ h.2, contents, List.length_append, List.length_zip, h.1]; omega

theorem isEmpty_iff {s : Chunked α} (h : s.Wf) : s.isEmpty = true ↔ s.contents = [] := by
  simp only [isEmpty]
  cases ha : s.active with
  | cons a as =>
    have h1 := h.1
    rw [ha] at h1
    simp only [contents, ha]
    cases hn : s.activeNulls with
    | nil => rw [hn] at h1; simp at h1
    | cons b bs => simp
  | nil =>
    simp only [contents, ha, List.isEmpty_nil, Bool.not_true, Bool.false_eq_true, if_false, List.zip_nil_left, List.append_nil]
    cases hc : s.chunks with
    | nil => simp [chunkCells]
    | cons c cs =>
      have h2 := h.2 c (by rw [hc]; simp)
      obtain ⟨vs, bs⟩ := c
      cases vs with
      | nil => exact absurd rfl h2.2
      | cons v vs =>
        cases bs with
        | nil => simp at h2
        | cons b bs => simp [chunkCells]

/-- Iterating inside a chunk. -/
theorem iter_chunk {s : Chunked α} (h : s.Wf) (k : Nat) (c : List α × List Bool) (hc : s.chunks[k]? = some c) (rest : List (α × Bool))
    (hrest : s.IterRun (k + 1, 0) rest) : ∀ (n j : Nat), j + n + 1 = c.1.length → s.IterRun (k, j) ((c.1.zip c.2).drop j ++ rest) := by
  have hk : k < s.chunks.length := (List.getElem?_eq_some_iff.1 hc).1
  have hlen := (h.2 c (List.mem_of_getElem? hc)).1
  intro n
  induction n with
  | zero =>
    intro j hj
    have hd : (c.1.zip c.2).drop j = [(c.1[j]'(by omega), c.2[j]'(by omega))] := by
      rw [List.drop_eq_getElem_cons (by simp; omega)]
      rw [List.drop_eq_nil_of_le (by simp; omega)]
      simp
    rw [hd]
    refine .step (k, j) (k + 1, 0) _ _ ?_ ?_ ?_ hrest
    · simp [iterEnd]; omega
    · simp [deref, hc, List.getElem?_eq_getElem (show j < c.1.length by omega), List.getElem?_eq_getElem (show j < c.2.length by omega)]
    · simp only [next, hc]; rw [if_pos (by omega)]
  | succ n ih =>
    intro j hj
    have hd : (c.1.zip c.2).drop j = (c.1[j]'(by omega), c.2[j]'(by omega)) :: (c.1.zip c.2).drop (j + 1) := by
      rw [List.drop_eq_getElem_cons (by simp; omega)]
      simp
    rw [hd]
    refine .step (k, j) (k, j + 1) _ _ ?_ ?_ ?_ (ih (j + 1) (by omega))
    · simp [iterEnd]; omega
    · simp [deref, hc, List.getElem?_eq_getElem (show j < c.1.length by omega), List.getElem?_eq_getElem (show j < c.2.length by omega)]
    · simp only [next, hc]; rw [if_neg (by omega)]

theorem iter_from {s : Chunked α} (h : s.Wf) : ∀ (n k : Nat), k + n = s.chunks.length → s.IterRun (k, 0) (chunkCells (s.chunks.drop k)) := by
  intro n
  induction n with
  | zero =>
    intro k hk
    have : k = s.chunks.length := by omega
    subst this
    rw [List.drop_eq_nil_of_le (Nat.le_refl _)]
    exact .done
  | succ n ih =>
    intro k hk
    have hkl : k < s.chunks.length := by omega
    rw [List.drop_eq_getElem_cons hkl, chunkCells, List.flatMap_cons]
    have hc := h.2 _ (List.getElem_mem hkl)
    have hpos : 0 < (s.chunks[k]).1.length := List.length_pos_of_ne_nil hc.2
    have := iter_chunk h k _ (List.getElem?_eq_getElem hkl) _ (ih (k + 1) (by omega)) ((s.chunks[k]).1.length - 1) 0 (by omega)
    rwa [List.drop_zero] at this

theorem iter_unique {s : Chunked α} {i : Iter} {a b : List (α × Bool)} (ha : s.IterRun i a) (hb : s.IterRun i b) : a = b := by
  induction ha generalizing b with
  | done =>
    cases hb with
    | done => rfl
    | step _ _ _ _ hne => exact absurd rfl hne
  | step i j v out hne hd hn _ ih =>
    cases hb with
    | done => exact absurd rfl hne
    | step _ j' v' out' hne' hd' hn' hr' =>
      rw [hd] at hd'; rw [hn] at hn'
      simp at hd' hn'
      subst hd'; subst hn'
      rw [ih hr']

theorem iterBegin_eq (s : Chunked α) : s.iterBegin = (0, 0) := by
  simp only [iterBegin]
  cases h : s.chunks with
  | nil => simp [iterEnd, h]
  | cons c cs => simp

end Chunked

/-- After any history of appends, direct writes, finalizations and merges, chunked storage has as many values as were
appended, is empty iff there are none, and, finalized, its iterators visit exactly the appended values and null flags
in order, in bounds, and stop. -/
theorem C44_sequence {α : Type} (d : α) (h : ColHistory α) :
    let s := Chunked.run d h
    s.size = (h.cells d).length ∧ (s.isEmpty = true ↔ h.cells d = []) ∧
      s.finalizeActive.IterRun s.finalizeActive.iterBegin (h.cells d) ∧
      ∀ out, s.finalizeActive.IterRun s.finalizeActive.iterBegin out → out = h.cells d := by
  obtain ⟨h1, h2⟩ := Chunked.run_ok d h
  intro s
  have hi : s.finalizeActive.IterRun s.finalizeActive.iterBegin (h.cells d) := by
    rw [Chunked.iterBegin_eq, ← h2, ← Chunked.contents_finalize, Chunked.contents_active_nil (Chunked.finalize_active _)]
    exact Chunked.iter_from (Chunked.wf_finalize h1) _ 0 (Nat.zero_add _)
  exact ⟨by rw [← h2]; exact Chunked.size_eq h1, by rw [← h2]; exact Chunked.isEmpty_iff h1, hi, fun out ho => Chunked.iter_unique ho hi⟩

/-- Without finalizing, the iterators do not see values appended since (the header says to finalize first). -/
theorem C44_iterate_before_finalize : (Chunked.run 0 (.append (.append .new (some 1)) (some 2))).IterRun
    (Chunked.run 0 (.append (.append .new (some 1)) (some 2))).iterBegin [] := .done

def demoCol : ColHistory Nat :=
  .merge (.append (.read (.merge (.append (.append .new (some 1)) none) (.append .new (some 2)))) (some 3))
    (.direct (.finalize (.append .new (some 4))) [(5, false), (0, true)])

example : demoCol.cells 0 = [(1, false), (0, true), (2, false), (3, false), (4, false), (5, false), (0, true)] := by decide +kernel
example : (Chunked.run 0 demoCol).chunks.length = 5 := by decide +kernel

/-! ### Legacy column builders -/

namespace LegacyCol
variable {α : Type}

structure Inv (b : LegacyCol α) (cells : List (α × Bool)) : Prop where
  wf : b.storage.Wf
  contents : b.storage.contents = cells
  fin : b.finalized = true → b.storage.active = []
  cache : b.cacheValid = true → b.storage.active = [] ∧
    (b.storage.chunks = [] ∨ b.cachedValues = b.storage.chunks.flatMap (·.1) ∧ b.cachedNulls = b.storage.chunks.flatMap (·.2))

theorem inv_finalize {b : LegacyCol α} {cells : List (α × Bool)} (h : Inv b cells) : Inv b.finalize cells := by
  simp only [finalize]
  by_cases hf : b.finalized = true
  · simp only [hf]; exact h
  · have hf' : b.finalized = false := by simpa using hf
    simp only [hf', Bool.not_false, if_true]
    refine ⟨Chunked.wf_finalize h.wf, by rw [Chunked.contents_finalize]; exact h.contents, fun _ => Chunked.finalize_active _, ?_⟩
    intro hc
    have := h.cache hc
    have he : b.storage.finalizeActive = b.storage := by
      rcases Chunked.finalize_cases b.storage with ⟨_, he⟩ | ⟨hne, _⟩
      · exact he
      · exact absurd this.1 hne
    rw [he]; exact this

theorem inv_ensureCache {b : LegacyCol α} {cells : List (α × Bool)} (h : Inv b cells) : Inv b.ensureCache cells := by
  simp only [ensureCache]
  by_cases hc : b.cacheValid = true
  · rw [if_pos hc]; exact h
  · rw [if_neg hc]
    have hf : Inv (if !b.finalized then b.finalize else b) cells := by
      by_cases hb : b.finalized = true
      · simp only [hb]; exact h
      · have : b.finalized = false := by simpa using hb
        simp only [this]; exact inv_finalize h
    have ha : (if !b.finalized then b.finalize else b).finalized = true := by
      cases hb : b.finalized <;> simp [finalize, hb]
    exact ⟨hf.wf, hf.contents, hf.fin, fun _ => ⟨hf.fin ha, .inr ⟨rfl, rfl⟩⟩⟩

theorem inv_afterRead {b : LegacyCol α} {cells : List (α × Bool)} (h : Inv b cells) : Inv b.afterRead cells := by
  simp only [afterRead]; split
  · exact inv_ensureCache h
  · exact h

theorem inv_run (d : α) (h : ColHistory α) : Inv (run d h) (h.cells d) := by
  induction h with
  | new => exact ⟨⟨rfl, by simp [run]⟩, rfl, by simp [run], by simp [run]⟩
  | append h v ih =>
    cases v with
    | none => exact ⟨Chunked.wf_append ih.wf d true, by simp only [run, append, invalidate]; rw [Chunked.contents_append ih.wf, ih.contents]; rfl, by simp [run, append, invalidate], by simp [run, append, invalidate]⟩
    | some v => exact ⟨Chunked.wf_append ih.wf v false, by simp only [run, append, invalidate]; rw [Chunked.contents_append ih.wf, ih.contents]; rfl, by simp [run, append, invalidate], by simp [run, append, invalidate]⟩
  | direct h cs ih => exact ⟨Chunked.wf_direct ih.wf cs, by simp only [run, direct, invalidate]; rw [Chunked.contents_direct ih.wf, ih.contents]; rfl, by simp [run, direct, invalidate], by simp [run, direct, invalidate]⟩
  | finalize h ih => exact inv_finalize ih
  | read h ih => exact inv_afterRead ih
  | merge h k ih1 ih2 => exact ⟨Chunked.wf_merge ih1.wf ih2.wf, by simp only [run, mergeFrom, invalidate]; rw [Chunked.contents_merge ih2.wf, ih1.contents, ih2.contents]; rfl, by simp [run, mergeFrom, invalidate], by simp [run, mergeFrom, invalidate]⟩
  | drained h k _ ih =>
    exact ⟨Chunked.wf_away ih.wf, by simp only [run, mergedAway]; rw [Chunked.contents_away]; rfl,
      fun _ => by simp [run, mergedAway, Chunked.mergedAway, Chunked.finalize_active],
      fun _ => ⟨by simp [run, mergedAway, Chunked.mergedAway, Chunked.finalize_active], .inl rfl⟩⟩

theorem chunkCells_fst (cs : List (List α × List Bool)) (h : ∀ c ∈ cs, c.1.length = c.2.length ∧ c.1 ≠ []) :
    (Chunked.chunkCells cs).map (·.1) = cs.flatMap (·.1) ∧ (Chunked.chunkCells cs).map (·.2) = cs.flatMap (·.2) := by
  induction cs with
  | nil => exact ⟨rfl, rfl⟩
  | cons c cs ih =>
    have h1 := (h c (by simp)).1
    have ih := ih (fun x hx => h x (List.mem_cons_of_mem _ hx))
    simp only [Chunked.chunkCells, List.flatMap_cons, List.map_append] at *
    rw [ih.1, ih.2]
    constructor
    · rw [List.map_fst_zip (by omega)]
    · rw [List.map_snd_zip (by omega)]

theorem cached_eq {b : LegacyCol α} {cells : List (α × Bool)} (h : Inv b cells) (hne : b.storage.chunks ≠ []) :
    b.ensureCache.cachedValues = cells.map (·.1) ∧ b.ensureCache.cachedNulls = cells.map (·.2) := by
  have hi := inv_ensureCache h
  have hv : b.ensureCache.cacheValid = true := by
    simp only [ensureCache]; by_cases hc : b.cacheValid = true
    · rw [if_pos hc]; exact hc
    · rw [if_neg hc]
  have hne' : b.ensureCache.storage.chunks ≠ [] := by
    simp only [ensureCache]; by_cases hc : b.cacheValid = true
    · rw [if_pos hc]; exact hne
    · rw [if_neg hc]
      cases hb : b.finalized
      · simp only [finalize, hb, Bool.not_false, if_true]
        rcases Chunked.finalize_cases b.storage with ⟨_, he⟩ | ⟨_, he⟩ <;> rw [he]
        · exact hne
        · simp
      · simpa using hne
  obtain ⟨ha, hc⟩ := hi.cache hv
  rcases hc with hc | hc
  · exact absurd hc hne'
  · have := chunkCells_fst _ hi.wf.2
    rw [hc.1, hc.2, ← this.1, ← this.2, ← Chunked.contents_active_nil ha, hi.contents]
    exact ⟨rfl, rfl⟩

end LegacyCol

/-- A legacy column builder, after any history of appends, direct writes, reads, finalizations and merges (in either
role), returns exactly the appended values and null flags in order, whatever it cached before. -/
theorem C44_builder {α : Type} (d : α) (h : ColHistory α) :
    (LegacyCol.run d h).rawValues = (h.cells d).map (·.1) ∧ (LegacyCol.run d h).nullBitmap = (h.cells d).map (·.2) ∧
      (LegacyCol.run d h).storage.size = (h.cells d).length := by
  have hi := LegacyCol.inv_run d h
  generalize LegacyCol.run d h = b at *
  refine ⟨?_, ?_, by rw [Chunked.size_eq hi.wf, hi.contents]⟩
  · simp only [LegacyCol.rawValues]
    by_cases hc : b.storage.chunks.length > 0
    · rw [if_pos hc]; exact (LegacyCol.cached_eq hi (List.ne_nil_of_length_pos hc)).1
    · rw [if_neg hc, ← hi.contents]
      have : b.storage.chunks = [] := by simpa using hc
      simp only [Chunked.contents, this, Chunked.chunkCells, List.flatMap_nil, List.nil_append]
      rw [List.map_fst_zip (by have := hi.wf.1; omega)]
  · simp only [LegacyCol.nullBitmap]
    by_cases hc : b.storage.chunks.length > 0
    · rw [if_pos hc]; exact (LegacyCol.cached_eq hi (List.ne_nil_of_length_pos hc)).2
    · rw [if_neg hc, ← hi.contents]
      have : b.storage.chunks = [] := by simpa using hc
      simp only [Chunked.contents, this, Chunked.chunkCells, List.flatMap_nil, List.nil_append]
      rw [List.map_snd_zip (by have := hi.wf.1; omega)]

/-! ### C45 -/

/-- What `statistics()` has to report: the number of nulls, and a smallest and largest of the values considered, if any. -/
structure ColReports {α : Type} (lt : α → α → Bool) (nulls : Nat) (vals : List α) (r : Nat × Option (α × α)) : Prop where
  nulls : r.1 = nulls
  none_iff : r.2 = none ↔ vals = []
  bounds : ∀ lo hi, r.2 = some (lo, hi) → IsLeast lt vals lo ∧ IsGreatest lt vals hi

theorem foldl_first {α : Type} {lt : α → α → Bool} {nan : α → Bool} (hc : CmpOk lt nan) (top : α) (vals : List α) (hne : vals ≠ [])
    (hn : ∀ v ∈ vals, nan v = false) (htop : ∀ v ∈ vals, lt v top = true ∨ v = top) : IsLeast lt vals (vals.foldl (stdMin lt) top) := by
  cases vals with
  | nil => exact absurd rfl hne
  | cons v vs =>
    have h1 : stdMin lt top v = v := by
      simp only [stdMin]
      rcases htop v (by simp) with h | h
      · rw [if_pos h]
      · rw [h, ite_self]
    rw [List.foldl_cons, h1]
    have := isLeast_foldl hc vs [v] v (by intro x hx; simp at hx; subst hx; exact hn x (by simp)) (fun y hy => hn y (by simp [hy]))
      (isLeast_single hc v)
    simpa using this

theorem count_true_cells {α : Type} (cs : List (List α × List Bool)) (h : ∀ c ∈ cs, c.1.length = c.2.length ∧ c.1 ≠ []) (n : Nat) :
    cs.foldl (fun n c => n + c.2.count true) n = n + nullCount (optCells (Chunked.chunkCells cs)) := by
  induction cs generalizing n with
  | nil => simp [Chunked.chunkCells, optCells, nullCount]
  | cons c cs ih =>
    rw [List.foldl_cons, ih (fun x hx => h x (List.mem_cons_of_mem _ hx))]
    have hl := (h c (by simp)).1
    have key : ∀ (vs : List α) (bs : List Bool), vs.length = bs.length → nullCount (optCells (vs.zip bs)) = bs.count true := by
      intro vs
      induction vs with
      | nil => intro bs hb; cases bs <;> simp_all [optCells, nullCount]
      | cons v vs ih =>
        intro bs hb
        cases bs with
        | nil => simp at hb
        | cons b bs =>
          have := ih bs (by simpa using hb)
          cases b <;> simp [optCells, nullCount] at this ⊢ <;> omega
    have hk := key c.1 c.2 hl
    simp only [Chunked.chunkCells, List.flatMap_cons, optCells, List.map_append] at *
    rw [nullCount_append, hk]; omega

theorem present_optCells {α : Type} (cells : List (α × Bool)) : present (optCells cells) = (cells.filter (fun p => !p.2)).map (·.1) := by
  induction cells with
  | nil => rfl
  | cons c cs ih =>
    obtain ⟨v, b⟩ := c
    cases b
    · simp only [optCells, List.map_cons, Bool.false_eq_true, if_false] at *
      rw [present_cons_some, ih]; simp
    · simp only [optCells, List.map_cons, if_true] at *
      rw [present_cons_none, ih]; simp

theorem all_cells {α : Type} (p : α → Prop) (d : α) (hd : p d) (h : ColHistory α) (ha : h.All p) : ∀ c ∈ h.cells d, p c.1 := by
  induction h with
  | new => intro c hc; simp [ColHistory.cells] at hc
  | append h v ih =>
    intro c hc
    cases v with
    | none =>
      rcases List.mem_append.1 hc with hc | hc
      · exact ih ha.1 c hc
      · simp at hc; subst hc; exact hd
    | some v =>
      rcases List.mem_append.1 hc with hc | hc
      · exact ih ha.1 c hc
      · simp at hc; subst hc; exact ha.2 v rfl
  | direct h cs ih =>
    intro c hc
    rcases List.mem_append.1 hc with hc | hc
    · exact ih ha.1 c hc
    · exact ha.2 c hc
  | finalize h ih => exact ih ha
  | read h ih => exact ih ha
  | merge h k ih1 ih2 =>
    intro c hc
    rcases List.mem_append.1 hc with hc | hc
    · exact ih1 ha.1 c hc
    · exact ih2 ha.2 c hc
  | drained h k _ _ => intro c hc; simp [ColHistory.cells] at hc

/-- The scan of the numeric builders. -/
theorem scanStats_ok {α : Type} (o : StatOps α) (hc : CmpOk o.lt o.nan) (top bottom d : α) (p : α → Prop) (hd : p d)
    (htop : ∀ v, p v → o.nan v = false → o.lt v top = true ∨ v = top)
    (hbot : ∀ v, p v → o.nan v = false → o.lt bottom v = true ∨ v = bottom) (h : ColHistory α) (ha : h.All p) :
    ColReports o.lt (nullCount (optCells (h.cells d))) ((present (optCells (h.cells d))).filter (fun v => !o.nan v))
      ((LegacyCol.run d h).scanStats o top bottom) := by
  have hall := all_cells p d hd h ha
  have hi := LegacyCol.inv_run d h
  generalize LegacyCol.run d h = b at *
  generalize h.cells d = cells at *
  obtain ⟨b', hb'⟩ : ∃ b', b' = (if !b.finalized then b.finalize else b) := ⟨_, rfl⟩
  have hi' : LegacyCol.Inv b' cells := by
    rw [hb']
    cases hf : b.finalized
    · exact LegacyCol.inv_finalize hi
    · exact hi
  have hact : b'.storage.active = [] := by
    apply hi'.fin
    rw [hb']
    cases hf : b.finalized
    · simp [LegacyCol.finalize, hf]
    · simpa using hf
  simp only [LegacyCol.scanStats, ← hb']
  obtain ⟨vals, hvals⟩ : ∃ vals, vals = (b'.storage.chunks.flatMap (fun c => (c.1.zip c.2).filter (fun p => !p.2 && !o.nan p.1))).map (·.1) :=
    ⟨_, rfl⟩
  have hcells : Chunked.chunkCells b'.storage.chunks = cells := by rw [← Chunked.contents_active_nil hact]; exact hi'.contents
  have hv : vals = (present (optCells cells)).filter (fun v => !o.nan v) := by
    rw [hvals, present_optCells, ← hcells]
    simp only [Chunked.chunkCells, List.filter_flatMap, List.map_flatMap, List.filter_map, List.filter_filter]
    congr 1
    funext c
    congr 1
    apply List.filter_congr
    intro x _
    simp [Bool.and_comm]
  have hfold : ∀ (f : α → α → Bool) (t : α),
      (b'.storage.chunks.flatMap (fun c => (c.1.zip c.2).filter (fun p => !p.2 && !o.nan p.1))).foldl (fun m p => stdMin f m p.1) t =
        vals.foldl (stdMin f) t := by
    intro f t; rw [hvals, List.foldl_map]
  rw [hfold, hfold]
  have hemp : (b'.storage.chunks.flatMap (fun c => (c.1.zip c.2).filter (fun p => !p.2 && !o.nan p.1))).isEmpty = vals.isEmpty := by
    rw [hvals, List.isEmpty_map]
  rw [hemp, ← hv]
  have hn : ∀ v ∈ vals, o.nan v = false := by
    intro v hv'; rw [hv] at hv'; simpa using (List.mem_filter.1 hv').2
  have hp : ∀ v ∈ vals, p v := by
    intro v hv'
    rw [hv, present_optCells] at hv'
    obtain ⟨c, hc', rfl⟩ := List.mem_map.1 (List.mem_filter.1 hv').1
    exact hall c (List.mem_filter.1 hc').1
  refine ⟨?_, ?_, ?_⟩
  · rw [count_true_cells _ hi'.wf.2, hcells]; simp
  · cases vals <;> simp
  · intro lo hi hs
    by_cases he : vals.isEmpty = true
    · rw [if_pos he] at hs; simp at hs
    · rw [if_neg he] at hs
      have hne : vals ≠ [] := by simpa using he
      simp only [Option.some.injEq, Prod.mk.injEq] at hs
      rw [← hs.1, ← hs.2]
      exact ⟨foldl_first hc top vals hne hn (fun v hv => htop v (hp v hv) (hn v hv)),
        foldl_first hc.flip bottom vals hne hn (fun v hv => hbot v (hp v hv) (hn v hv))⟩

/-- Integer, date and timestamp columns (`w` = 31 or 63): for every history of appends, direct writes, reads and
merges, the reported null count is exact and the reported minimum and maximum are the smallest and largest value. -/
theorem C45_int (w : Nat) (h : ColHistory Int) (ha : h.All (fun v => -(2 ^ w : Int) ≤ v ∧ v ≤ 2 ^ w - 1)) :
    ColReports (fun a b => decide (a < b)) (nullCount (optCells (h.cells 0))) (present (optCells (h.cells 0)))
      ((LegacyCol.run 0 h).scanStats (intOps 1) (2 ^ w - 1) (-(2 ^ w))) := by
  have hpos : (0 : Int) < 2 ^ w := by positivity
  have := scanStats_ok (intOps 1) (intOps_cmp 1) (2 ^ w - 1) (-(2 ^ w)) 0 (fun v => -(2 ^ w : Int) ≤ v ∧ v ≤ 2 ^ w - 1)
    ⟨by omega, by omega⟩ (fun v hv _ => by simp only [intOps, decide_eq_true_eq]; omega)
    (fun v hv _ => by simp only [intOps, decide_eq_true_eq]; omega) h ha
  rw [show (present (optCells (h.cells 0))).filter (fun v => !(intOps 1).nan v) = present (optCells (h.cells 0)) from
    List.filter_eq_self.2 (fun _ _ => rfl)] at this
  exact this

def infBits : UInt64 := 0x7FF0000000000000
def negInfBits : UInt64 := 0xFFF0000000000000

/-- Double columns: minimum and maximum over the values that are not NaN; NaN is not counted as null here. -/
theorem C45_double (d : UInt64) (h : ColHistory UInt64) :
    ColReports f64Lt (nullCount (optCells (h.cells d))) ((present (optCells (h.cells d))).filter (fun v => !f64NaN v))
      ((LegacyCol.run d h).scanStats (f64Ops x86Min x86Max 1) infBits negInfBits) := by
  have ht : ∀ v : UInt64, f64NaN v = false → f64Lt v infBits = true ∨ v = infBits := by
    intro v hv
    have hi : f64NaN infBits = false := by decide +kernel
    have hk : f64Key infBits = 0x7FF0000000000000 := by decide +kernel
    simp only [f64Lt, hv, hi, hk, Bool.not_false, Bool.true_and, decide_eq_true_eq]
    simp only [f64NaN, decide_eq_false_iff_not] at hv
    by_cases he : v = infBits
    · exact .inr he
    · left
      have hne : v.toNat ≠ 0x7FF0000000000000 := fun h => he (UInt64.toNat_inj.1 h)
      simp only [f64Key]
      have := v.toNat_lt
      split <;> omega
  have hb : ∀ v : UInt64, f64NaN v = false → f64Lt negInfBits v = true ∨ v = negInfBits := by
    intro v hv
    have hi : f64NaN negInfBits = false := by decide +kernel
    have hk : f64Key negInfBits = -0x7FF0000000000000 := by decide +kernel
    simp only [f64Lt, hv, hi, hk, Bool.not_false, Bool.true_and, decide_eq_true_eq]
    simp only [f64NaN, decide_eq_false_iff_not] at hv
    by_cases he : v = negInfBits
    · exact .inr he
    · left
      have hne : v.toNat ≠ 0xFFF0000000000000 := fun h => he (UInt64.toNat_inj.1 h)
      simp only [f64Key]
      have := v.toNat_lt
      split <;> omega
  have hall : h.All (fun _ => True) := by induction h <;> simp_all [ColHistory.All]
  exact scanStats_ok (f64Ops x86Min x86Max 1) (f64_cmp _ _ _) infBits negInfBits d (fun _ => True) trivial
    (fun v _ => ht v) (fun v _ => hb v) h hall

theorem chunk_nulls {α : Type} (d : α) (h : ColHistory α) :
    (if !(LegacyCol.run d h).finalized then (LegacyCol.run d h).finalize else LegacyCol.run d h).storage.chunks.foldl (fun n c => n + c.2.count true) 0 =
      nullCount (optCells (h.cells d)) := by
  have hi := LegacyCol.inv_run d h
  generalize LegacyCol.run d h = b at *
  obtain ⟨b', hb'⟩ : ∃ b', b' = (if !b.finalized then b.finalize else b) := ⟨_, rfl⟩
  have hi' : LegacyCol.Inv b' (h.cells d) := by
    rw [hb']
    cases hf : b.finalized
    · exact LegacyCol.inv_finalize hi
    · exact hi
  have hact : b'.storage.active = [] := by
    apply hi'.fin
    rw [hb']
    cases hf : b.finalized
    · simp [LegacyCol.finalize, hf]
    · simpa using hf
  rw [← hb', count_true_cells _ hi'.wf.2, ← Chunked.contents_active_nil hact, hi'.contents]; simp

theorem optCells_append {α : Type} (a b : List (α × Bool)) : optCells (a ++ b) = optCells a ++ optCells b := by simp [optCells]

theorem runStringStats_ok (d : List UInt8) (h : ColHistory (List UInt8)) (hs : h.Simple) :
    ExactStats strOps (optCells (h.cells d)) (LegacyCol.runStringStats strOps d h) := by
  induction h with
  | new => exact exact_new d
  | append h v ih =>
    have hcl : Clean strOps.nan (optCells (h.cells d)) := fun _ _ => rfl
    cases v with
    | none => simp only [ColHistory.cells, optCells_append]; exact exact_null (ih hs)
    | some v =>
      simp only [ColHistory.cells, optCells_append]
      exact exact_value strOps_cmp v hcl (ih hs)
  | direct h cs ih => exact absurd hs (by simp [ColHistory.Simple])
  | finalize h ih => exact ih hs
  | read h ih => exact ih hs
  | merge h k _ _ => exact absurd hs (by simp [ColHistory.Simple])
  | drained h k _ _ => exact absurd hs (by simp [ColHistory.Simple])

/-- String columns, as long as nothing was merged and nothing written directly.  Missing: merged columns, refuted below. -/
theorem C45_string_partial (h : ColHistory (List UInt8)) (hs : h.Simple) :
    ColReports (fun a b => decide (a < b)) (nullCount (optCells (h.cells []))) (present (optCells (h.cells [])))
      (LegacyCol.stringStatistics strOps [] h) := by
  have he := runStringStats_ok [] h hs
  refine ⟨chunk_nulls [] h, ?_, ?_⟩
  · simp only [LegacyCol.stringStatistics]
    by_cases hh : (LegacyCol.runStringStats strOps [] h).has = true
    · rw [if_pos hh]; simpa using he.brackets.1.1 hh
    · rw [if_neg hh]
      simp only [true_iff]
      by_contra hne; exact hh (he.brackets.1.2 hne)
  · intro lo hi
    simp only [LegacyCol.stringStatistics]
    by_cases hh : (LegacyCol.runStringStats strOps [] h).has = true
    · rw [if_pos hh]
      intro hs
      simp only [Option.some.injEq, Prod.mk.injEq] at hs
      rw [← hs.1, ← hs.2]; exact he.brackets.2 hh
    · rw [if_neg hh]; intro hs; simp at hs

/-- The null count of string and bool columns is exact for every history. -/
theorem C45_null_count (h : ColHistory (List UInt8)) (k : ColHistory Bool) :
    (LegacyCol.stringStatistics strOps [] h).1 = nullCount (optCells (h.cells [])) ∧
      (LegacyCol.boolStatistics k).1 = nullCount (optCells (k.cells false)) := ⟨chunk_nulls [] h, chunk_nulls false k⟩

/-- Merging string columns loses the other column's range: "b" merged with "a", "c" still reports b..b; and merging into
an empty column reports no range at all. -/
theorem C45_string_merge_refuted :
    (LegacyCol.stringStatistics strOps [] (.merge (.append .new (some [98])) (.append (.append .new (some [97])) (some [99])))).2 =
        some ([98], [98]) ∧
      (LegacyCol.stringStatistics strOps [] (.merge .new (.append .new (some [97])))).2 = none := by decide +kernel

/-- And a drained string column keeps reporting the range of the values that left it. -/
theorem C45_string_drained_refuted :
    (LegacyCol.stringStatistics strOps [] (.drained .new (.append .new (some [97])))).2 = some ([97], [97]) := by decide +kernel

/-- Likewise for bool columns. -/
theorem C45_bool_merge_refuted :
    (LegacyCol.boolStatistics (.merge (.append .new (some true)) (.append .new (some false)))).2 = some (true, true) := by decide +kernel

def demoInts : ColHistory Int := .merge (.read (.merge (.append .new (some 5)) (.append (.append .new none) (some (-7))))) (.direct .new [(9, false), (100, true)])

example : demoInts.All (fun v => -(2 ^ 31 : Int) ≤ v ∧ v ≤ 2 ^ 31 - 1) := by
  simp [demoInts, ColHistory.All]
example : (LegacyCol.run 0 demoInts).scanStats (intOps 1) (2 ^ 31 - 1) (-(2 ^ 31)) = (2, some (-7, 9)) := by decide +kernel
example : (ColHistory.append (.read (.append .new (some [98]))) none : ColHistory (List UInt8)).Simple := by simp [ColHistory.Simple]

end Vroom
