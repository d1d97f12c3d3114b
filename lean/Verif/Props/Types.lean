import Verif.Spec.Types
/- C16: type widening. -/
namespace Vroom
open Spec

/-- Decidable form of `Below` (no theorem mentions it in its statement). -/
def belowB : DataType → DataType → Bool
  | .na, .unknown => false
  | .na, _ => true
  | .unknown, .unknown => true
  | .unknown, _ => false
  | _, .string => true
  | .bool, b => b = .bool ∨ b = .int32 ∨ b = .int64 ∨ b = .float64
  | .int32, b => b = .int32 ∨ b = .int64 ∨ b = .float64
  | .int64, b => b = .int64 ∨ b = .float64
  | .float64, b => b = .float64
  | .date, b => b = .date ∨ b = .timestamp
  | .timestamp, b => b = .timestamp
  | .string, _ => false

theorem below_of_belowB (a b : DataType) (h : belowB a b = true) : Below a b := by
  have s1 := @Edge.naBool; have s2 := @Edge.naDate; have s3 := @Edge.boolInt; have s4 := @Edge.intLong
  have s5 := @Edge.longDouble; have s6 := @Edge.dateTs; have s7 := @Edge.doubleStr; have s8 := @Edge.tsStr
  cases a <;> cases b <;> first
    | (exact absurd h (by decide))
    | exact .refl _
    | exact .step (.refl _) (by assumption)
    | exact .step (.step (.refl _) s1) s3
    | exact .step (.step (.step (.refl _) s1) s3) s4
    | exact .step (.step (.step (.step (.refl _) s1) s3) s4) s5
    | exact .step (.step (.step (.step (.step (.refl _) s1) s3) s4) s5) s7
    | exact .step (.step (.refl _) s2) s6
    | exact .step (.step (.refl _) s3) s4
    | exact .step (.step (.step (.refl _) s3) s4) s5
    | exact .step (.step (.step (.step (.refl _) s3) s4) s5) s7
    | exact .step (.step (.refl _) s4) s5
    | exact .step (.step (.step (.refl _) s4) s5) s7
    | exact .step (.step (.refl _) s5) s7
    | exact .step (.step (.refl _) s6) s8

theorem belowB_of_below (a b : DataType) (h : Below a b) : belowB a b = true := by
  induction h with
  | refl => cases a <;> rfl
  | step _ e ih => cases e <;> (revert ih; cases a <;> decide)

theorem below_iff (a b : DataType) : Below a b ↔ belowB a b = true := ⟨belowB_of_below a b, below_of_belowB a b⟩

def DataType.all : List DataType :=
  [.unknown, .bool, .int32, .int64, .float64, .string, .date, .timestamp, .na]

/-- C16: widening two inferred types gives their least upper bound. -/
theorem C16_wider_is_join (a b : DataType) (ha : a ≠ .unknown) (hb : b ≠ .unknown) :
    IsJoin [a, b] (widerType a b) := by
  constructor
  · intro t ht
    rw [below_iff]
    simp only [List.mem_cons, List.not_mem_nil, or_false] at ht
    have h1 : belowB a (widerType a b) = true ∧ belowB b (widerType a b) = true := by
      revert ha hb; cases a <;> cases b <;> decide
    rcases ht with rfl | rfl
    · exact h1.1
    · exact h1.2
  · intro u hu
    have h1 := (below_iff _ _).1 (hu a (by simp))
    have h2 := (below_iff _ _).1 (hu b (by simp))
    rw [below_iff]
    revert h1 h2 ha hb
    cases a <;> cases b <;> cases u <;> decide

theorem C16_comm (a b : DataType) (ha : a ≠ .unknown) (hb : b ≠ .unknown) : widerType a b = widerType b a := by
  revert ha hb; cases a <;> cases b <;> decide

theorem C16_assoc (a b c : DataType) : widerType (widerType a b) c = widerType a (widerType b c) := by
  cases a <;> cases b <;> cases c <;> rfl

theorem C16_idem (a : DataType) : widerType a a = a := by cases a <;> rfl

theorem C16_string_absorbs (a : DataType) : widerType a .string = .string ∧ widerType .string a = .string := by
  cases a <;> exact ⟨rfl, rfl⟩

theorem wider_ne_unknown (a b : DataType) (ha : a ≠ .unknown) (hb : b ≠ .unknown) : widerType a b ≠ .unknown := by
  revert ha hb; cases a <;> cases b <;> decide

/-- Folding from the initial `UNKNOWN` (type_inference.cpp:137, 220). -/
theorem C16_fold_is_join (ts : List DataType) (hne : ts ≠ []) (h : ∀ t ∈ ts, t ≠ .unknown) :
    IsJoin ts (ts.foldl widerType .unknown) := by
  have trans : ∀ a b c, Below a b → Below b c → Below a c := by
    intro a b c h1 h2
    induction h2 with
    | refl => exact h1
    | step _ e ih => exact .step ih e
  have key : ∀ (ts : List DataType) (acc : DataType), acc ≠ .unknown → (∀ t ∈ ts, t ≠ .unknown) →
      IsJoin (acc :: ts) (ts.foldl widerType acc) := by
    intro ts
    induction ts with
    | nil => intro acc _ _; exact ⟨fun t ht => by simp at ht; subst ht; exact .refl _, fun u hu => hu acc (by simp)⟩
    | cons t ts ih =>
      intro acc hacc hts
      have ht := hts t (by simp)
      have hj := C16_wider_is_join acc t hacc ht
      have := ih (widerType acc t) (wider_ne_unknown acc t hacc ht) (fun x hx => hts x (by simp [hx]))
      rw [List.foldl_cons]
      constructor
      · intro x hx
        rcases List.mem_cons.1 hx with rfl | hx
        · exact trans _ _ _ (hj.1 x (by simp)) (this.1 _ (by simp))
        · rcases List.mem_cons.1 hx with rfl | hx
          · exact trans _ _ _ (hj.1 x (by simp)) (this.1 _ (by simp))
          · exact this.1 x (by simp [hx])
      · intro u hu
        apply this.2
        intro x hx
        rcases List.mem_cons.1 hx with rfl | hx
        · apply hj.2
          intro y hy
          simp only [List.mem_cons, List.not_mem_nil, or_false] at hy
          rcases hy with rfl | rfl <;> exact hu _ (by simp)
        · exact hu x (by simp [hx])
  cases ts with
  | nil => exact absurd rfl hne
  | cons t ts =>
    have ht := h t (by simp)
    have e : widerType .unknown t = t := by cases t <;> rfl
    rw [List.foldl_cons, e]
    exact key ts t ht (fun x hx => h x (by simp [hx]))

/-- C16: the type given to a column does not depend on the order of its values. -/
theorem C16_order_independent (ts us : List DataType) (hp : ts.Perm us) (h : ∀ t ∈ ts, t ≠ .unknown) :
    ts.foldl widerType .unknown = us.foldl widerType .unknown := by
  by_cases hne : ts = []
  · subst hne
    have := hp.nil_eq
    subst this; rfl
  · have hu : us ≠ [] := by
      rintro rfl
      exact hne hp.eq_nil
    have j1 := C16_fold_is_join ts hne h
    have j2 := C16_fold_is_join us hu (fun t ht => h t (hp.mem_iff.2 ht))
    have a := (below_iff _ _).1 (j1.2 _ (fun t ht => j2.1 t (hp.mem_iff.1 ht)))
    have b := (below_iff _ _).1 (j2.2 _ (fun t ht => j1.1 t (hp.mem_iff.2 ht)))
    generalize ts.foldl widerType .unknown = x at *
    generalize us.foldl widerType .unknown = y at *
    revert a b; cases x <;> cases y <;> decide

/-- C16: the promotion test accepts every widening it performs. -/
theorem C16_can_promote (a b : DataType) (ha : a ≠ .unknown) (hb : b ≠ .unknown) :
    canPromote a (widerType a b) = true ∧ canPromote b (widerType a b) = true := by
  revert ha hb; cases a <;> cases b <;> decide

/-- The hypothesis `≠ UNKNOWN` is needed: with it the two argument orders differ. -/
theorem C16_unknown_not_comm : widerType .na .unknown ≠ widerType .unknown .na := by decide

example : [DataType.int32, .na, .float64].foldl widerType .unknown = .float64 := by decide
example : [DataType.date, .int32].foldl widerType .unknown = .string := by decide

end Vroom
