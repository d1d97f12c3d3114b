/-
Specification of decimal integer literals.
-/
namespace Vroom.Spec

/-- ASCII decimal digit. -/
def IsDigit (b : UInt8) : Prop := 48 ≤ b.toNat ∧ b.toNat ≤ 57

instance (b : UInt8) : Decidable (IsDigit b) := inferInstanceAs (Decidable (_ ∧ _))

/-- Value of a digit string, most significant digit first. -/
def decValue (ds : List UInt8) : Nat := ds.foldl (fun a d => a * 10 + (d.toNat - 48)) 0

/-- `s` is an optional sign followed by at least one digit, and denotes `v`. -/
inductive IntLit : List UInt8 → Int → Prop
  | bare (ds) : ds ≠ [] → (∀ d ∈ ds, IsDigit d) → IntLit ds (decValue ds)
  | plus (ds) : ds ≠ [] → (∀ d ∈ ds, IsDigit d) → IntLit (43 :: ds) (decValue ds)
  | minus (ds) : ds ≠ [] → (∀ d ∈ ds, IsDigit d) → IntLit (45 :: ds) (-(decValue ds : Int))

end Vroom.Spec
