import Verif.Model.Types
/-
Specification of type widening: which values a column type can represent, as a partial order given
by its generating edges, independently of numeric codes.
-/
namespace Vroom.Spec
open Vroom

/-- Direct "every value of the first type is representable in the second" edges. -/
inductive Edge : DataType → DataType → Prop
  | naBool : Edge .na .bool
  | naDate : Edge .na .date
  | boolInt : Edge .bool .int32
  | intLong : Edge .int32 .int64
  | longDouble : Edge .int64 .float64
  | dateTs : Edge .date .timestamp
  | doubleStr : Edge .float64 .string
  | tsStr : Edge .timestamp .string

/-- Reflexive-transitive closure. -/
inductive Below : DataType → DataType → Prop
  | refl (a) : Below a a
  | step {a b c} : Below a b → Edge b c → Below a c

/-- `j` is the least upper bound of the types in `ts`. -/
def IsJoin (ts : List DataType) (j : DataType) : Prop :=
  (∀ t ∈ ts, Below t j) ∧ ∀ u, (∀ t ∈ ts, Below t u) → Below j u

end Vroom.Spec
