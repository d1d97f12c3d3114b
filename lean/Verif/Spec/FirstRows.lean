import Verif.Spec.Fields
/-
Which rows of a text begin near its start (C70).
-/
namespace Vroom.Spec

/-- The rows that begin at one of the bytes `0` to `k` of the text of `rows`. -/
def rowsBeginning (M : Marks) : Nat → List WRow → List WRow
  | _, [] => []
  | k, r :: rest => r :: (if (r.render M).length + 1 ≤ k then rowsBeginning M (k - ((r.render M).length + 1)) rest else [])

end Vroom.Spec
