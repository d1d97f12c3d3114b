import Verif.Spec.Open
/-
What the sampling for type inference sees of a written row.
-/
namespace Vroom.Spec

/-- Bare text without the blanks around it, quoted text without the blanks at its end; a quoted text that holds a line end is cut there, and the fields after it are not seen. -/
def sampledCells : List WField → List (List UInt8)
  | [] => []
  | .plain s :: fs => trimEnd (trimStart s) :: sampledCells fs
  | .quoted b :: fs =>
    if 10 ∈ b ∨ 13 ∈ b then [trimEnd (b.takeWhile (fun c => c ≠ 10 && c ≠ 13))] else trimEnd b :: sampledCells fs

end Vroom.Spec
