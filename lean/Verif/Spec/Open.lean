import Verif.Spec.Fields
/-
What opening a CSV file means (C15, C57-C60): no reference to the model.
-/
namespace Vroom.Spec

/-- A blank: space or tab. -/
def blank (c : UInt8) : Bool := c == 32 || c == 9

/-- A text without its leading blanks. -/
def trimStart (s : List UInt8) : List UInt8 := s.dropWhile blank

/-- A text without its trailing blanks. -/
def trimEnd (s : List UInt8) : List UInt8 := (s.reverse.dropWhile blank).reverse

/-- The column name a header field stands for: bare text loses the blanks around it, quoted text only those
at its end. -/
def WField.columnName : WField → List UInt8
  | .plain s => trimEnd (trimStart s)
  | .quoted b => trimEnd b

/-- The text of a header field before trailing blanks are removed. -/
def WField.columnText : WField → List UInt8
  | .plain s => trimStart s
  | .quoted b => b

/-- Positions (from 1) of the names that repeat an earlier non-empty name. -/
def repeated (names : List (List UInt8)) : List Nat :=
  ((List.range names.length).filter (fun i =>
    decide (names.getD i [] ≠ [] ∧ names.getD i [] ∈ names.take i))).map (· + 1)

end Vroom.Spec
