import Verif.Spec.Open
/-
A CSV file as a writer in its "quote everything" mode writes it: every value between quotes, inner quotes doubled, every line ended by LF.
-/
namespace Vroom.Spec

/-- One line. -/
def quoteAllLine (M : Marks) (values : List (List UInt8)) : List UInt8 :=
  joinFields M.sep (values.map (fun v => [M.quote] ++ escape M.quote v ++ [M.quote])) ++ [10]

/-- All lines. -/
def quoteAll (M : Marks) (lines : List (List (List UInt8))) : List UInt8 := lines.flatMap (quoteAllLine M)

/-- Column `j` of a list of rows: a row that has no value there gives a null. -/
def columnsOf (n : Nat) (rows : List (List (List UInt8))) : List (List (Option (List UInt8))) :=
  (List.range n).map (fun j => rows.map (fun r => r[j]?))

end Vroom.Spec
