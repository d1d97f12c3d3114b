/-
Specification of CSV row structure at the byte level, with no reference to the model.
-/
namespace Vroom.Spec

/-- Is position `i` inside quotes, when the buffer starts inside (`start = true`) or outside
quotes?  Inside-ness flips at every quote byte. -/
def insideAt (q : UInt8) (start : Bool) (data : List UInt8) (i : Nat) : Bool :=
  ((data.take i).count q % 2 == 1) != start

/-- Position `i` holds the byte that ends a row: an unquoted LF, or an unquoted CR that is not
immediately followed by LF (in a CRLF pair the LF is the ending byte). -/
def isRowEnd (q : UInt8) (start : Bool) (data : List UInt8) (i : Nat) : Bool :=
  !insideAt q start data i &&
    (data[i]? == some 10 || (data[i]? == some 13 && data[i + 1]? != some 10))

/-- All row-ending positions, ascending. -/
def rowEnds (q : UInt8) (start : Bool) (data : List UInt8) : List Nat :=
  (List.range data.length).filter (isRowEnd q start data)

/-- Number of rows terminated in the buffer. -/
def rowCount (q : UInt8) (start : Bool) (data : List UInt8) : Nat := (rowEnds q start data).length

/-- Offset just past the last row end (0 if none). -/
def lastRowEnd (q : UInt8) (start : Bool) (data : List UInt8) : Nat :=
  match (rowEnds q start data).getLast? with
  | none => 0
  | some i => i + 1

end Vroom.Spec
