import Verif.Model.Open
import Verif.Model.Reader
/-
Model of `LineParser::parse_line` (/repo/src/parser/line_parser.cpp:96-183) and of the null spellings of the line
parser (line_parser.cpp:5-31, 185-207).  The reader does not use it (it has its own field loop, csv_reader.cpp:200-245);
it is part of the public header (/repo/include/libvroom/vroom.h:343-380).
-/
namespace Vroom

/-- `init_null_values` (line_parser.cpp:9-31): `rest` is `null_values` from `start`.  The loop runs while
`start <= size`, so the piece behind the last comma, possibly empty, counts. -/
def initNullValues (nc : NullChecker) (rest : Bytes) : NullChecker :=
  let e := findComma rest
  let v := rest.take e
  let nc := if v = [] then { nc with emptyIsNull := true }
            else { nc with vals := nc.vals ++ [v], maxLen := max nc.maxLen v.length }
  if h : e < rest.length then initNullValues nc (rest.drop (e + 1)) else nc
termination_by rest.length
decreasing_by simp; omega

/-- `LineParser(options)` (line_parser.cpp:5-7): nothing is null before the loop (vroom.h:375-378). -/
def lineNulls (nullValues : Bytes) : NullChecker := initNullValues { emptyIsNull := false } nullValues

/-- The append calls for one finished field (line_parser.cpp:113-124, 138-147, 160-169); `is_null_value`
(line_parser.cpp:185-207) is the same computation as `NullChecker::is_null`. -/
def lineCell (nc : NullChecker) (cur : Bytes) : Cell :=
  let t := trimRight cur
  if nc.isNull t then .null else .text t

/-- Character loop of `parse_line` (line_parser.cpp:107-156).  State: `in_quote`, `current_field`, the columns,
`field_index`; the rest of the line.  Result: columns, `field_index` and `current_field` behind the loop. -/
def lineGo (nc : NullChecker) (sep q : UInt8) (n : Nat) (inq : Bool) (cur : Bytes) (cols : Cols) (idx : Nat) : Bytes → Cols × Nat × Bytes
  | [] => (cols, idx, cur)
  | c :: rest =>
    if ¬ idx < n then (cols, idx, cur)
    else if inq = false ∧ (c = LF ∨ c = CR) then (Cols.push cols idx (lineCell nc cur), idx + 1, [])
    else if c = q then
      match rest with
      | d :: rest' =>
        if inq ∧ d = q then lineGo nc sep q n inq (cur ++ [q]) cols idx rest'
        else lineGo nc sep q n (!inq) cur cols idx (d :: rest')
      | [] => lineGo nc sep q n (!inq) cur cols idx []
    else if c = sep ∧ inq = false then lineGo nc sep q n inq [] (Cols.push cols idx (lineCell nc cur)) (idx + 1) rest
    else if cur = [] ∧ inq = false ∧ (c = 32 ∨ c = 9) then lineGo nc sep q n inq cur cols idx rest
    else lineGo nc sep q n inq (cur ++ [c]) cols idx rest
termination_by l => l.length
decreasing_by all_goals (simp; try omega)

/-- What follows the loop (line_parser.cpp:158-182): a last field without line end, then nulls for the rest.
Result: the columns and the returned number. -/
def lineFinish (nc : NullChecker) (n : Nat) (st : Cols × Nat × Bytes) : Cols × Nat :=
  let (cols, idx, cur) := st
  let (cols, idx) := if idx < n ∧ cur ≠ [] then (Cols.push cols idx (lineCell nc cur), idx + 1) else (cols, idx)
  (fillNulls n cols idx, max idx n)

/-- `LineParser::parse_line` (line_parser.cpp:96-183). -/
def parseLine (nc : NullChecker) (sep q : UInt8) (data : Bytes) (cols : Cols) : Cols × Nat :=
  if data.length = 0 ∨ cols.length = 0 then (cols, 0)
  else lineFinish nc cols.length (lineGo nc sep q cols.length false [] cols 0 data)

end Vroom
