import Verif.Model.Types
import Verif.Model.Atoi
import Verif.Model.Dates
/-
Model of what one `append(text)` call stores in a typed column.
Source: /repo/include/libvroom/fast_arrow_context.h, builder choice in
/repo/include/libvroom/arrow_column_builder.h:584-602
-/
namespace Vroom

/-- Result of one append: a null, a value, or undefined behaviour. A float is kept as its text (fast_arrow_context.h:42-250: what one `append_*` call leaves in the column). -/
inductive Stored where
  | null
  | int (v : Int)
  | bool (b : Bool)
  | float (text : Bytes)
  | text (v : Bytes)
  | ub
deriving DecidableEq, Repr

/-- The literals of `append_bool` (fast_arrow_context.h:187-202): true, TRUE, True, 1, yes, YES. -/
def trueTokens : List Bytes :=
  [[116, 114, 117, 101], [84, 82, 85, 69], [84, 114, 117, 101], [49], [121, 101, 115], [89, 69, 83]]
/-- false, FALSE, False, 0, no, NO (fast_arrow_context.h:187-202). -/
def falseTokens : List Bytes :=
  [[102, 97, 108, 115, 101], [70, 65, 76, 83, 69], [70, 97, 108, 115, 101], [48], [110, 111], [78, 79]]

/-- Outcome of an integer parser as a stored value (fast_arrow_context.h:97-106, 154-163). -/
def Outcome.stored : Outcome Int → Stored
  | .ok v => .int v
  | .reject => .null
  | .ub => .ub

/-- `FastArrowContext::append_*` for the builder chosen by `ArrowColumnBuilder::create`
(fast_arrow_context.h:42-250; arrow_column_builder.h:584-602).
`isFloat v` stands for "fast_float::from_chars consumes all of v" (external library). -/
def storeText (lanes : Nat) (isFloat : Bytes → Bool) : DataType → Bytes → Stored
  | .int32, v => (parseInt32Simd lanes v).stored
  | .int64, v => (parseInt64Simd lanes v).stored
  | .float64, v => if isFloat v then .float v else .null
  | .bool, v => if v ∈ trueTokens then .bool true else if v ∈ falseTokens then .bool false else .null
  | .date, v => if v = [] then .null else match parseDate v with | some d => .int d | none => .null
  | .timestamp, v => if v = [] then .null else match parseTimestamp v with | some d => .int d | none => .null
  | _, v => .text v

end Vroom
