import Verif.Spec.StampText
import Verif.Model.Types
/-
When a column keeps a sampled text, by the type the text suggests (`own`) and the type of the column (`col`).
-/
namespace Vroom.Spec
open Vroom

/-- The texts that are integers of the column: at most `len` characters, from `-lim` to `lim - 1`. -/
def IntText (len lim : Nat) (v : List UInt8) : Prop := ∃ x, IntLit v x ∧ v.length ≤ len ∧ -(lim : Int) ≤ x ∧ x < lim

/-- A date of the calendar, written with `-` or `/`. -/
def CalendarText (v : List UInt8) : Prop := ∃ (t : Date) (sep : UInt8), (sep = 45 ∨ sep = 47) ∧ t.Valid ∧ t.year ≤ 9999 ∧ v = t.text sep

/-- `own` is the type suggested by the text `v` alone, `col` the type of its column; `isFloat` are the texts the number parser takes. -/
def Kept (isFloat : List UInt8 → Bool) (bools : List (List UInt8)) (v : List UInt8) : (own col : DataType) → Prop
  | _, .string => True
  | _, .float64 => isFloat v = true
  | .int32, _ => True
  | .int64, _ => v.length ≤ 20 ∧ ∀ x, IntLit v x → -9223372036854775808 ≤ x ∧ x < 9223372036854775808
  | .bool, .bool => v ∈ bools
  | .bool, .int32 => IntText 11 2147483648 v
  | .bool, .int64 => IntText 20 9223372036854775808 v
  | .date, .date => CalendarText v
  | .date, .timestamp => False
  | .timestamp, _ => ∃ t sep micros off, StampText v t sep micros off
  | _, _ => True

end Vroom.Spec
