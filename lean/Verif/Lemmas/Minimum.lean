import Verif.Props.Convert
import Verif.Props.Atoi
import Mathlib.Tactic.SplitIfs
/-
The one way to undefined behaviour in typed columns (C17), in terms of the texts of the table: a literal of the smallest number of an integer column's type.
-/
namespace Vroom.Spec
open Vroom

/-- The text is a literal of the smallest number of the integer type `t` (that the parser looks at: not too long). -/
def IsMinimum (t : DataType) (v : List UInt8) : Prop :=
  (t = .int32 ∧ IntLit v (-2147483648) ∧ v.length ≤ 11) ∨ (t = .int64 ∧ IntLit v (-9223372036854775808) ∧ v.length ≤ 20)

/-- An integer column of the table holds such a text. -/
def HasMinimum (types : List DataType) (table : List (List (Option (List UInt8)))) : Prop :=
  ∃ (j : Nat) (t : DataType) (v : List UInt8), types[j]? = some t ∧ some v ∈ table.getD j [] ∧ IsMinimum t v

end Vroom.Spec

namespace Vroom
open Parquet Spec

theorem storesUB_iff (lanes : Nat) (fb : List UInt8 → Option UInt64) (t : DataType) (v : List UInt8) : StoresUB lanes fb (stored t) v ↔ IsMinimum t v := by
  unfold StoresUB IsMinimum
  have hs : ∀ o : Outcome Int, o.stored = .ub ↔ o = .ub := by intro o; cases o <;> simp [Outcome.stored]
  cases t with
  | int32 => simp [stored, storeText, hs, (C19_parse_int32 lanes v).2]
  | int64 => simp [stored, storeText, hs, (C20_parse_int64 lanes v).2]
  | float64 => simp only [stored, storeText]; split <;> simp
  | bool => simp only [stored, storeText]; split_ifs <;> simp
  | date =>
    simp only [stored, storeText]
    split_ifs
    · simp
    · cases parseDate v <;> simp
  | timestamp =>
    simp only [stored, storeText]
    split_ifs
    · simp
    · cases parseTimestamp v <;> simp
  | _ => simp [stored, storeText]

theorem not_minimum_defined (lanes : Nat) (fb : List UInt8 → Option UInt64) {types : List DataType} {table : List (List (Option (List UInt8)))} (h : ¬ HasMinimum types table)
    (j : Nat) (t : DataType) (ht : types[j]? = some t) (v : List UInt8) (hv : some v ∈ table.getD j []) : ¬ StoresUB lanes fb (stored t) v :=
  fun hub => h ⟨j, t, v, ht, hv, (storesUB_iff lanes fb t v).1 hub⟩

end Vroom
