import Verif.Spec.Fields
/-
How the streaming reader cuts a row, described without masks: it looks at windows of 64 bytes.  The window in which the end of a field was found stays in use: the fields after it are
cut at the ends the window shows, under the rule (respecting quotes or not) that was in force for the field that opened it.
-/
namespace Vroom.Spec

/-- A field starts with a quote (and quoting is enabled). -/
def OpensQuote (M : Marks) (data : List UInt8) : Prop := M.quote ≠ 0 ∧ data.head? = some M.quote

instance (M : Marks) (data : List UInt8) : Decidable (OpensQuote M data) := inferInstanceAs (Decidable (_ ∧ _))

/-- Bytes of the window left after the end `e` of a field that was looked for from its start, in `n` bytes: the window is the 64 bytes from the last multiple of 64 on, if more than 64
bytes are left there, and otherwise there is none. -/
def windowLeft (n e : Nat) : Nat := if n - 64 * (e / 64) > 64 then 63 - e % 64 else 0

/-- `FieldStep M w aware data e w' aware'`: with a window over the first `w` bytes, under the rule `aware`, the next field ends at `e`, and afterwards the window has `w'` bytes under the rule `aware'`. -/
inductive FieldStep (M : Marks) : Nat → Bool → List UInt8 → Nat → Nat → Bool → Prop
  | shown {w aware data e} : IsFieldEnd aware M data e → e < w → FieldStep M w aware data e (w - (e + 1)) aware
  | search {w aware data e} : (∀ e, IsFieldEnd aware M data e → w ≤ e) → IsFieldEnd (decide (OpensQuote M data)) M data e →
      FieldStep M w aware data e (windowLeft data.length e) (decide (OpensQuote M data))

/-- The fields of a row and the bytes after it. -/
inductive WindowRow (M : Marks) : Nat → Bool → List UInt8 → List (List UInt8) → List UInt8 → Prop
  | last {w aware data e w' aware'} : FieldStep M w aware data e w' aware' → e = data.length ∨ data[e]? = some M.eol →
      WindowRow M w aware data [data.take e] (data.drop (e + 1))
  | more {w aware data e w' aware' fs tail} : FieldStep M w aware data e w' aware' → e < data.length → data[e]? ≠ some M.eol →
      WindowRow M w' aware' (data.drop (e + 1)) fs tail → WindowRow M w aware data (data.take e :: fs) tail

/-- For a row of well-formed fields followed by `t`: no separator or line end inside a quoted field lies in a window that was opened by an unquoted field. -/
def WindowClear (M : Marks) (w : Nat) (aware : Bool) : List (List UInt8) → List UInt8 → Prop
  | [], _ => True
  | f :: fs, t =>
    (aware = false → ∀ k c, k < w → f[k]? = some c → c ≠ M.sep ∧ c ≠ M.eol) ∧
    if f.length < w then WindowClear M (w - (f.length + 1)) aware fs t
    else WindowClear M (windowLeft (joinFields M.sep (f :: fs) ++ t).length f.length) (decide (OpensQuote M f)) fs t

/-- Every row of a file that is not blank is clear where it stands. -/
def FileClear (M : Marks) : List WRow → Prop
  | [] => True
  | r :: rows => (r.blank = false → WindowClear M 0 false (r.fields.map (·.render M.quote))
      ((if r.crlf then [13] else []) ++ (if rows = [] then [] else M.eol :: renderFile M rows))) ∧ FileClear M rows

end Vroom.Spec
