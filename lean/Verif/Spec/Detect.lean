import Verif.Spec.Dialect
import Verif.Model.Detect
/-
What dialect detection relies on, and what it should find.
-/
namespace Vroom.Spec

/-- The pick of a most frequent field count: any of them. -/
structure ModalOk (modal : List Nat → Nat) : Prop where
  member : ∀ counts, counts ≠ [] → modal counts ∈ counts
  most : ∀ (counts : List Nat) (c : Nat), counts.count c ≤ counts.count (modal counts)

/-- The square root on [0, 1]: only its range matters. -/
def SqrtOk (sq : Rat → Rat) : Prop := ∀ x, 0 ≤ x → x ≤ 1 → 0 ≤ sq x ∧ sq x ≤ 1

/-- The sort of the candidates: it rearranges them, and a candidate ranked before every other one comes first. -/
structure SortOk (sort : List DialectCandidate → List DialectCandidate) : Prop where
  perm : ∀ l, (sort l).Perm l
  first : ∀ l x, x ∈ l → (∀ y ∈ l, y = x ∨ x.before y = true) → (sort l).head? = some x

/-- Candidate characters that can be told apart. -/
structure OptionsOk (o : DetectOptions) : Prop where
  comments : (0 : UInt8) ∉ o.commentChars
  delim_line : ∀ d ∈ o.delimiters, d ≠ 0 ∧ d ≠ 10 ∧ d ≠ 13 ∧ d ∉ o.quoteChars ∧ d ∉ o.escapeChars
  quote_line : ∀ q ∈ o.quoteChars, q ≠ 10 ∧ q ≠ 13
  esc_line : ∀ e ∈ o.escapeChars, e ≠ 10 ∧ e ≠ 13
  rows : 1 ≤ o.maxRows

/-- A table of plain fields: rows of fields, each row with its line end (CRLF or LF). -/
abbrev PlainTable := List (List (List UInt8) × Bool)

/-- A row as written. -/
def rowText (d : UInt8) (r : List (List UInt8)) : List UInt8 := joinFields d r

/-- A table as written. -/
def PlainTable.text (d : UInt8) (T : PlainTable) : List UInt8 := T.flatMap (fun r => rowText d r.1 ++ (if r.2 then [13, 10] else [10]))

/-- Every row has `n` fields, and no field holds a line end or a candidate delimiter, quote or escape character. -/
def PlainTable.Plain (o : DetectOptions) (n : Nat) (T : PlainTable) : Prop :=
  ∀ r ∈ T, r.1.length = n ∧ ∀ f ∈ r.1, ∀ c ∈ f, c ≠ 10 ∧ c ≠ 13 ∧ c ∉ o.delimiters ∧ c ∉ o.quoteChars ∧ c ∉ o.escapeChars

/-- The rows without the first one, if there are more. -/
def dataRows {α : Type} (rows : List α) : List α := if rows.length > 1 then rows.drop 1 else rows

/-- A text that looks like a value of some type other than string (see C76). -/
def looksTyped (s : List UInt8) : Bool := couldBeInteger s || couldBeFloat s || inferCellType s != .STRING

/-- The share of typed cells. -/
def typedShare (rows : List (List (List UInt8))) : Rat := (rows.flatten.countP looksTyped : Rat) / rows.flatten.length

/-- The confidence a regular table earns: the square root of the share of typed cells in its data rows, taken as a tenth at least; 0.6 at least. -/
def tableConfidence (sq : Rat → Rat) (rows : List (List (List UInt8))) : Rat := max (3 / 5) (sq (max (1 / 10) (typedShare (dataRows rows))))

/-- Two `"` in a row somewhere. -/
def doubledQuotes : List UInt8 → Bool
  | a :: b :: t => (a == 34 && b == 34) || doubledQuotes (b :: t)
  | _ => false

end Vroom.Spec
