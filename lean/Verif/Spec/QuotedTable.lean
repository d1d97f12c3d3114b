import Verif.Spec.Detect
/-
C77 for tables with quoted fields: what such a table is, and how it looks to someone who does not know that `"` quotes.
-/
namespace Vroom.Spec

/-- A row of bare and `"`-quoted fields as written, without its line end. -/
def quotedLine (d : UInt8) (r : WRow) : List UInt8 := joinFields d (r.fields.map (·.render 34))

/-- A table of such rows as written, each row followed by LF or CRLF. -/
def quotedText (d : UInt8) (T : List WRow) : List UInt8 := T.flatMap (fun r => quotedLine d r ++ (if r.crlf then [13, 10] else [10]))

/-- The text of a field without its enclosing quotes (inner quotes still doubled). -/
def withoutQuotes : WField → List UInt8
  | .plain s => s
  | .quoted b => escape 34 b

/-- Every row has `n` fields; bare fields hold no line end and no candidate delimiter, quote or escape character; quoted fields may hold
anything but candidate quotes other than `"` and escape characters. -/
structure QuotedTable (o : DetectOptions) (n : Nat) (T : List WRow) : Prop where
  width : ∀ r ∈ T, r.fields.length = n
  bare : ∀ r ∈ T, ∀ s, WField.plain s ∈ r.fields → ∀ c ∈ s, c ≠ 10 ∧ c ≠ 13 ∧ c ∉ o.delimiters ∧ c ∉ o.quoteChars ∧ c ∉ o.escapeChars
  inner : ∀ r ∈ T, ∀ b, WField.quoted b ∈ r.fields → ∀ c ∈ b, (c = 34 ∨ c ∉ o.quoteChars) ∧ c ∉ o.escapeChars

/-- The lines of a text when nothing quotes: cut at every line end, without empty lines and comments, at most `maxRows`. -/
def bareLines (o : DetectOptions) (t : List UInt8) : List (List UInt8) :=
  (sampleRows ⟨none, none⟩ o.commentChars o.maxRows t).map (fun r => (t.drop r.1).take (r.2 - r.1))

/-- The number of fields of each of these lines when cut at every `d`. -/
def bareCounts (o : DetectOptions) (d : UInt8) (t : List UInt8) : List Nat := (bareLines o t).map (fun l => l.count d + 1)

/-- Cutting at every `d'`, quoted or not, does not look like a better table: either no number of fields is shared by more than half of the lines;
or `d'` does not occur, and at most six in ten of the lines look like a typed value; or `d'` is the delimiter itself, and no quoted field
holds it or a line end. -/
inductive NoBetter (o : DetectOptions) (d d' : UInt8) (T : List WRow) : Prop
  | irregular (h : ∀ k, 2 * (bareCounts o d' (quotedText d T)).count k ≤ (bareLines o (quotedText d T)).length)
  | absent (h : d' ∉ quotedText d T)
      (ht : 10 * (dataRows (bareLines o (quotedText d T))).countP looksTyped ≤ 6 * (dataRows (bareLines o (quotedText d T))).length)
  | own (h : d' = d) (hb : ∀ r ∈ T, ∀ b, WField.quoted b ∈ r.fields → d ∉ b ∧ (10 : UInt8) ∉ b ∧ (13 : UInt8) ∉ b)

/-- The square root grows. -/
def SqrtMono (sq : Rat → Rat) : Prop := ∀ x y, 0 ≤ x → x ≤ y → y ≤ 1 → sq x ≤ sq y

end Vroom.Spec
