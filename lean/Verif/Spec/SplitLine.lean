import Verif.Spec.Fields
/-
What splitting a line means (C11): no reference to the splitter.
-/
namespace Vroom.Spec

/-- Byte `k` of `s` stands after an odd number of quotes, i.e. inside quotes. -/
def Quoted (q : UInt8) (s : List UInt8) (k : Nat) : Prop := (s.take k).count q % 2 = 1

/-- `raws` are the fields of `line`: joined by the separator they give the line, no field contains a
separator outside quotes, and quotes are closed at every cut. -/
structure IsSplit (sep q : UInt8) (line : List UInt8) (raws : List (List UInt8)) : Prop where
  ne : raws ≠ []
  join : joinFields sep raws = line
  cut : ∀ r ∈ raws, ∀ k, r[k]? = some sep → Quoted q r k
  closed : ∀ r ∈ raws.dropLast, r.count q % 2 = 0

/-- A line end byte. -/
def Eol (c : UInt8) : Prop := c = 10 ∨ c = 13

/-- A complete line: every line end byte in it is quoted, and quotes are closed. -/
structure IsLine (q : UInt8) (line : List UInt8) : Prop where
  eol : ∀ k c, line[k]? = some c → Eol c → Quoted q line k
  closed : line.count q % 2 = 0

/-- Nothing but line end bytes follows the first unquoted line end. -/
def SingleLine (q : UInt8) (data : List UInt8) : Prop :=
  ∀ k c, data[k]? = some c → Eol c → ¬ Quoted q data k → ∀ c' ∈ data.drop k, Eol c'

/-- The separator and quote bytes are different from each other and from CR and LF. -/
structure SplitSane (sep q : UInt8) : Prop where
  sep_quote : sep ≠ q
  sep_eol : ¬ Eol sep
  quote_eol : ¬ Eol q

end Vroom.Spec
