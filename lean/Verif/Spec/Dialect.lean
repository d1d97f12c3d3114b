import Verif.Spec.Fields
/-
What dialect detection should see in a text, independent of the code.
-/
namespace Vroom.Spec

/-! ### Lines and comments -/

/-- The lines of a text, each with its terminator (LF, CR or CRLF). -/
def textLines : List UInt8 → List (List UInt8)
  | [] => []
  | 13 :: 10 :: rest => [13, 10] :: textLines rest
  | c :: rest =>
    if c = 13 ∨ c = 10 then [c] :: textLines rest
    else match textLines rest with
      | [] => [[c]]
      | l :: ls => (c :: l) :: ls

/-- The first byte of a line that is neither space nor tab. -/
def firstInk (line : List UInt8) : Option UInt8 := (line.dropWhile (fun c => c == 32 || c == 9)).head?

/-- A comment line: its first non-blank byte is a comment character. -/
def commentLine (chars line : List UInt8) : Bool :=
  match firstInk line with
  | none => false
  | some c => chars.contains c

/-! ### Line endings -/

/-- A CR LF pair occurs. -/
def HasCRLF (t : List UInt8) : Prop := ∃ i : Nat, t[i]? = some 13 ∧ t[i + 1]? = some 10
/-- An LF not preceded by CR occurs. -/
def HasLF (t : List UInt8) : Prop := ∃ i : Nat, t[i]? = some 10 ∧ (i = 0 ∨ t[i - 1]? ≠ some 13)
/-- A CR not followed by LF occurs. -/
def HasCR (t : List UInt8) : Prop := ∃ i : Nat, t[i]? = some 13 ∧ t[i + 1]? ≠ some 10

/-! ### Quoting -/

/-- The active quote and escape bytes. -/
structure Quoting where
  quote : Option UInt8
  esc : Option UInt8

/-- Number of quotes that are not escaped. -/
def liveQuotes (Q : Quoting) : List UInt8 → Nat
  | [] => 0
  | [c] => if Q.quote = some c then 1 else 0
  | c :: c' :: rest => if Q.esc = some c then liveQuotes Q rest else (if Q.quote = some c then 1 else 0) + liveQuotes Q (c' :: rest)

/-- The text does not end in an escape byte waiting for its partner. -/
def settled (Q : Quoting) : List UInt8 → Bool
  | [] => true
  | [c] => Q.esc != some c
  | c :: c' :: rest => if Q.esc = some c then settled Q rest else settled Q (c' :: rest)

/-- The byte after this prefix is neither quoted nor escaped. -/
def outside (Q : Quoting) (pre : List UInt8) : Bool := settled Q pre && liveQuotes Q pre % 2 == 0

/-- Cut a text at the given ascending positions, dropping the byte at each. -/
def pieces (t : List UInt8) (start : Nat) : List Nat → List (List UInt8)
  | [] => [t.drop start]
  | c :: cs => (t.drop start).take (c - start) :: pieces t (c + 1) cs

/-- Positions of the delimiters that separate fields. -/
def fieldCuts (Q : Quoting) (delim : UInt8) (t : List UInt8) : List Nat :=
  (List.range t.length).filter (fun i => t[i]? == some delim && outside Q (t.take i))

/-- Positions that end a line outside quotes: an LF, or a CR not followed by LF. -/
def lineEnds (Q : Quoting) (t : List UInt8) : List Nat :=
  (List.range t.length).filter (fun i => (t[i]? == some 10 || (t[i]? == some 13 && t[i + 1]? != some 10)) && outside Q (t.take i))

/-- The byte ranges between line ends, a CR before an ending LF excluded; the last may be unterminated. -/
def lineRanges (t : List UInt8) (start : Nat) : List Nat → List (Nat × Nat)
  | [] => if start < t.length then [(start, t.length)] else []
  | e :: es => (start, if t[e]? = some 10 ∧ start < e ∧ t[e - 1]? = some 13 then e - 1 else e) :: lineRanges t (e + 1) es

/-- The rows of a sample: the non-empty lines that are not comments, at most `limit`. -/
def sampleRows (Q : Quoting) (chars : List UInt8) (limit : Nat) (t : List UInt8) : List (Nat × Nat) :=
  ((lineRanges t 0 (lineEnds Q t)).filter
    (fun r => decide (r.1 < r.2) && !commentLine chars ((t.drop r.1).take (r.2 - r.1)))).take limit

/-- A field without its enclosing quotes. -/
def unquote (Q : Quoting) (f : List UInt8) : List UInt8 :=
  match Q.quote with
  | none => f
  | some q => if 2 ≤ f.length ∧ f.head? = some q ∧ f.getLast? = some q then (f.drop 1).dropLast else f

end Vroom.Spec
