/-
Specification of CSV fields and rows at the byte level, with no reference to the model.
-/
namespace Vroom.Spec

/-- The three special bytes of a CSV dialect. -/
structure Marks where
  sep : UInt8
  quote : UInt8
  eol : UInt8
deriving DecidableEq, Repr

/-- The special bytes are distinct and quoting is enabled (quote byte not NUL). -/
structure Marks.Sane (M : Marks) : Prop where
  sep_quote : M.sep ≠ M.quote
  eol_quote : M.eol ≠ M.quote
  sep_eol : M.sep ≠ M.eol
  quote_nz : M.quote ≠ 0

/-- Raw text of an unquoted field: contains none of the special bytes. -/
def PlainField (M : Marks) (f : List UInt8) : Prop := M.sep ∉ f ∧ M.quote ∉ f ∧ M.eol ∉ f

/-- Raw text of a quoted field: starts with a quote, quotes are balanced, and every separator or
line end in it is inside quotes (an odd number of quotes precedes it). -/
def QuotedField (M : Marks) (f : List UInt8) : Prop :=
  f.head? = some M.quote ∧ f.count M.quote % 2 = 0 ∧
  ∀ (k : Nat) (c : UInt8), f[k]? = some c → c = M.sep ∨ c = M.eol → (f.take k).count M.quote % 2 = 1

/-- A raw field is one or the other. -/
def RawField (M : Marks) (f : List UInt8) : Prop := PlainField M f ∨ QuotedField M f

/-- No separator or line end occurs in the field, quoted or not. -/
def Simple (M : Marks) (f : List UInt8) : Prop := M.sep ∉ f ∧ M.eol ∉ f

/-- Once an unquoted field has occurred, later fields of the row hold no (quoted) separator or
line end. -/
def QuotedSepsFirst (M : Marks) : List (List UInt8) → Prop
  | [] => True
  | f :: fs => (PlainField M f → ∀ g ∈ fs, Simple M g) ∧ QuotedSepsFirst M fs

/-- Fields joined by the separator. -/
def joinFields (sep : UInt8) : List (List UInt8) → List UInt8
  | [] => []
  | [f] => f
  | f :: fs => f ++ sep :: joinFields sep fs

/-- `e` is the position of the first separator or line end of `data` (its length if there is
none); with `aware`, only those preceded by an even number of quotes count. -/
def IsFieldEnd (aware : Bool) (M : Marks) (data : List UInt8) (e : Nat) : Prop :=
  let isEnd := fun k => (data[k]? = some M.sep ∨ data[k]? = some M.eol) ∧
    (aware = true → (data.take k).count M.quote % 2 = 0)
  e ≤ data.length ∧ (e < data.length → isEnd e) ∧ ∀ k, k < e → ¬ isEnd k

/-! ### Written tables -/

/-- Doubling of the quote byte. -/
def escape (q : UInt8) : List UInt8 → List UInt8
  | [] => []
  | c :: r => if c = q then q :: q :: escape q r else c :: escape q r

/-- A field as a CSV writer writes it. -/
inductive WField where
  /-- bare text -/
  | plain (s : List UInt8)
  /-- arbitrary bytes between quotes, inner quotes doubled -/
  | quoted (b : List UInt8)
deriving DecidableEq, Repr

/-- The written bytes of a field. -/
def WField.render (q : UInt8) : WField → List UInt8
  | .plain s => s
  | .quoted b => q :: escape q b ++ [q]

/-- The value a reader should deliver (`none` = null) given the null spellings. -/
def WField.value (q : UInt8) (nulls : List (List UInt8)) : WField → Option (List UInt8)
  | .plain s => if s = [] ∨ s ∈ nulls then none else some s
  | .quoted b => if (WField.quoted b).render q ∈ nulls then none else some b

/-- Bare text contains no special byte and no CR. -/
def WField.WF (M : Marks) : WField → Prop
  | .plain s => M.sep ∉ s ∧ M.quote ∉ s ∧ M.eol ∉ s ∧ (13 : UInt8) ∉ s
  | .quoted _ => True

/-- A quoted field whose content holds no separator and no line end; bare fields qualify. -/
def WField.Tame (M : Marks) : WField → Prop
  | .plain _ => True
  | .quoted b => M.sep ∉ b ∧ M.eol ∉ b

/-- Once a bare field has occurred in a row, later quoted fields are tame. -/
def TameAfterPlain (M : Marks) : List WField → Prop
  | [] => True
  | .plain _ :: fs => (∀ g ∈ fs, g.Tame M) ∧ TameAfterPlain M fs
  | .quoted _ :: fs => TameAfterPlain M fs

/-- A written row: its fields and whether it ends in CRLF rather than LF. -/
structure WRow where
  fields : List WField
  crlf : Bool := false
deriving DecidableEq, Repr

/-- Bytes of a row, without its final LF. -/
def WRow.render (M : Marks) (r : WRow) : List UInt8 :=
  joinFields M.sep (r.fields.map (·.render M.quote)) ++ (if r.crlf then [13] else [])

/-- Rows joined by LF (a final line end is written by an empty last row). -/
def renderFile (M : Marks) (rows : List WRow) : List UInt8 :=
  joinFields M.eol (rows.map (·.render M))

/-- An empty line. -/
def WRow.blank (r : WRow) : Bool := r.fields == [.plain []]

/-- Conditions on a written row. -/
structure WRow.WF (M : Marks) (r : WRow) : Prop where
  ne : r.fields ≠ []
  wf : ∀ f ∈ r.fields, f.WF M
  tame : TameAfterPlain M r.fields

/-- Value of column `j` of a row: missing fields are null. -/
def WRow.valueAt (q : UInt8) (nulls : List (List UInt8)) (r : WRow) (j : Nat) : Option (List UInt8) :=
  match r.fields[j]? with
  | none => none
  | some f => f.value q nulls

/-- The pieces of a comma-separated list. -/
def commaPieces : List UInt8 → List (List UInt8)
  | [] => [[]]
  | c :: r =>
    if c = 44 then [] :: commaPieces r
    else match commaPieces r with
      | [] => [[c]]
      | p :: ps => (c :: p) :: ps

end Vroom.Spec
