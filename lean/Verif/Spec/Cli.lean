import Verif.Spec.Convert
import Verif.Spec.Open
import Verif.Lemmas.ChunkSize
import Verif.Props.Open
import Verif.Props.Convert
import Verif.Model.Cli
/-
Specification of what the command line tool prints.
-/
namespace Vroom
open Parquet Spec

/-- The integer with the two's complement bit pattern `n` of `w` bits. -/
def twos (w n : Nat) : Int := if n < 2 ^ (w - 1) then n else (n : Int) - 2 ^ w

/-- The text of a value in a column of type `t`; a missing value is the empty text.  A timestamp is shown by the second
reached when its microseconds are divided with truncation. -/
def showVal (L : Libc) (t : DataType) : Option Val → List UInt8
  | none => []
  | some (.num n) =>
    match t with
    | .int32 => decText (twos 32 n)
    | .int64 => decText (twos 64 n)
    | .float64 => L.fmtDouble (UInt64.ofNat n)
    | .date => L.fmtDate (twos 32 n * 86400)
    | .timestamp => L.fmtTime ((twos 64 n).tdiv 1000000)
    | _ => []
  | some (.bool b) => boolText b
  | some (.bytes s) => s

/-- The cell in row `i`, column `j` of a table, as text. -/
def shown (L : Libc) (schema : List ColSchema) (cells : List (List (List (Option Val)))) (i j : Nat) : List UInt8 :=
  match schema[j]? with
  | some cs => showVal L (stored cs.type) ((tableColumn cells j).getD i none)
  | none => []

/-- Number of rows of a table given by chunks. -/
def rowTotal (cells : List (List (List (Option Val)))) : Nat := (tableColumn cells 0).length

/-- Number of bytes of the texts among the values of a column. -/
def valBytes (cells : List (Option Val)) : Nat := (cells.map (fun x => match x with | some (.bytes s) => s.length | _ => 0)).sum

/-- A text as a CSV writer has to write it: quoted if it contains a special byte. -/
def csvField (M : Marks) (s : List UInt8) : WField :=
  if M.sep ∈ s ∨ M.quote ∈ s ∨ M.eol ∈ s ∨ (13 : UInt8) ∈ s then .quoted s else .plain s

/-- A row of texts as a written row. -/
def csvRow (M : Marks) (row : List (List UInt8)) : WRow := { fields := row.map (csvField M) }

/-- A written row with its line end. -/
def csvLine (M : Marks) (row : List (List UInt8)) : List UInt8 := (csvRow M row).render M ++ [M.eol]

/-! ### The drawn table of `pretty` -/

/-- A value as `pretty` shows it: at most 40 bytes; a longer one is cut and marked by three dots. -/
def clip (v : List UInt8) : List UInt8 := if v.length ≤ 40 then v else v.take 37 ++ [46, 46, 46]

/-- A column is as wide as its widest shown value. -/
def width (rows : List (List (List UInt8))) (j : Nat) : Nat := (rows.map (fun r => (clip (r.getD j [])).length)).foldl max 0

/-- Number of columns: that of the longest row. -/
def tableCols (rows : List (List (List UInt8))) : Nat := (rows.map List.length).foldl max 0

/-- One cell, filled up with spaces, and its right border. -/
def boxed (w : Nat) (v : List UInt8) : List UInt8 := [32] ++ v ++ List.replicate (w - v.length) 32 ++ [32, 124]

/-- The line of a row. -/
def tableLine (cols : Nat) (w : Nat → Nat) (row : List (List UInt8)) : List UInt8 :=
  [124] ++ (List.range cols).flatMap (fun j => boxed (w j) (clip (row.getD j [])))

/-- A rule. -/
def ruleLine (cols : Nat) (w : Nat → Nat) : List UInt8 := [43] ++ (List.range cols).flatMap (fun j => List.replicate (w j + 2) 45 ++ [43])

/-- The lines of the table: a rule, the rows, a rule; with `hdr` also a rule after the first row. -/
def tableLines (hdr : Bool) (rows : List (List (List UInt8))) : List (List UInt8) :=
  let rule := ruleLine (tableCols rows) (width rows)
  let line := tableLine (tableCols rows) (width rows)
  match rows with
  | [] => []
  | r :: rest => [rule, line r] ++ (if hdr then [rule] else []) ++ rest.map line ++ [rule]

/-! ### Displayed cells of a file -/

/-- The text shown for row `i`, column `j` of a table of CSV texts (`none`: null), given the column types: the text is converted to
the type (C17-C22) and the value is formatted. -/
def displayed (L : Libc) (lanes : Nat) (floatBits : List UInt8 → Option UInt64) (types : List DataType)
    (table : List (List (Option (List UInt8)))) (i j : Nat) : List UInt8 :=
  match types[j]? with
  | some t => showVal L (stored t) (cellVal lanes floatBits (stored t) ((table.getD j []).getD i none))
  | none => []

/-! ### Input files -/

/-- The bytes `data` are a CSV text with these column names and data rows. -/
inductive CsvInput (o : FileOpts) (data : List UInt8) : List (List UInt8) → List WRow → Prop
  | header (hdr : WRow) (rows : List WRow) : o.infer.hasHeader = true → data = renderFile o.infer.marks (hdr :: rows) → rows ≠ [] →
      hdr.fields ≠ [] → (∀ f ∈ hdr.fields, f.WF o.infer.marks) →
      hdr.fields.map (·.columnName) ≠ [[]] ∨ o.mode = .disabled ∨ o.mode = .bestEffort →
      CsvInput o data (hdr.fields.map (·.columnName)) rows
  | bare (first : WRow) (rows : List WRow) : o.infer.hasHeader = false → data = renderFile o.infer.marks (first :: rows) → rows ≠ [] →
      CsvInput o data ((List.range first.fields.length).map (fun i => ("V" ++ toString (i + 1)).toUTF8.toList)) (first :: rows)

/-- … and it is one the reader handles: sane dialect, rows of at most 32 MiB without the quotes of C12, no nominal chunk end inside quotes
(if there is 1 MiB of data or more), no integer minimum in an integer column (C17). -/
structure CsvTable (o : FileOpts) (data : List UInt8) (names : List (List UInt8)) (rows : List WRow) (types : List DataType)
    (table : List (List (Option (List UInt8)))) : Prop where
  input : CsvInput o data names rows
  sane : ReadSane o.infer.marks
  wf : ∀ r ∈ rows, r.WF o.infer.marks
  short : ∀ r ∈ rows, (r.render o.infer.marks).length ≤ 2 ^ 25
  cuts : 2 ^ 20 ≤ (renderFile o.infer.marks rows).length →
    TargetsOutside o.read data (data.length - (renderFile o.infer.marks rows).length)
      (calculateChunkSize (renderFile o.infer.marks rows).length names.length o.nThreads)
  types_eq : types = openInfer o.infer data names.length o.sampleRows
  table_eq : table = tableOf o.infer.quote (commaPieces o.infer.nullValues) names.length rows
  defined : ∀ j t, types[j]? = some t → ∀ v, some v ∈ table.getD j [] → ¬ StoresUB o.lanes o.floatBits (stored t) v

/-! ### Column specifications -/

/-- A text of decimal digits. -/
def allDigits (s : List UInt8) : Prop := s ≠ [] ∧ ∀ c ∈ s, 48 ≤ c ∧ c ≤ 57

/-- Its value: most significant digit first. -/
def decValue : List UInt8 → Nat
  | [] => 0
  | c :: rest => (c.toNat - 48) * 10 ^ rest.length + decValue rest

/-- The word `s` means column `j`: a number is the column's index, anything else is its name (the first column with it), and names are only known
when there is a header. -/
def Picks (hasHeader : Bool) (names : List (List UInt8)) (s : List UInt8) (j : Nat) : Prop :=
  (allDigits s ∧ j = decValue s ∧ j < names.length) ∨
  (¬ allDigits s ∧ hasHeader = true ∧ names[j]? = some s ∧ ∀ k < j, names[k]? ≠ some s)

/-- The words of a list of specifications: without the blanks around them, empty ones dropped. -/
def words (pieces : List (List UInt8)) : List (List UInt8) := (pieces.map (fun p => trimEnd (trimStart p))).filter (· ≠ [])

/-! ### info -/

/-- The names of the types, as `info` reports them. -/
def typeWord : DataType → String
  | .unknown => "UNKNOWN" | .bool => "BOOL" | .int32 => "INT32" | .int64 => "INT64" | .float64 => "FLOAT64" | .string => "STRING"
  | .date => "DATE" | .timestamp => "TIMESTAMP" | .na => "NA"

/-- The names of delimiters. -/
def delimiterWord (d : UInt8) : List UInt8 :=
  match d with
  | 44 => asc "comma" | 9 => asc "tab" | 59 => asc "semicolon" | 124 => asc "pipe" | 58 => asc "colon" | c => [c]

/-- The line of column `i`. -/
def columnLine (columns : List (List UInt8 × DataType)) (i : Nat) : List UInt8 :=
  match columns[i]? with
  | some (name, t) => asc "  " ++ asc (toString i) ++ asc ": " ++ name ++ asc (" (" ++ typeWord t ++ ")")
  | none => []

/-- The lines of the report of `info`: source, size, dialect, number of rows and columns, and with a header the columns, numbered from 0, with
names and types. -/
def infoLines (label : List UInt8) (size : Nat) (d q : UInt8) (rows cols : Nat) (hasHeader : Bool) (columns : List (List UInt8 × DataType)) : List (List UInt8) :=
  [asc "Source: " ++ label,
   asc "Size: " ++ asc (toString size) ++ asc " bytes",
   asc "Dialect: delimiter=" ++ delimiterWord d ++ asc ", quote=" ++ (if q = 34 then asc "double-quote" else [q]),
   asc "Rows: " ++ asc (toString rows),
   asc "Columns: " ++ asc (toString cols)] ++
  (if hasHeader then
    [[], asc "Column names:"] ++ (List.range columns.length).map (columnLine columns)
   else [])

end Vroom
