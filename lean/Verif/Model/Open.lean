import Verif.Model.Inference
import Verif.Model.Errors
import Verif.Model.ParquetFile
/-
Model of opening a CSV file: `LineParser::parse_header` (/repo/src/parser/line_parser.cpp:33-90) and
`CsvReader::open` / `CsvReader::open_from_buffer` (/repo/src/reader/csv_reader.cpp:283-388, 393-498; the two
bodies are the same once the data pointer is set).
-/
namespace Vroom

/-- Character loop of `parse_header` (line_parser.cpp:44-87): `current_field`, the headers so far, the rest of
the line. -/
def headerGo (sep q : UInt8) (inq : Bool) (cur : Bytes) (hs : List Bytes) : Bytes → List Bytes
  | [] => if cur ≠ [] ∨ hs = [] then hs ++ [trimRight cur] else hs
  | c :: rest =>
    if inq = false ∧ (c = LF ∨ c = CR) then hs ++ [trimRight cur]
    else if c = q then
      match rest with
      | d :: rest' =>
        if inq ∧ d = q then headerGo sep q inq (cur ++ [q]) hs rest'
        else headerGo sep q (!inq) cur hs (d :: rest')
      | [] => headerGo sep q (!inq) cur hs []
    else if c = sep ∧ inq = false then headerGo sep q inq [] (hs ++ [trimRight cur]) rest
    else if cur = [] ∧ inq = false ∧ (c = 32 ∨ c = 9) then headerGo sep q inq cur hs rest
    else headerGo sep q inq (cur ++ [c]) hs rest
termination_by l => l.length
decreasing_by all_goals (simp; try omega)

/-- `LineParser::parse_header` (line_parser.cpp:33-90). -/
def parseHeader (sep q : UInt8) (data : Bytes) : List Bytes :=
  if data.length = 0 then [] else headerGo sep q false [] [] data

/-- Counting loop for files without header (csv_reader.cpp:343-356). -/
def countCols (sep q : UInt8) (inq : Bool) (n : Nat) : Bytes → Nat
  | [] => n
  | c :: rest =>
    if c = q then
      match rest with
      | d :: rest' =>
        if inq ∧ d = q then countCols sep q inq n rest'
        else countCols sep q (!inq) n (d :: rest')
      | [] => n
    else if c = sep ∧ inq = false then countCols sep q inq (n + 1) rest
    else countCols sep q inq n rest
termination_by l => l.length
decreasing_by all_goals (simp; try omega)

/-- `"V" + std::to_string(i + 1)` (csv_reader.cpp:365). -/
def genericName (i : Nat) : Bytes := ("V" ++ toString (i + 1)).toUTF8.toList

/-- The EMPTY_HEADER error (csv_reader.cpp:314): `info` 0 stands for this code. -/
def emptyHeaderErr : ParseErr := { severity := .fatal, offset := 0, info := 0 }

/-- The DUPLICATE_COLUMN_NAMES error of column `col` ≥ 1 (csv_reader.cpp:326-328): `info` is the column. -/
def duplicateErr (col : Nat) : ParseErr := { severity := .warning, offset := 0, info := col }

/-- The duplicate check (csv_reader.cpp:322-331): names seen so far, `i`, remaining names. -/
def dupLoop (seen : List Bytes) (i : Nat) (c : Collector) : List Bytes → Collector
  | [] => c
  | name :: rest =>
    if name = [] then dupLoop seen (i + 1) c rest
    else if name ∈ seen then dupLoop seen (i + 1) (c.addError (duplicateErr (i + 1))) rest
    else dupLoop (name :: seen) (i + 1) c rest

/-- `CsvReader::Impl` (csv_reader.cpp:254-265), the part set by opening. -/
structure ReaderState where
  schema : List ColSchema := []
  data : Bytes := []
  dataStart : Nat := 0
  collector : Collector
deriving DecidableEq, Repr

/-- A freshly constructed reader (csv_reader.cpp:267-281). -/
def ReaderState.new (mode : ErrMode) (maxErrors : Nat) : ReaderState := { collector := Collector.new mode maxErrors }

/-- `Result::failure` messages of `open` (csv_reader.cpp:297, 317). -/
inductive OpenErr where | emptyFile | emptyHeader
deriving DecidableEq, Repr

/-- Header validation (csv_reader.cpp:310-333): `true` means that `open` gives up. -/
def checkHeader (c : Collector) (names : List Bytes) : Bool × Collector :=
  if c.mode = .disabled then (false, c)
  else
    let bad := names = [] ∨ names = [[]]
    let c := if bad then c.addError emptyHeaderErr else c
    if bad ∧ c.shouldStop = true then (true, c) else (false, dupLoop [] 0 c names)

/-- Type inference at the end of `open` (csv_reader.cpp:374-384): types are assigned by position. -/
def assignTypes (schema : List ColSchema) (types : List DataType) : List ColSchema :=
  schema.mapIdx (fun i c => match types[i]? with | some t => { c with type := t } | none => c)

/-- `CsvReader::open` after the file was mapped, and `open_from_buffer` (csv_reader.cpp:290-388, 394-498).
The new columns are appended to whatever schema the reader already has (csv_reader.cpp:335-341, 365). -/
def openData (cfg : InferCfg) (sampleRows : Nat) (st : ReaderState) (file : Bytes) : Option OpenErr × ReaderState :=
  let st := { st with data := file }
  if file.length = 0 then (some .emptyFile, st)
  else
    let rowEnd := findRowEnd cfg.cpu cfg.quote file 0
    if cfg.hasHeader then
      let st := { st with dataStart := rowEnd }
      let names := parseHeader cfg.sep cfg.quote (file.take rowEnd)
      let chk := checkHeader st.collector names
      let st := { st with collector := chk.2 }
      if chk.1 then (some .emptyHeader, st)
      else
        let schema := st.schema ++ names.map (fun n => { name := n, type := .string })
        (none, { st with
          schema := assignTypes schema (inferFromSample cfg (file.drop st.dataStart) schema.length sampleRows) })
    else
      let n := countCols cfg.sep cfg.quote false 1 (file.take rowEnd)
      let schema := st.schema ++ (List.range n).map (fun i => { name := genericName i, type := .string })
      (none, { st with
        dataStart := 0
        schema := assignTypes schema (inferFromSample cfg file schema.length sampleRows) })

end Vroom
