import Verif.Model.ConvertFile
/-
The command line tool, /repo/src/cli.cpp: printing cells and rows, and the commands `count`, `head`, `select`,
`pretty` on an input whose bytes are given.  Formatting of floating point numbers and of calendar times is done
by the C++ and C libraries and is a parameter.
-/
namespace Vroom

/-- The bytes of an ASCII literal (not code of /repo: a string literal of cli.cpp as bytes). -/
def asc (s : String) : Bytes := s.toUTF8.toList

/-- Library functions that print: `ostringstream << double` (by bit pattern), and `gmtime` followed by `strftime` with
"%Y-%m-%d" and with "%Y-%m-%dT%H:%M:%S", of a `time_t` (cli.cpp:115-152). -/
structure Libc where
  fmtDouble : UInt64 → Bytes
  fmtDate : Int → Bytes
  fmtTime : Int → Bytes

/-- `std::to_string` of an integer (called in cli.cpp:112, 116; C++ library). -/
def decText (i : Int) : Bytes := (toString i).toUTF8.toList

/-- "true" / "false" (cli.cpp:125) -/
def boolText (b : Bool) : Bytes := if b then [116, 114, 117, 101] else [102, 97, 108, 115, 101]

/-- `getColumnValueAsString` (cli.cpp:99-156). Values are read through the signed type of the column; the
division of a timestamp by 1000000 truncates towards zero. -/
def showCell (L : Libc) (col : ArrowColumn) (i : Nat) : Bytes :=
  if i ≥ col.size then []
  else if col.nulls.hasNulls = true ∧ col.nulls.isValid i = false then []
  else match col with
    | .int32 c => decText (c.values.getD i 0).toInt32.toInt
    | .int64 c => decText (c.values.getD i 0).toInt64.toInt
    | .float64 c => L.fmtDouble (c.values.getD i 0)
    | .bool c => boolText (c.values.getD i 0 != 0)
    | .string c => c.values.get i
    | .date c => L.fmtDate ((c.values.getD i 0).toInt32.toInt * 86400)
    | .timestamp c => L.fmtTime ((c.values.getD i 0).toInt64.toInt.tdiv 1000000)

/-- One field as `outputRow` writes it (cli.cpp:163-176). -/
def outputField (d q : UInt8) (s : Bytes) : Bytes :=
  if d ∈ s ∨ q ∈ s ∨ LF ∈ s ∨ CR ∈ s then q :: (s.flatMap (fun c => if c = q then [q, c] else [c]) ++ [q]) else s

/-- The loop of `outputRow` over the fields from index `i` (cli.cpp:160-177). -/
def outputFields (d q : UInt8) (i : Nat) : List Bytes → Bytes
  | [] => []
  | s :: rest => (if i > 0 then [d] else []) ++ outputField d q s ++ outputFields d q (i + 1) rest

/-- `outputRow` (cli.cpp:159-179). -/
def outputRow (d q : UInt8) (row : List Bytes) : Bytes := outputFields d q 0 row ++ [LF]

/-- Inner loop of `head` and `pretty` (cli.cpp:700-707, 1062-1069): rows of one chunk from `row` on, `out` rows were
printed before. -/
def emitRows (f : Nat → List Bytes) (rows limit row out : Nat) : List (List Bytes) :=
  if row < rows ∧ out < limit then f row :: emitRows f rows limit (row + 1) (out + 1) else []
termination_by rows - row

/-- Loop over the chunks (cli.cpp:693-710, 1055-1072). -/
def emitChunks (L : Libc) (limit out : Nat) : List (List ArrowColumn) → List (List Bytes)
  | [] => []
  | chunk :: rest =>
    match chunk with
    | [] => emitChunks L limit out rest
    | c0 :: cols =>
      let rows := emitRows (fun r => (c0 :: cols).map (fun c => showCell L c r)) c0.size limit 0 out
      if out + rows.length ≥ limit then rows else rows ++ emitChunks L limit (out + rows.length) rest

/-- What `head` prints (cli.cpp:678-710). -/
def headOut (L : Libc) (d q : UInt8) (hasHeader : Bool) (limit : Nat) (names : List Bytes) (chunks : List (List ArrowColumn)) : Bytes :=
  if chunks = [] then []
  else (if hasHeader then outputRow d q names else []) ++ (emitChunks L limit 0 chunks).flatMap (outputRow d q)

/-- Rows of one chunk in `select` (cli.cpp:956-968). `chunk[col]` is only used with indices that were checked. -/
def selectChunk (L : Libc) (cols : List Nat) (chunk : List ArrowColumn) : List (List Bytes) :=
  match chunk with
  | [] => []
  | c0 :: _ => (List.range c0.size).map (fun r => cols.map (fun j => match chunk[j]? with | some c => showCell L c r | none => []))

/-- What `select` prints (cli.cpp:944-969). -/
def selectOut (L : Libc) (d q : UInt8) (hasHeader : Bool) (names : List Bytes) (cols : List Nat) (chunks : List (List ArrowColumn)) : Bytes :=
  (if hasHeader then outputRow d q (cols.map (fun j => names.getD j [])) else []) ++
    (chunks.flatMap (selectChunk L cols)).flatMap (outputRow d q)

/-- ASCII space or tab, the characters trimmed from a column specification (cli.cpp:896-901). -/
def specBlank (c : UInt8) : Bool := c == 32 || c == 9

/-- `spec.substr(start_pos, end_pos - start_pos + 1)` (cli.cpp:896-901). -/
def trimSpec (s : Bytes) : Bytes := ((s.dropWhile specBlank).reverse.dropWhile specBlank).reverse

/-- Decimal value of a string of digits (`stoul` of digits, cli.cpp:906; C++ library). -/
def decDigits (s : Bytes) : Nat := s.foldl (fun a c => a * 10 + (c.toNat - 48)) 0

/-- Outcome of resolving the columns: indices, an error message and exit code 1, or an uncaught exception
of `stoul` (the number exceeds `unsigned long`) (cli.cpp:891-936). -/
inductive Resolved where
  | cols (l : List Nat)
  | error
  | abort
deriving DecidableEq, Repr

/-- One specification, already trimmed (cli.cpp:903-930). -/
def resolveSpec (hasHeader : Bool) (names : List Bytes) (spec : Bytes) : Resolved :=
  if spec ≠ [] ∧ spec.all (fun c => decide (48 ≤ c ∧ c ≤ 57)) then
    if decDigits spec ≥ 2 ^ 64 then .abort
    else if decDigits spec ≥ names.length then .error else .cols [decDigits spec]
  else if hasHeader then
    match names.idxOf? spec with
    | some i => .cols [i]
    | none => .error
  else .error

/-- The loop over the specifications (cli.cpp:895-936). -/
def resolveGo (hasHeader : Bool) (names : List Bytes) (acc : List Nat) : List Bytes → Resolved
  | [] => if acc = [] then .error else .cols acc
  | s :: rest =>
    if trimSpec s = [] then resolveGo hasHeader names acc rest
    else match resolveSpec hasHeader names (trimSpec s) with
      | .cols l => resolveGo hasHeader names (acc ++ l) rest
      | r => r

/-- `getline(ss, spec, ',')` until it fails: the pieces between commas; an empty piece at the end is not delivered
(and would be skipped) (cli.cpp:895). -/
def splitComma : Bytes → List Bytes
  | [] => [[]]
  | c :: rest =>
    if c = 44 then [] :: splitComma rest
    else match splitComma rest with
      | p :: ps => (c :: p) :: ps
      | [] => [[c]]

/-- Column selection of `select` (cli.cpp:891-936). -/
def resolveColumns (hasHeader : Bool) (names : List Bytes) (spec : Bytes) : Resolved :=
  resolveGo hasHeader names [] (splitComma spec)

/-! ### pretty -/

/-- Widest cell of column `i`, at most 40 (cli.cpp:1084-1094). -/
def colWidth (rows : List (List Bytes)) (i : Nat) : Nat :=
  min ((rows.map (fun r => match r[i]? with | some s => s.length | none => 0)).foldl max 0) 40

/-- The line of dashes (cli.cpp:1096-1103). -/
def sepLine (widths : List Nat) : Bytes := 43 :: (widths.flatMap (fun w => List.replicate (w + 2) 45 ++ [43])) ++ [LF]

/-- A value cut to the width (cli.cpp:1113-1120). -/
def cutCell (w : Nat) (v : Bytes) : Bytes :=
  if v.length > w then (if w > 3 then v.take (w - 3) ++ [46, 46, 46] else v.take w) else v

/-- One row (cli.cpp:1108-1128). -/
def prettyLine (widths : List Nat) (row : List Bytes) : Bytes :=
  124 :: (widths.mapIdx (fun i w =>
    let v := cutCell w (row.getD i [])
    32 :: v ++ List.replicate (w - v.length) 32 ++ [32, 124])).flatten ++ [LF]

/-- The table (cli.cpp:1074-1136); `hasHeader` puts a line of dashes after the first row. -/
def prettyTable (hasHeader : Bool) (rows : List (List Bytes)) : Bytes :=
  if rows = [] then []
  else
    let numCols := (rows.map List.length).foldl max 0
    let widths := (List.range numCols).map (colWidth rows)
    sepLine widths ++
      (rows.mapIdx (fun r row => prettyLine widths row ++ (if hasHeader ∧ r = 0 then sepLine widths else []))).flatten ++
      sepLine widths

/-- What `pretty` prints (cli.cpp:1037-1136). -/
def prettyOut (L : Libc) (hasHeader : Bool) (limit : Nat) (names : List Bytes) (chunks : List (List ArrowColumn)) : Bytes :=
  if chunks = [] ∧ hasHeader = false then []
  else prettyTable hasHeader ((if hasHeader then [names] else []) ++ emitChunks L limit 0 chunks)

/-! ### Commands -/

/-- What a command was asked to do (cli.cpp:547-1138). -/
inductive CliCmd where
  | count
  | head (limit : Nat)
  | select (spec : Bytes)
  | pretty (limit : Nat)
  | info (label : Bytes)
deriving DecidableEq, Repr

/-- How a command ends: exit code and standard output; or an uncaught exception (cli.cpp:547-1218: return value and `cout`). -/
inductive CliOut where
  | exit (code : Nat) (out : Bytes)
  | abort
deriving DecidableEq, Repr

/-- `haystack.find(needle) != npos` (cli.cpp:589, 600, 659, 671, 768, 788, 882, 1018, 1030; C++ library). -/
def hasSub (needle : Bytes) : Bytes → Bool
  | [] => needle.isEmpty
  | c :: rest => needle.isPrefixOf (c :: rest) || hasSub needle rest

/-- "Empty file" (cli.cpp:589). -/
def emptyFileText : Bytes := [69, 109, 112, 116, 121, 32, 102, 105, 108, 101]

/-- `formatDelimiter` (cli.cpp:182-197). -/
def delimiterName (d : UInt8) : Bytes :=
  if d = 44 then asc "comma" else if d = 9 then asc "tab" else if d = 59 then asc "semicolon" else if d = 124 then asc "pipe"
  else if d = 58 then asc "colon" else [d]

/-- `type_name` (types.h:57-80). -/
def typeName : DataType → Bytes
  | .unknown => asc "UNKNOWN"
  | .bool => asc "BOOL"
  | .int32 => asc "INT32"
  | .int64 => asc "INT64"
  | .float64 => asc "FLOAT64"
  | .string => asc "STRING"
  | .date => asc "DATE"
  | .timestamp => asc "TIMESTAMP"
  | .na => asc "NA"

/-- What `info` prints (cli.cpp:800-829; for an empty input 754-760, 768-777). -/
def infoOut (label : Bytes) (size : Nat) (d q : UInt8) (rows cols : Nat) (hasHeader : Bool) (schema : List (Bytes × DataType)) : Bytes :=
  asc "Source: " ++ label ++ [LF] ++ asc "Size: " ++ decText size ++ asc " bytes" ++ [LF] ++
  asc "Dialect: delimiter=" ++ delimiterName d ++ asc ", quote=" ++ (if q = 34 then asc "double-quote" else [q]) ++ [LF] ++
  asc "Rows: " ++ decText rows ++ [LF] ++ asc "Columns: " ++ decText cols ++ [LF] ++
  (if hasHeader = true ∧ schema ≠ [] then
    [LF] ++ asc "Column names:" ++ [LF] ++
      (schema.mapIdx (fun i c => asc "  " ++ decText i ++ asc ": " ++ c.1 ++ asc " (" ++ typeName c.2 ++ asc ")" ++ [LF])).flatten
  else [])

/-- What an empty input gives (cli.cpp:575-579, 588-592, 646-649, 659-661, 754-777, 868-871, 882-884). -/
def CliCmd.onEmpty (o : FileOpts) : CliCmd → CliOut
  | .count => .exit 0 [48, LF]
  | .info label => .exit 0 (infoOut label 0 o.infer.sep o.infer.quote 0 0 false [])
  | _ => .exit 0 []

/-- The input: standard input with its bytes, a readable file with its bytes, or a file that cannot be opened, with the error
message of `MmapSource::open` (mmap_source.cpp:27-31: it contains the path). -/
inductive CliInput where
  | stdin (data : Bytes)
  | file (data : Bytes)
  | unreadable (msg : Bytes)

/-- After a failed `open` (cli.cpp:587-595, 657-664, 880-887, 1016-1023). -/
def CliCmd.onOpenError (c : CliCmd) (o : FileOpts) (msg : Bytes) : CliOut := if hasSub emptyFileText msg then c.onEmpty o else .exit 1 []

/-- After a successful `open` and `read_all` (cli.cpp:597-611, 666-712, 785-830, 889-971, 1025-1138).
`none`: a typed value is undefined behaviour (C17). -/
def CliCmd.onTable (c : CliCmd) (L : Libc) (o : FileOpts) (st : ReaderState) (file : Bytes) : Option CliOut :=
  let names := st.schema.map (·.name)
  let d := o.infer.sep
  let q := o.infer.quote
  let conv := o.conv st file
  let chunks : Option (ReadResult × List (List ArrowColumn)) := do
    let res ← readAll conv.read conv.schema.length conv.threshold conv.chunkSize file st.dataStart
    let chunks ← conv.typed res.chunks
    return (res, chunks)
  match c with
  | .count => chunks.map (fun p => .exit 0 (decText p.1.totalRows ++ [LF]))
  | .head n => chunks.map (fun p => .exit 0 (headOut L d q o.infer.hasHeader n names p.2))
  | .pretty n => chunks.map (fun p => .exit 0 (prettyOut L o.infer.hasHeader n names p.2))
  | .info label => chunks.map (fun p => .exit 0 (infoOut label file.length d q p.1.totalRows st.schema.length o.infer.hasHeader
      (st.schema.map (fun c => (c.name, c.type)))))
  | .select spec =>
    match resolveColumns o.infer.hasHeader names spec with
    | .abort => some .abort
    | .error => some (.exit 1 [])
    | .cols l => chunks.map (fun p => .exit 0 (selectOut L d q o.infer.hasHeader names l p.2))

/-- The commands `count`, `head`, `select` (with a non-empty `-c`), `pretty` (cli.cpp:547-1138, after option parsing). -/
def CliCmd.run (c : CliCmd) (L : Libc) (o : FileOpts) : CliInput → Option CliOut
  | .unreadable msg => some (c.onOpenError o msg)
  | .stdin data =>
    if data.length = 0 then some (c.onEmpty o)
    else match openData o.infer o.sampleRows (ReaderState.new o.mode o.maxErrors) data with
      | (some e, _) => some (c.onOpenError o e.msg)
      | (none, st) => c.onTable L o st data
  | .file data =>
    match openData o.infer o.sampleRows (ReaderState.new o.mode o.maxErrors) data with
    | (some e, _) => some (c.onOpenError o e.msg)
    | (none, st) => c.onTable L o st data

end Vroom
