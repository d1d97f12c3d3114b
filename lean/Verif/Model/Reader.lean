import Verif.Model.SplitFields
import Verif.Model.Chunking
/-
Model of CSV reading into columns.
Source: /repo/src/reader/csv_reader.cpp

A column builder is modelled by the list of `append_null()` / `append(text)` calls made on its
`FastArrowContext`, oldest first: `Cell`.  What each call stores for a typed column is modelled in
`Verif.Model.Append`; it depends on the single call only.
-/
namespace Vroom

/-- One append call on a column (csv_reader.cpp:221-242, 796-817: `append_null` or `append`). -/
inductive Cell where
  | null
  | text (v : Bytes)
deriving DecidableEq, Repr

/-- `unescape_quotes` loop (csv_reader.cpp:28-36). -/
def unescapeGo (q : UInt8) : Bytes → Bytes
  | [] => []
  | [c] => [c]
  | c :: d :: rest =>
    if c = q ∧ d = q then q :: unescapeGo q rest else c :: unescapeGo q (d :: rest)

/-- `unescape_quotes` with its fast path (csv_reader.cpp:19-39). -/
def unescapeQuotes (v : Bytes) (q : UInt8) : Bytes :=
  if q ∉ v then v else unescapeGo q v

/-- `NullChecker` fields (csv_reader.cpp:89-92). -/
structure NullChecker where
  vals : List Bytes := []
  maxLen : Nat := 0
  emptyIsNull : Bool := true
deriving DecidableEq, Repr

/-- `','` (csv_reader.cpp:52). -/
abbrev COMMA : UInt8 := 44

/-- `null_values.find(',', start)` with `npos` replaced by the size (csv_reader.cpp:52-55), relative
to the suffix. -/
def findComma : Bytes → Nat
  | [] => 0
  | c :: rest => if c = COMMA then 0 else 1 + findComma rest

/-- Constructor loop of `NullChecker` (csv_reader.cpp:46-67); `rest` is `null_values` from `start`. -/
def NullChecker.build (nc : NullChecker) (rest : Bytes) : NullChecker :=
  if rest.length = 0 then nc
  else
    let e := findComma rest
    let v := rest.take e
    let nc := if v ≠ [] then { nc with vals := nc.vals ++ [v], maxLen := max nc.maxLen v.length }
              else { nc with emptyIsNull := true }
    NullChecker.build nc (rest.drop (e + 1))
termination_by rest.length
decreasing_by simp; omega

/-- `NullChecker(options)` (csv_reader.cpp:46-67). -/
def NullChecker.mk' (nullValues : Bytes) : NullChecker := NullChecker.build {} nullValues

/-- `NullChecker::is_null` (csv_reader.cpp:69-84). -/
def NullChecker.isNull (nc : NullChecker) (v : Bytes) : Bool :=
  if v = [] then nc.emptyIsNull
  else if v.length > nc.maxLen then false
  else nc.vals.any (fun nv => nv == v)

/-- Strip one trailing CR (csv_reader.cpp:209-212, 784-787). -/
def stripCR (f : Bytes) : Bytes := if f.getLast? = some CR then f.dropLast else f

/-- What is appended for one raw field (csv_reader.cpp:221-235, 796-810). -/
def cellOf (nc : NullChecker) (q : UInt8) (f : Bytes) (needs : Bool) : Cell :=
  let f := stripCR f
  if nc.isNull f then .null
  else if needs then
    let v := if f.length ≥ 2 ∧ f.head? = some q ∧ f.getLast? = some q then (f.drop 1).take (f.length - 2) else f
    .text (unescapeQuotes v q)
  else .text f

/-- Append calls per column (csv_reader.cpp:127-131, 739-742: `fast_contexts`). -/
abbrev Cols := List (List Cell)

/-- `fast_contexts[i].append…` (csv_reader.cpp:221-242, 796-817). -/
def Cols.push (cols : Cols) (i : Nat) (c : Cell) : Cols := cols.modify i (· ++ [c])

/-- Body of the field loop (csv_reader.cpp:208-237, 783-812). State: columns and `col_idx`. -/
def fieldStep (nc : NullChecker) (q : UInt8) (n : Nat) (st : Cols × Nat) (f : Bytes × Bool) : Cols × Nat :=
  if st.2 ≥ n then (st.1, st.2 + 1)
  else (Cols.push st.1 st.2 (cellOf nc q f.1 f.2), st.2 + 1)

/-- `for (; col_idx < num_cols; ++col_idx) append_null` (csv_reader.cpp:239-242, 814-817). -/
def fillNulls (n : Nat) (cols : Cols) (idx : Nat) : Cols :=
  if idx < n then fillNulls n (Cols.push cols idx .null) (idx + 1) else cols
termination_by n - idx

/-- One row's worth of appends (csv_reader.cpp:199-246, 774-820). -/
def addRow (nc : NullChecker) (q : UInt8) (n : Nat) (cols : Cols) (fs : List (Bytes × Bool)) : Cols :=
  let st := fs.foldl (fieldStep nc q n) (cols, 0)
  fillNulls n st.1 st.2

/-- Skip empty lines (csv_reader.cpp:179-194, 754-769). -/
def skipBlank : Bytes → Bytes
  | [] => []
  | c :: rest =>
    if c = LF then skipBlank rest
    else if c = CR then
      match rest with
      | [] => []
      | d :: rest' => if d = LF then skipBlank rest' else skipBlank (d :: rest')
    else c :: rest
termination_by l => l.length
decreasing_by all_goals (simp; try omega)

/-- Parsing configuration used by the readers. `junk` is the value of the uninitialised
`needs_escaping` local (csv_reader.cpp:205, 780). -/
structure ReadCfg where
  cpu : Cpu
  sep : UInt8
  quote : UInt8
  nullValues : Bytes
  junk : Bool := false

/-- `NullChecker null_checker(options)` (csv_reader.cpp:682, 744). -/
def ReadCfg.nc (cfg : ReadCfg) : NullChecker := NullChecker.mk' cfg.nullValues

/-- `SplitFields iter(..., sep, quote, '\n')` (csv_reader.cpp:201, 776). -/
def ReadCfg.dial (cfg : ReadCfg) : Dial := { sep := cfg.sep, quote := cfg.quote, eol := LF }

/-- Row loop (csv_reader.cpp:178-247, 753-821). `rest` is the data from `offset`.
`none` = undefined behaviour in the field iterator, or more than `fuel` rows. -/
def parseRows (cfg : ReadCfg) : Nat → Cols → Nat → Bytes → Option (Cols × Nat)
  | 0, _, _, _ => none
  | fuel + 1, cols, rows, rest =>
    if rest.length = 0 then some (cols, rows)
    else
      let rest := skipBlank rest
      if rest.length = 0 then some (cols, rows)
      else
        match splitRow cfg.cpu cfg.dial cfg.junk rest with
        | none => none
        | some (fs, tail) =>
          parseRows cfg fuel (addRow cfg.nc cfg.quote cols.length cols fs) (rows + 1) tail

/-- First half of the partial-row skip: find the closing quote (csv_reader.cpp:135-149).
Returns `in_quote` and the remaining data. -/
def skipToClose (q : UInt8) : Bytes → Bool × Bytes
  | [] => (true, [])
  | c :: rest =>
    if c = q then
      match rest with
      | d :: rest' => if d = q then skipToClose q rest' else (false, d :: rest')
      | [] => (false, [])
    else skipToClose q rest
termination_by l => l.length
decreasing_by all_goals (simp; try omega)

/-- Second half: skip to the end of the partial row (csv_reader.cpp:152-169). -/
def skipPartialRow (q : UInt8) (inq : Bool) : Bytes → Bytes
  | [] => []
  | c :: rest =>
    if c = q then
      match rest with
      | d :: rest' => if inq ∧ d = q then skipPartialRow q inq rest' else skipPartialRow q (!inq) (d :: rest')
      | [] => []
    else if inq = false ∧ (c = LF ∨ c = CR) then
      match rest with
      | d :: rest' => if c = CR ∧ d = LF then rest' else d :: rest'
      | [] => []
    else skipPartialRow q inq rest
termination_by l => l.length
decreasing_by all_goals (simp; try omega)

/-- `parse_chunk_with_state` (csv_reader.cpp:113-252) on `n` fresh columns. -/
def parseChunk (cfg : ReadCfg) (n : Nat) (startInside : Bool) (data : Bytes) : Option (Cols × Nat) :=
  let cols : Cols := List.replicate n []
  if data.length = 0 ∨ n = 0 then some (cols, 0)
  else
    let rest := if startInside then
        let r := skipToClose cfg.quote data
        skipPartialRow cfg.quote r.1 r.2
      else data
    parseRows cfg (data.length + 1) cols 0 rest

/-- Result of a read: chunks of columns, `total_rows`, and the reader's `row_count()` (vroom.h:107-110, 134). -/
structure ReadResult where
  chunks : List Cols
  totalRows : Nat
  rowCount : Nat
deriving DecidableEq, Repr

/-- `read_all_serial` (csv_reader.cpp:716-828); `data` is the file from `header_end_offset`.
For an empty schema nothing is read and `row_count` keeps its initial value. -/
def readSerial (cfg : ReadCfg) (n : Nat) (data : Bytes) : Option ReadResult :=
  if n = 0 then some { chunks := [], totalRows := 0, rowCount := 0 }
  else
    (parseRows cfg (data.length + 1) (List.replicate n []) 0 data).map (fun r =>
      { chunks := [r.1], totalRows := ((r.1[0]?).getD []).length, rowCount := ((r.1[0]?).getD []).length })

/-- Phases 1-4 of `read_all` (csv_reader.cpp:591-712) for given chunk byte ranges; the worker tasks
are evaluated here one after the other (see `Verif.Model.Pool` for their interleaving). -/
def readChunks (cfg : ReadCfg) (n : Nat) (chunks : List Bytes) : Option ReadResult := do
  let link := analyzeAndLink cfg.cpu cfg.quote chunks
  let parsed ← (chunks.zip link.1).mapM (fun p => parseChunk cfg n p.2 p.1)
  some { chunks := parsed.map Prod.fst, totalRows := (parsed.map Prod.snd).sum, rowCount := link.2 }

/-- `read_all` (csv_reader.cpp:516-713) for a given chunk size and parallel threshold. -/
def readAll (cfg : ReadCfg) (n threshold chunkSize : Nat) (file : Bytes) (dataStart : Nat) : Option ReadResult :=
  if n = 0 then some { chunks := [], totalRows := 0, rowCount := 0 }
  else if file.length - dataStart < threshold then readSerial cfg n (file.drop dataStart)
  else do
    let ranges ← chunkRanges cfg.cpu cfg.quote file dataStart chunkSize
    if ranges.length ≤ 1 then readSerial cfg n (file.drop dataStart)
    else readChunks cfg n (ranges.map (slice file))

/-- `read_all` with the code's own constants (csv_reader.cpp:529-538). -/
def readAll' (cfg : ReadCfg) (n nThreads : Nat) (file : Bytes) (dataStart : Nat) : Option ReadResult :=
  readAll cfg n (1024 * 1024) (calculateChunkSize (file.length - dataStart) n nThreads) file dataStart

end Vroom
