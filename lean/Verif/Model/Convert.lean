import Verif.Model.ParquetFile
import Verif.Model.Append
import Verif.Model.Reader
import Verif.Model.Queue
/-
Model of `convert_csv_to_parquet` (/repo/src/reader/csv_reader.cpp:831-1136): building typed columns from
the cells read, batching chunks into row groups, the sequence of steps and the reported result.
-/
namespace Vroom

/-! ### Typed columns from cells -/

namespace ArrowColumn

/-- `ArrowColumnBuilder::create` (arrow_column_builder.h:584-602): anything else than the six other types
gets a string builder. -/
def create : DataType → ArrowColumn
  | .int32 => .int32 {} | .int64 => .int64 {} | .float64 => .float64 {} | .bool => .bool {}
  | .date => .date {} | .timestamp => .timestamp {} | _ => .string {}

/-- `append_null` through the context (fast_arrow_context.h:50-53, 107-110, 164-167, 181-184, 203-206,
223-226, 244-247). -/
def appendNull : ArrowColumn → ArrowColumn
  | .int32 c => .int32 (c.appendNull 0) | .int64 c => .int64 (c.appendNull 0)
  | .float64 c => .float64 (c.appendNull quietNaN) | .bool c => .bool (c.appendNull 0)
  | .date c => .date (c.appendNull 0) | .timestamp c => .timestamp (c.appendNull 0)
  | .string c => .string c.appendNull

/-- `append` through the context (fast_arrow_context.h:42-250); what is stored is `storeText`, floats are
converted by the external `floatBits`.  `none`: undefined behaviour. -/
def appendText (lanes : Nat) (floatBits : Bytes → Option UInt64) (col : ArrowColumn) (v : Bytes) : Option ArrowColumn :=
  match storeText lanes (fun v => (floatBits v).isSome) col.type v, col with
  | .ub, _ => none
  | .null, c => some c.appendNull
  | .int i, .int32 c => some (.int32 (c.append (Int32.ofInt i).toUInt32))
  | .int i, .int64 c => some (.int64 (c.append (Int64.ofInt i).toUInt64))
  | .int i, .date c => some (.date (c.append (Int32.ofInt i).toUInt32))
  | .int i, .timestamp c => some (.timestamp (c.append (Int64.ofInt i).toUInt64))
  | .bool b, .bool c => some (.bool (c.append (if b then 1 else 0)))
  | .float t, .float64 c => (floatBits t).map (fun b => .float64 (c.append b))
  | .text t, .string c => some (.string (c.append t))
  | _, _ => none

/-- One `append_null()` or `append(text)` call (csv_reader.cpp:221-242, 796-817). -/
def appendCell (lanes : Nat) (floatBits : Bytes → Option UInt64) (col : ArrowColumn) : Cell → Option ArrowColumn
  | .null => some col.appendNull
  | .text v => col.appendText lanes floatBits v

/-- A builder fed with the cells of one column of one chunk (csv_reader.cpp:684-689, 727-737). -/
def build (lanes : Nat) (floatBits : Bytes → Option UInt64) (t : DataType) (cells : List Cell) : Option ArrowColumn :=
  cells.foldlM (appendCell lanes floatBits) (create t)

/-- `merge_from` (arrow_column_builder.h:95-99 and the six others); the `static_cast` of a builder of
another class is undefined: `none`. -/
def mergeFrom : ArrowColumn → ArrowColumn → Option ArrowColumn
  | .int32 a, .int32 b => some (.int32 (a.mergeFrom b)) | .int64 a, .int64 b => some (.int64 (a.mergeFrom b))
  | .float64 a, .float64 b => some (.float64 (a.mergeFrom b)) | .bool a, .bool b => some (.bool (a.mergeFrom b))
  | .date a, .date b => some (.date (a.mergeFrom b)) | .timestamp a, .timestamp b => some (.timestamp (a.mergeFrom b))
  | .string a, .string b => some (.string (a.mergeFrom b)) | _, _ => none

end ArrowColumn

/-! ### Batching -/

/-- `TARGET_ROW_GROUP_SIZE` (csv_reader.cpp:958). -/
def targetRowGroupSize : Nat := 512 * 512

/-- The batch loop (csv_reader.cpp:1001-1020): `i`, `batch_start`, `batch_rows`, remaining chunks. -/
def batchGo (target : Nat) : Nat → Nat → Nat → List (List ArrowColumn) → List (Nat × Nat)
  | i, start, _, [] => if start < i then [(start, i)] else []
  | i, start, rows, [] :: cs => batchGo target (i + 1) start rows cs
  | i, start, rows, (c :: _) :: cs =>
    if rows + c.size ≥ target then (start, i + 1) :: batchGo target (i + 1) (i + 1) 0 cs
    else batchGo target (i + 1) start (rows + c.size) cs

/-- The inner loop over the columns of one chunk (csv_reader.cpp:1041-1044). -/
def mergeColumns : List ArrowColumn → List ArrowColumn → Option (List ArrowColumn)
  | a :: as, b :: bs => do
    let c ← a.mergeFrom b
    let cs ← mergeColumns as bs
    return c :: cs
  | as, _ => some as

/-- One batch (csv_reader.cpp:1030-1045). -/
def mergeBatch (schema : List ColSchema) (chunks : List (List ArrowColumn)) (b : Nat × Nat) : Option (List ArrowColumn) :=
  ((chunks.drop b.1).take (b.2 - b.1)).foldlM mergeColumns (schema.map (fun c => ArrowColumn.create c.type))

/-- The row groups handed to the writer, in order (csv_reader.cpp:961-1051). -/
def rowGroupsOf (target : Nat) (schema : List ColSchema) (chunks : List (List ArrowColumn)) : Option (List (List ArrowColumn)) :=
  match chunks with
  | [] => some []
  | [c] => some [c]
  | _ =>
    if schema.any (fun c => c.type == .string) then some (chunks.filter (fun c => !c.isEmpty))
    else (batchGo target 0 0 0 chunks).mapM (mergeBatch schema chunks)

/-! ### The whole conversion -/

/-- What the world answers to a conversion up to the point where row groups are written (not code of /repo: what csv_reader.cpp:855-945 depends on: file system, cancellation). -/
structure ConvWorld where
  /-- `reader.open` fails with this message -/
  openErr : Option (List UInt8) := none
  /-- `reader.read_all` fails with this message -/
  readErr : Option (List UInt8) := none
  /-- the callback, if there is one, answers this to `progress(50, 100)` -/
  progress50 : Option Bool := none
  /-- `writer.open` fails with this message -/
  writerOpenErr : Option (List UInt8) := none
  /-- the `what()` messages a failing write can throw -/
  whats : List UInt8 → Prop := fun _ => True

/-- `ConversionResult` (vroom.h:30-61) without the parse errors. -/
structure ConvResult where
  error : List UInt8 := []
  rows : Nat := 0
  cols : Nat := 0
deriving DecidableEq, Repr

/-- `ConversionResult::ok` (vroom.h:39). -/
def ConvResult.ok (r : ConvResult) : Bool := r.error.isEmpty

/-- "Cancelled by user" (csv_reader.cpp:911). -/
def msgCancelled : List UInt8 := "Cancelled by user".toUTF8.toList
/-- "Pipeline writer encountered an error" (parquet_file.cpp:1009). -/
def msgPipeline : List UInt8 := "Pipeline writer encountered an error".toUTF8.toList
/-- "Pipeline closed unexpectedly" (parquet_file.cpp:1022). -/
def msgClosed : List UInt8 := "Pipeline closed unexpectedly".toUTF8.toList

/-- Does the conversion get as far as writing row groups (csv_reader.cpp:855-945)? -/
def ConvWorld.reachesWrite (w : ConvWorld) : Bool :=
  w.openErr.isNone && w.readErr.isNone && w.progress50 != some false && w.writerOpenErr.isNone

/-- The returned result (csv_reader.cpp:855-1135): `nRows`, `nCols` are what the reader reports, `writeErr`
is the message of a failing write phase.  `close` only fails on a closed writer and the answer of
`progress(100, 100)` is ignored. -/
def convertResult (w : ConvWorld) (nRows nCols : Nat) (writeErr : Option (List UInt8)) : ConvResult :=
  match w.openErr with
  | some m => { error := m }
  | none =>
    match w.readErr with
    | some m => { error := m, cols := nCols }
    | none =>
      match w.progress50 with
      | some false => { error := msgCancelled, rows := nRows, cols := nCols }
      | _ =>
        match w.writerOpenErr with
        | some m => { error := m, rows := nRows, cols := nCols }
        | none => { error := writeErr.getD [], rows := nRows, cols := nCols }

/-- The write phase (csv_reader.cpp:960-1075): direct write for at most one chunk, else the pipeline of
`Verif.Model.Queue` with queue capacity 4, under any interleaving and any failing write.
Result: error message if any, and the writer afterwards (with the row groups that were written). -/
inductive WritePhase (env : WEnv) (whats : List UInt8 → Prop) (p : PWriter) (nChunks : Nat) (groups : List (List ArrowColumn)) :
    Option (List UInt8) → PWriter → Prop
  | direct {p'} : nChunks ≤ 1 → groups.foldlM (PWriter.write env) p = some p' → WritePhase env whats p nChunks groups none p'
  | finished {es n k s} : 1 < nChunks → (groups.filter (fun g => !g.isEmpty)).mapM (encodeRowGroup env p.schema) = some es →
      PipeRun 4 es n k s → s.prod = .finished true → WritePhase env whats p nChunks groups none (s.written.foldl PWriter.writeEncoded p)
  | finishErr {es n k s} (what : List UInt8) : 1 < nChunks → whats what →
      (groups.filter (fun g => !g.isEmpty)).mapM (encodeRowGroup env p.schema) = some es →
      PipeRun 4 es n k s → s.prod = .finished false →
      WritePhase env whats p nChunks groups (some what) (s.written.foldl PWriter.writeEncoded p)
  | submitErr {es n k s} (msg : List UInt8) : 1 < nChunks →
      (groups.filter (fun g => !g.isEmpty)).mapM (encodeRowGroup env p.schema) = some es →
      PipeRun 4 es n k s → s.prod = .submitFailed → msg = msgPipeline ∨ msg = msgClosed →
      WritePhase env whats p nChunks groups (some msg) (s.written.foldl PWriter.writeEncoded p)

/-- Everything a conversion depends on besides the file: reader configuration, parallel threshold and
chunk size of `read_all`, the SIMD width and the external float parser, schema (from `open`), writer (csv_reader.cpp:831-945: the options in use). -/
structure ConvCfg where
  read : ReadCfg
  threshold : Nat
  chunkSize : Nat
  lanes : Nat
  floatBits : Bytes → Option UInt64
  schema : List ColSchema
  env : WEnv
  target : Nat := targetRowGroupSize

/-- The typed columns of the chunks read (see `ArrowColumn.build`) (csv_reader.cpp:684-689, 727-737). -/
def ConvCfg.typed (C : ConvCfg) (chunks : List Cols) : Option (List (List ArrowColumn)) :=
  chunks.mapM (fun c => (C.schema.zip c).mapM (fun p => ArrowColumn.build C.lanes C.floatBits p.1.type p.2))

/-- A conversion of `file` whose data starts at `start`: the result returned and, if the output file was
opened and the process did not die, the content of the output file at the end.  When the write phase
fails in `finish_pipeline` the writer's destructor still calls `close` (parquet_file.cpp:925-929); when it
fails in `submit_row_group` a joinable thread is destroyed. -/
inductive Converted (C : ConvCfg) (w : ConvWorld) (file : Bytes) (start : Nat) : ConvResult → Option (List UInt8) → Prop
  | early (nRows nCols : Nat) : w.reachesWrite = false → Converted C w file start (convertResult w nRows nCols none) none
  | wrote {res chunks groups err p} : w.reachesWrite = true →
      readAll C.read C.schema.length C.threshold C.chunkSize file start = some res →
      C.typed res.chunks = some chunks → rowGroupsOf C.target C.schema chunks = some groups →
      WritePhase C.env w.whats ({ ({} : PWriter).openFile with schema := C.schema }) chunks.length groups err p →
      Converted C w file start (convertResult w res.rowCount C.schema.length err)
        (if err = some msgPipeline ∨ err = some msgClosed then none else some p.close.file)

end Vroom
