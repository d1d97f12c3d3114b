import Verif.Model.CliArgs
import Verif.Spec.Arrow
/-
The Python module, /repo/python/src/bindings.cpp: `read_csv`, the `Table` with its Arrow stream, `to_parquet`, `to_arrow_ipc`.
`Arrow.Arr` and the other interface structures are those of the Arrow C data interface (arrow_c_data.h).
-/
namespace Vroom

/-- A column's memory as an Arrow array: `export_to_arrow` (arrow_column_builder.h:104-119, 544-561 and the same lines of the other builders), with the
values as bytes. -/
def ArrowColumn.exportC : ArrowColumn → Arrow.Arr
  | .int32 c | .date c => ⟨c.exportArrow.length, c.exportArrow.nullCount, c.exportArrow.offset, [c.exportArrow.validity, some (c.values.flatMap le4)]⟩
  | .int64 c | .float64 c | .timestamp c =>
    ⟨c.exportArrow.length, c.exportArrow.nullCount, c.exportArrow.offset, [c.exportArrow.validity, some (c.values.flatMap le8)]⟩
  | .bool c => ⟨c.exportArrow.length, c.exportArrow.nullCount, c.exportArrow.offset, [c.exportArrow.validity, some c.values]⟩
  | .string c => ⟨c.exportArrow.length, c.exportArrow.nullCount, c.exportArrow.offset,
      [c.exportArrow.validity, some (c.values.offsets.flatMap le4), some c.values.data]⟩

/-- Format strings of `export_schema` (arrow_c_data.h:14-23, arrow_column_builder.h:121-134, 340-353 and the same lines of the other builders). -/
def ArrowColumn.format : ArrowColumn → Bytes
  | .int32 _ => asc "i"
  | .int64 _ => asc "l"
  | .float64 _ => asc "g"
  | .bool _ => asc "C"
  | .date _ => asc "tdD"
  | .timestamp _ => asc "tsu:"
  | .string _ => asc "u"

/-- What a consumer sees of a `std::string` passed by `c_str()`: the bytes before the first zero (bindings.cpp:135, 516). -/
def cString (s : Bytes) : Bytes := s.takeWhile (· ≠ 0)

/-- `Table` (bindings.cpp:38-73). -/
structure PyTable where
  schema : List ColSchema
  columns : List ArrowColumn
  numRows : Nat

/-- `column_names` (bindings.cpp:55-62). -/
def PyTable.columnNames (t : PyTable) : List Bytes := t.schema.map (·.name)

/-- `num_columns` (bindings.cpp:52). -/
def PyTable.numColumns (t : PyTable) : Nat := t.columns.length

/-- `table_stream_get_schema` and `__arrow_c_schema__` (bindings.cpp:116-145, 501-531): `schema[i]` for `i < num_columns`. A missing schema entry would
be an access outside the vector; it is an empty name here. -/
def PyTable.fields (t : PyTable) : List Arrow.Field :=
  t.columns.mapIdx (fun i c => ⟨c.format, cString ((t.schema[i]?.map (·.name)).getD []), true⟩)

/-- The struct array of `table_stream_get_next` (bindings.cpp:188-220). -/
def PyTable.batch (t : PyTable) : Arrow.Batch := ⟨t.numRows, 0, 0, t.columns.map ArrowColumn.exportC⟩

/-- The state of a stream (bindings.cpp:80-84). -/
structure PyStream where
  table : PyTable
  returned : Bool := false

/-- `table_stream_get_next` (bindings.cpp:179-221): a batch, or the end of the stream. -/
def PyStream.next (s : PyStream) : Option Arrow.Batch × PyStream :=
  if s.returned then (none, s) else (some s.table.batch, { s with returned := true })

/-- Arguments of `read_csv` and `to_parquet` (bindings.cpp:252-258, 351-356); `none` is Python's None. -/
structure PyArgs where
  separator : Option UInt8 := none
  quote : Option UInt8 := none
  hasHeader : Bool := true
  numThreads : Option Nat := none
  errorMode : Option Bytes := none
  maxErrors : Option Nat := none
deriving DecidableEq, Repr

/-- The names of `error_mode` (bindings.cpp:269-282, 382-395); `none`: an exception. -/
def pyMode : Option Bytes → Option ErrMode
  | none => some .disabled
  | some s =>
    if s = asc "disabled" then some .disabled
    else if s = asc "fail_fast" ∨ s = asc "strict" then some .failFast
    else if s = asc "permissive" then some .permissive
    else if s = asc "best_effort" then some .bestEffort
    else none

/-- `CsvOptions` as set by `read_csv` (bindings.cpp:259-289); the fields are carried in `CliOpts`, whose defaults for them are those of
options.h:14-50. -/
def PyArgs.csv (a : PyArgs) : Option CliOpts :=
  (pyMode a.errorMode).map (fun mode =>
    let o : CliOpts :=
      { delimiter := a.separator.getD 44, quote := a.quote.getD 34, hasHeader := a.hasHeader, threads := a.numThreads.getD 0, mode := mode }
    match a.maxErrors with
    | some n => o.withMaxErrors n
    | none => o)

/-- How a call ends: an exception, or a value (bindings.cpp:279, 303, 317, 369, 392, 414, 440). -/
inductive PyOut (α : Type) where
  | raise
  | value (v : α)

/-- `read_csv` (bindings.cpp:252-343) on a file with the bytes given (`none`: it cannot be mapped). The result is `none` if a typed value is
undefined behaviour (C17). -/
def readCsv (m : Machine) (a : PyArgs) (file : Option Bytes) : Option (PyOut PyTable) :=
  match a.csv, file with
  | none, _ => some .raise
  | _, none => some .raise
  | some c, some data =>
    let o := m.fileOpts c .zstd
    match openData o.infer o.sampleRows (ReaderState.new o.mode o.maxErrors) data with
    | (some _, _) => some .raise
    | (none, st) =>
      let conv := o.conv st data
      do
        let res ← readAll conv.read conv.schema.length conv.threshold conv.chunkSize data st.dataStart
        let chunks ← conv.typed res.chunks
        match chunks with
        | [cols] => some (.value ⟨st.schema, cols, res.totalRows⟩)
        | [] => some (.value ⟨st.schema, [], 0⟩)
        | cols :: _ => some (.value ⟨st.schema, cols, if cols = [] then 0 else res.totalRows⟩)

/-- Arguments of `to_parquet` besides the paths (bindings.cpp:346-351). -/
structure PyConvArgs where
  compression : Option Bytes := none
  rowGroupSize : Option Nat := none
  numThreads : Option Nat := none
  errorMode : Option Bytes := none
  maxErrors : Option Nat := none
deriving DecidableEq, Repr

/-- The codec (bindings.cpp:357-372); `none`: an exception. -/
def PyConvArgs.codec (a : PyConvArgs) : Option Compression :=
  match a.compression with
  | none => some .zstd
  | some s => compressionArg s

/-- The options `to_parquet` builds (bindings.cpp:352-403), or `none` if it raises. `num_threads` goes to `opts.threads`, which the conversion does not read
(csv_reader.cpp uses `opts.csv` and `opts.parquet` only); `row_group_size` goes to `opts.parquet.row_group_size`, which it does not read either. The remaining CSV
options keep their defaults. The compression names are those of the command line. -/
def PyConvArgs.plan (a : PyConvArgs) : Option (CliOpts × Compression) :=
  match a.codec with
  | none => none
  | some comp => (PyArgs.csv { errorMode := a.errorMode, maxErrors := a.maxErrors }).map (fun c => (c, comp))

/-- A call of `to_parquet` on an input file with the bytes `data`: how it ends, and the bytes of the output file if there is one
(bindings.cpp:346-422). -/
inductive ToParquet (m : Machine) (w : ConvWorld) (data : Bytes) (a : PyConvArgs) : PyOut Unit → Option (List UInt8) → Prop
  | refused : a.plan = none → ToParquet m w data a .raise none
  | converted {c comp r out} : a.plan = some (c, comp) → ConvertedFile (m.fileOpts c comp) w data r out →
      ToParquet m w data a (if r.ok then .value () else .raise) out

/-- `to_arrow_ipc` (bindings.cpp:425-442) calls `convert_csv_to_arrow_ipc` (arrow_ipc_writer.cpp:102-112), which ignores its arguments and reports an error:
the call raises, and no file is opened. -/
def toArrowIpc (_batchSize _numThreads : Option Nat) (_data : Option Bytes) : PyOut Unit × Option (List UInt8) :=
  let error := asc "Arrow IPC output not yet implemented. Use convert_csv_to_parquet() for columnar output. Arrow IPC requires FlatBuffers for metadata serialization."
  (if error = [] then .value () else .raise, none)

end Vroom
