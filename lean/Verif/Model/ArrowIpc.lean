/-
Model of the Arrow IPC output: /repo/src/writer/arrow_ipc_writer.cpp (whole file), /repo/include/libvroom/arrow_ipc_writer.h:51-60 and
`to_arrow_ipc` of /repo/python/src/bindings.cpp:425-442.
-/
namespace Vroom

/-- What is stored at each path; `none`: no such file.  Paths are opaque (not code of /repo: the file system under arrow_ipc_writer.cpp). -/
abbrev Disk (Path : Type) := Path → Option (List UInt8)

/-- `ArrowIpcResult` (arrow_ipc_writer.h:51-60). -/
structure IpcResult where
  error : String := ""
  rows : Nat := 0
  batches : Nat := 0
  bytes : Nat := 0
deriving DecidableEq, Repr

/-- `ArrowIpcResult::ok` (arrow_ipc_writer.h:56). -/
def IpcResult.ok (r : IpcResult) : Bool := r.error.isEmpty

/-- `ArrowIpcWriter::Impl` (arrow_ipc_writer.cpp:27-35).  `stream` is the path the `std::ofstream` has open, if any; the schema and the options are stored and never read. -/
structure IpcWriter (Path : Type) where
  stream : Option Path := none
  isOpen : Bool := false
  rows : Nat := 0
  batches : Nat := 0
  bytes : Nat := 0

/-- The public calls; the arguments that the code marks `maybe_unused` (columns, chunks) are kept so that a caller's data appear in the statements.
`creatable` is what the operating system answers to the attempt to open the path for writing (arrow_ipc_writer.h:74-110, arrow_ipc_writer.cpp:27-95). -/
inductive IpcCall (Path Data : Type) where
  | openPath (path : Path) (creatable : Bool)
  | setSchema
  | writeBatch (columns : Data)
  | writeChunks (chunks : Data)
  | close
  | isOpen

/-- Answers: `Result<bool>` (success or a message), an `ArrowIpcResult`, a truth value, or nothing (arrow_ipc_writer.h:51-60). -/
inductive IpcAnswer where
  | result (r : Except String Unit)
  | closed (r : IpcResult)
  | flag (b : Bool)
  | unit

/-- The message of arrow_ipc_writer.cpp:67-71, 74-78. -/
def ipcNotImplemented : String :=
  "Arrow IPC writer not yet implemented. Use to_parquet() for columnar output, or implement FlatBuffers serialization."

/-- One call (arrow_ipc_writer.cpp:50-95).  `std::ofstream::open` truncates the file; on a stream that is open already it only sets the fail bit, so that
`is_open()` still answers true and the new path is left alone (arrow_ipc_writer.cpp:50-57).  Nothing is ever written to the stream. -/
def IpcWriter.call {Path Data : Type} [DecidableEq Path] (w : IpcWriter Path) (d : Disk Path) :
    IpcCall Path Data → IpcAnswer × IpcWriter Path × Disk Path
  | .openPath p creatable =>
    match w.stream with
    | some _ => (.result (.ok ()), { w with isOpen := true }, d)
    | none =>
      if creatable then (.result (.ok ()), { w with stream := some p, isOpen := true }, fun q => if q = p then some [] else d q)
      else (.result (.error "Failed to open file: "), w, d)
  | .setSchema => (.unit, w, d)
  | .writeBatch _ => (.result (.error ipcNotImplemented), w, d)
  | .writeChunks _ => (.result (.error ipcNotImplemented), w, d)
  | .close =>
    let r : IpcResult := { rows := w.rows, batches := w.batches, bytes := w.bytes }
    if w.isOpen then (.closed r, { w with stream := none, isOpen := false }, d) else (.closed r, w, d)
  | .isOpen => (.flag w.isOpen, w, d)

/-- A sequence of calls (not code of /repo: a program that calls arrow_ipc_writer.cpp:50-95). -/
def IpcWriter.run {Path Data : Type} [DecidableEq Path] (w : IpcWriter Path) (d : Disk Path) :
    List (IpcCall Path Data) → List IpcAnswer × IpcWriter Path × Disk Path
  | [] => ([], w, d)
  | c :: cs =>
    let (a, w, d) := w.call d c
    let (as, w, d) := w.run d cs
    (a :: as, w, d)

/-- `convert_csv_to_arrow_ipc` (arrow_ipc_writer.cpp:103-112): no argument is looked at. -/
def convertCsvToArrowIpc {Path Opts : Type} (_csv _arrow : Path) (_opts : Opts) (d : Disk Path) : IpcResult × Disk Path :=
  ({ error := "Arrow IPC output not yet implemented. Use convert_csv_to_parquet() for columnar output. Arrow IPC requires FlatBuffers for metadata serialization." }, d)

/-- `to_arrow_ipc` (bindings.cpp:425-442): `error` is the exception thrown to Python. -/
def pyToArrowIpc {Path Opts : Type} (input output : Path) (opts : Opts) (d : Disk Path) : Except String Unit × Disk Path :=
  let (r, d) := convertCsvToArrowIpc input output opts d
  if r.ok then (.ok (), d) else (.error r.error, d)

end Vroom
