import Verif.Model.ParquetFile
/-
The public calls of ParquetWriter as a state machine (parquet_file.cpp:921-969, 1052-1114), including calls in
an unexpected order.  The pipeline calls are modelled in `Verif.Model.Queue` / `Verif.Model.Convert`.
-/
namespace Vroom

/-- A writer object: `PWriter` plus the state of its `std::ofstream`.  `bad` is the stream's fail bit: with it
set, `write` on the stream does nothing (and nobody looks, parquet_file.cpp:686-689). -/
structure WriterObj where
  w : PWriter := {}
  streamOpen : Bool := false
  bad : Bool := false

/-- What the caller does.  `diskOk`: the path can be opened for writing (parquet_file.cpp:921-969, 1052-1114). -/
inductive WCall where
  | openPath (diskOk : Bool)
  | setSchema (schema : List ColSchema)
  | write (cols : List ArrowColumn)
  | close
  | destroy

/-- Apply a change of the writer through the stream: with the fail bit set the bytes on disk stay what they are (parquet_file.cpp:686-689). -/
def WriterObj.through (o : WriterObj) (w : PWriter) : WriterObj :=
  { o with w := if o.bad then { w with file := o.w.file } else w }

/-- One call: the answer (`true` = success) and the object afterwards; `none` = an encoder overran its buffer.
`std::ofstream::open` on a stream that is already open only sets the fail bit, `is_open()` stays true; on
success it clears the state (parquet_file.cpp:931-944). -/
def WriterObj.call (env : WEnv) (o : WriterObj) : WCall → Option (Bool × WriterObj)
  | .openPath diskOk =>
    if o.streamOpen then
      let o := { o with bad := true }
      some (true, o.through { (o.w.writeBytes PWriter.magic) with isOpen := true })
    else if diskOk then some (true, { w := o.w.openFile, streamOpen := true, bad := false })
    else some (false, { o with bad := true })
  | .setSchema s => some (true, { o with w := { o.w with schema := s } })
  | .write cols =>
    if o.w.isOpen = false then some (false, o)
    else (o.w.write env cols).map (fun w => (true, o.through w))
  | .close =>
    if o.w.isOpen = false then some (true, o)
    else some (true, { o.through o.w.close with streamOpen := false })
  | .destroy =>
    if o.w.isOpen = false then some (true, o)
    else some (true, { o.through o.w.close with streamOpen := false })

/-- A sequence of calls with their answers (not code of /repo: a program that uses a writer). -/
def WriterObj.run (env : WEnv) (o : WriterObj) : List WCall → Option (List Bool × WriterObj)
  | [] => some ([], o)
  | c :: cs => do
    let (a, o) ← o.call env c
    let (as, o) ← o.run env cs
    return (a :: as, o)

end Vroom
