import Verif.Model.ConvertFile
import Verif.Model.CliArgs
/-
The output stream of the Parquet writer on a device that may be full, and a process that may be killed at any moment.
Sources: /repo/src/writer/parquet_file.cpp:645 (`std::ofstream file`), 686-689 (`write_bytes`), 930-948 (`open`), 1055-1114 (`close`).  The code tests `is_open()` after `open`
and nothing else: `file.write` and `file.close` report failures in the state of the stream, which is never looked at.  So the calls a writer makes, the offsets it records and
the results it returns are those of the run without faults (`PWriter`); what differs is the content of the device.
-/
namespace Vroom

/-- `std::ofstream` with its buffer: bytes on the device, bytes still in the buffer, `badbit`, and the number of bytes the device can still take (C++ library and operating system; the member `file_` of parquet_file.cpp:645). -/
structure OStream where
  disk : Bytes := []
  buf : Bytes := []
  bad : Bool := false
  room : Nat
deriving DecidableEq, Repr

/-- `file.write` (parquet_file.cpp:687): after a failure nothing is accepted any more. -/
def OStream.write (s : OStream) (bs : Bytes) : OStream := if s.bad then s else { s with buf := s.buf ++ bs }

/-- The stream hands bytes of its buffer to the device: some of them, or as many as fit, which is an error if they are not all (not code of /repo: the stream buffer under parquet_file.cpp:686-689). -/
inductive OStep : OStream → OStream → Prop
  | flush (s : OStream) (k : Nat) (hb : s.bad = false) (hk : k ≤ s.buf.length) (hr : k ≤ s.room) :
      OStep s { s with disk := s.disk ++ s.buf.take k, buf := s.buf.drop k, room := s.room - k }
  | full (s : OStream) (hb : s.bad = false) (hr : s.room < s.buf.length) :
      OStep s { s with disk := s.disk ++ s.buf.take s.room, room := 0, bad := true }

/-- `file.close` (parquet_file.cpp:1110): the rest of the buffer is handed over (again, after an error), as far as there is room. -/
def OStream.close (s : OStream) : OStream :=
  { s with disk := s.disk ++ (if s.bad then [] else s.buf.take s.room), buf := [], room := s.room - s.buf.length, bad := s.bad || decide (s.room < s.buf.length) }

/-- `Streamed cap ps s`: a stream opened on a device with room for `cap` bytes, after `write` calls for the pieces `ps`, with the buffer handed over whenever the stream sees fit (parquet_file.cpp:686-689 under some buffering). -/
inductive Streamed (cap : Nat) : List Bytes → OStream → Prop
  | opened : Streamed cap [] { room := cap }
  | write {ps s} (b : Bytes) : Streamed cap ps s → Streamed cap (ps ++ [b]) (s.write b)
  | step {ps s s'} : Streamed cap ps s → OStep s s' → Streamed cap ps s'

/-- The device after a conversion that returned, when there was room for `cap` bytes: result and content.  The writer passes its bytes in pieces (parquet_file.cpp:931-1114 on a device). -/
inductive ConvertedOn (cap : Nat) (o : FileOpts) (w : ConvWorld) (data : Bytes) : ConvResult → Bytes → Prop
  | mk {r file ps s} : ConvertedFile o w data r (some file) → ps.flatten = file → Streamed cap ps s → ConvertedOn cap o w data r s.close.disk

/-- The device when the process is killed during a conversion that was going to write `file`: the bytes passed so far are the first ones of `file` (`C90_append_only`) (not code of /repo: a crash point of parquet_file.cpp:931-1114). -/
inductive Killed (cap : Nat) (o : FileOpts) (w : ConvWorld) (data : Bytes) : Bytes → Bytes → Prop
  | mk {r file ps s} : ConvertedFile o w data r (some file) → ps.flatten <+: file → Streamed cap ps s → Killed cap o w data file s.disk

/-- `vroom convert` when the device of the output has room for `cap` bytes (cli.cpp `cmd_convert`; `VroomConverts` in `Verif.Model.CliArgs`): exit code and content of the device. -/
inductive VroomConvertsOn (cap : Nat) (m : Machine) (w : ConvWorld) (data : Bytes) (args : List Bytes) : Nat → Bytes → Prop
  | mk {o c r disk} (hadErrors : Bool) : mainPlan m args = .convert (.run o c) → ConvertedOn cap (m.fileOpts o.common c) w data r disk →
      (r.ok = true → hadErrors = !((openData (m.fileOpts o.common c).infer 1000 (ReaderState.new o.common.mode o.common.maxErrors) data).2.collector.errors).isEmpty) →
      VroomConvertsOn cap m w data args (convertExit o.common.mode r hadErrors) disk

end Vroom
