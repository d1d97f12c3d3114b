import Verif.Spec.Race
/-
Which thread touches what, and how the threads synchronise, while a file is read and converted.
Sources: /repo/src/reader/csv_reader.cpp:516-713 (read_all), 927-1048 (convert: row groups),
/repo/src/writer/parquet_file.cpp:596-639 (encode_row_group), 653-689 (Impl), 925-1051 (destructor, write, pipeline),
/repo/src/writer/encoded_row_group_queue.h, /repo/src/writer/compression.cpp:24-48.

Simplifications.  At each point of its program a thread may touch the objects listed for that point in any order
and any number of times (more executions than the code has).  `BS::thread_pool` hands a task to some worker and a
future to the caller; its own locks are not modelled.  A worker may interleave tasks (again more executions).
A condition variable wait is: unlock, later lock again.
-/
namespace Vroom.Conc
open Race

/-- The calling thread, the writer thread (parquet_file.cpp:983) and the workers of the pools. -/
inductive Tid where
  | main
  | writer
  | worker (w : Nat)
deriving DecidableEq, Repr

/-- Shared objects.  A phase is a group of tasks handed to a pool and waited for: phase 0 analyses the chunks
(csv_reader.cpp:594-624), phase 1 parses them (656-702), phase `2 + g` encodes row group `g` (parquet_file.cpp:611-624). -/
inductive Loc where
  /-- what is fixed before the phases: file bytes, options, schema, the writer's schema and options -/
  | fixed
  /-- what task `i` of a phase works on: its captured values (phases 0 and 1), its column builder (encoding) -/
  | src (ph i : Nat)
  /-- what it produces: `analysis_results[i]`, `chunk_results[i]`, `result.columns[i]` -/
  | dst (ph i : Nat)
  /-- `queue_` and `closed_` of the hand-off queue (encoded_row_group_queue.h:63-68) -/
  | queue
  /-- the pointer `pipeline_queue_` (parquet_file.cpp:660) -/
  | queuePtr
  /-- `file`, `current_offset`, `row_groups`, `total_rows` (parquet_file.cpp:645-654) -/
  | file
  /-- `pipeline_error_message_` (parquet_file.cpp:663) -/
  | errorText
  /-- the thread-local compression buffer (compression.cpp:27-30) -/
  | tls (t : Tid)
deriving DecidableEq, Repr

/-- Where threads synchronise (csv_reader.cpp:595-624, 659-702, encoded_row_group_queue.h:21-56, parquet_file.cpp:662, 983, 1038). -/
inductive Syn where
  /-- handing task `i` to the pool -/
  | start (ph i : Nat)
  /-- its future -/
  | done (ph i : Nat)
  /-- `mutex_` of the queue -/
  | mutex
  /-- the atomic `pipeline_error_` -/
  | error
  /-- creation of the writer thread -/
  | spawn
  /-- its end -/
  | exit
deriving DecidableEq, Repr

/-- An access or synchronisation, csv_reader.cpp:516-713, parquet_file.cpp:596-639. -/
abbrev Evt := Event Tid Loc Syn

/-- Life of a task (csv_reader.cpp:600-624, 671-702, parquet_file.cpp:617-634). -/
inductive TaskSt where
  | none
  | queued
  | running (w : Nat)
  | finished
  /-- ended by an exception, kept in the future -/
  | threw
  /-- `get` has returned or rethrown -/
  | taken
deriving DecidableEq, Repr

/-- Where an encoded row group is (encoded_row_group_queue.h:21-46). -/
inductive GroupSt where
  | mine
  | queued
  | popped
deriving DecidableEq, Repr

/-- The calling thread (csv_reader.cpp:591-712, 960-1075). -/
inductive MainPC where
  /-- in the loop that submits the tasks of a phase, next task `i` -/
  | submit (ph i : Nat)
  /-- in the loop over the futures -/
  | get (ph i : Nat)
  /-- after the loops of a phase -/
  | between (ph : Nat)
  /-- about to submit row group `ph - 2`, or to finish the pipeline -/
  | check (ph : Nat)
  /-- in `push` with the mutex -/
  | pushing (ph : Nat)
  /-- the row group is in the queue, mutex still held -/
  | pushed (ph : Nat)
  /-- in `close` of the queue, called by `finish_pipeline` -/
  | closing
  | closed
  | joining
  /-- after `join`, before the error flag is read -/
  | joined
  /-- the pipeline is over, or there was none -/
  | after
  /-- `submit_row_group` has failed: the destructor of the writer runs `close` -/
  | failed
  /-- … and destroys the members of `Impl` -/
  | destroying
  /-- `get` has thrown: the vectors of the phase are destroyed -/
  | unwinding (ph : Nat)
deriving DecidableEq, Repr

/-- The writer thread (parquet_file.cpp:983-996). -/
inductive WrPC where
  | absent
  | created
  /-- about to lock the queue in `pop` -/
  | want
  | locked
  /-- an item is taken, mutex still held -/
  | took (ph : Nat)
  | writing (ph : Nat)
  /-- in the exception handler, error flag set -/
  | failing
  /-- in `close` of the queue -/
  | failLocked
  | failClosed
  /-- pop found the queue empty and closed, or the handler is through -/
  | ending
  | exited
  | joined
deriving DecidableEq, Repr

/-- Who has closed the queue (parquet_file.cpp:991, 1034). -/
inductive Closer where
  | nobody
  | main
  | writer
deriving DecidableEq, Repr

/-- The whole state: csv_reader.cpp:591-712, 960-1075, parquet_file.cpp:971-1051. -/
structure St where
  task : Nat → Nat → TaskSt
  group : Nat → GroupSt
  main : MainPC
  wr : WrPC
  lock : Option Tid
  /-- who has locked the queue last (no influence on the steps) -/
  last : Option Tid
  items : List Nat
  closer : Closer
  error : Bool

/-- csv_reader.cpp:602, 672, parquet_file.cpp:617. -/
def St.setTask (s : St) (ph i : Nat) (x : TaskSt) : St :=
  { s with task := fun p j => if p = ph ∧ j = i then x else s.task p j }
/-- parquet_file.cpp:1010-1021. -/
def St.setGroup (s : St) (ph : Nat) (x : GroupSt) : St :=
  { s with group := fun p => if p = ph then x else s.group p }

/-- Which phases' objects the calling thread can name besides those of the current phase: the analysis results and
the parsed chunks (csv_reader.cpp:627-664, 705-710, 984-1041).  An encoded row group is moved away (parquet_file.cpp:1021). -/
def named (ph cur : Nat) : Prop := ph < 2 ∧ ph < cur

/-- What the calling thread may touch (`wr = absent` while there is no pipeline) (csv_reader.cpp:591-712, 960-1075, parquet_file.cpp:596-639). -/
def mainMay (s : St) : Kind → Loc → Prop
  | _, .tls t => t = .main
  | k, .fixed => k = .read ∨ s.main = .after
  | _, .src ph i =>
    match s.main with
    | .submit cur j => named ph cur ∨ (ph = cur ∧ j ≤ i)          -- closures, builders before submission (csv_reader.cpp:600-604, 661-673)
    | .get cur _ => named ph cur                                   -- 619-623, 697-701: only `f.get()`
    | .between cur => named ph cur ∨ ph = cur
    | .check cur => named ph cur ∨ ph = cur                        -- building `accum` (csv_reader.cpp:1018-1036)
    | .after => True
    | .unwinding cur => ph = cur
    | _ => False
  | k, .dst ph i =>
    match s.main with
    | .submit cur j => named ph cur ∨ (ph = cur ∧ j ≤ i)
    | .get cur _ => named ph cur
    | .between cur => named ph cur ∨ ph = cur                      -- 627-651, 704-710; sums of sizes (parquet_file.cpp:632-636)
    | .check cur => named ph cur ∨ ph = cur
    | .pushing cur => ph = cur                                     -- moved into the queue (encoded_row_group_queue.h:28)
    | .after => ph < 2
    | .unwinding cur => ph = cur ∧ k = .write                      -- destruction (csv_reader.cpp:593, 655; parquet_file.cpp:602)
    | _ => False
  | k, .queue =>
    match s.main with
    | .pushing _ | .closing | .pushed _ | .closed => k = .read     -- predicates; writes are the steps `push` and `close`
    | _ => s.wr = .absent ∨ s.wr = .joined                          -- constructed (976), reset (1042)
  | k, .queuePtr => k = .read ∨ s.wr = .absent ∨ s.wr = .joined     -- 976, 1042
  | _, .file => s.wr = .absent ∨ s.main = .after ∨ s.main = .failed  -- open, write; close (1054-1112), also from the destructor (925-929)
  | _, .errorText => s.wr = .absent ∨ s.main = .after ∨ s.main = .destroying   -- 979; 1046; member destruction

/-- What task `i` of a phase may touch on worker `w` (csv_reader.cpp:602-617, 671-694, parquet_file.cpp:617-624). -/
def taskMay (ph i w : Nat) : Kind → Loc → Prop
  | k, .fixed => k = .read                                          -- data, options, schema
  | k, .src p j => p = ph ∧ j = i ∧ (k = .read ∨ ph < 2)             -- captured values; `*columns[i]` is const (parquet_file.cpp:618)
  | _, .dst p j => p = ph ∧ j = i                                   -- csv_reader.cpp:613-616, 680-693; parquet_file.cpp:618
  | _, .tls t => t = .worker w
  | _, _ => False

/-- What the writer thread may touch (parquet_file.cpp:983-996, 695-771). -/
def writerMay (s : St) : Kind → Loc → Prop
  | _, .file => ∃ ph, s.wr = .writing ph                             -- write_encoded_row_group (695-776)
  | _, .dst ph _ => s.wr = .took ph ∨ s.wr = .writing ph             -- moved out of the queue, read, destroyed (985-996)
  | k, .queue => k = .read ∧ (s.wr = .locked ∨ ∃ ph, s.wr = .took ph)
  | k, .queuePtr => k = .read ∧ s.wr ≠ .absent ∧ s.wr ≠ .created ∧ s.wr ≠ .exited ∧ s.wr ≠ .joined
  | _, .errorText => s.wr = .failing                                -- 990
  | _, .tls t => t = .writer ∧ s.wr = .want
  | _, _ => False

/-- One step.  `n ph` is the number of tasks of phase `ph` (a single column is encoded by the calling thread itself,
parquet_file.cpp:625-630: `n ph = 0`), `groups` the number of row groups. -/
inductive Step (n : Nat → Nat) (groups : Nat) : St → Option Evt → St → Prop
  | mainAcc (s k l) (h : mainMay s k l) : Step n groups s (some ⟨.main, .acc k l⟩) s
  /-- `pool.submit_task` -/
  | submit (s ph i) (h : s.main = .submit ph i) (hi : i < n ph) :
      Step n groups s (some ⟨.main, .rel (.start ph i)⟩) { s.setTask ph i .queued with main := .submit ph (i + 1) }
  | submitted (s ph i) (h : s.main = .submit ph i) (hi : n ph ≤ i) : Step n groups s none { s with main := .get ph 0 }
  /-- a worker begins a task -/
  | begin (s ph i w) (h : s.task ph i = .queued) :
      Step n groups s (some ⟨.worker w, .acq (.start ph i)⟩) (s.setTask ph i (.running w))
  | taskAcc (s ph i w k l) (h : s.task ph i = .running w) (hm : taskMay ph i w k l) : Step n groups s (some ⟨.worker w, .acc k l⟩) s
  | finish (s ph i w) (h : s.task ph i = .running w) :
      Step n groups s (some ⟨.worker w, .rel (.done ph i)⟩) (s.setTask ph i .finished)
  | throw (s ph i w) (h : s.task ph i = .running w) :
      Step n groups s (some ⟨.worker w, .rel (.done ph i)⟩) (s.setTask ph i .threw)
  /-- `f.get()` -/
  | get (s ph i) (h : s.main = .get ph i) (hi : i < n ph) (ht : s.task ph i = .finished) :
      Step n groups s (some ⟨.main, .acq (.done ph i)⟩) { s.setTask ph i .taken with main := .get ph (i + 1) }
  | getThrows (s ph i) (h : s.main = .get ph i) (hi : i < n ph) (ht : s.task ph i = .threw) :
      Step n groups s (some ⟨.main, .acq (.done ph i)⟩) { s.setTask ph i .taken with main := .unwinding ph }
  | got (s ph i) (h : s.main = .get ph i) (hi : n ph ≤ i) : Step n groups s none { s with main := .between ph }
  | analysed (s) (h : s.main = .between 0) : Step n groups s none { s with main := .submit 1 0 }
  /-- no row group, or only one: `write` without pipeline (csv_reader.cpp:963-971) -/
  | direct (s) (h : s.main = .between 1) (hg : groups = 1) : Step n groups s none { s with main := .submit 2 0 }
  | nothing (s) (h : s.main = .between 1) (hg : groups = 0) : Step n groups s none { s with main := .after }
  | directDone (s) (h : s.main = .between 2) (hw : s.wr = .absent) : Step n groups s none { s with main := .after }
  /-- `start_pipeline` (parquet_file.cpp:971-1000) -/
  | spawn (s) (h : s.main = .between 1) :
      Step n groups s (some ⟨.main, .rel .spawn⟩) { s with main := .check 2, wr := .created, lock := none, last := none, items := [], closer := .nobody }
  /-- the error flag is read (1008): not set … -/
  | checkOk (s ph) (h : s.main = .check ph) (hp : ph < groups + 2) (he : s.error = false) :
      Step n groups s (some ⟨.main, .acq .error⟩) { s with main := .submit ph 0 }
  /-- … or set -/
  | checkBad (s ph) (h : s.main = .check ph) (hp : ph < groups + 2) (he : s.error = true) :
      Step n groups s (some ⟨.main, .acq .error⟩) { s with main := .failed }
  /-- `push` (encoded_row_group_queue.h:21-31) -/
  | pushLock (s ph) (h : s.main = .between ph) (hp : 2 ≤ ph) (hw : s.wr ≠ .absent) (hl : s.lock = none) :
      Step n groups s (some ⟨.main, .acq .mutex⟩) { s with main := .pushing ph, lock := some .main, last := some .main }
  | pushWait (s ph) (h : s.main = .pushing ph) (hf : 4 ≤ s.items.length) (hc : s.closer = .nobody) :
      Step n groups s (some ⟨.main, .rel .mutex⟩) { s with main := .between ph, lock := none }
  | pushRefused (s ph) (h : s.main = .pushing ph) (hc : s.closer ≠ .nobody) :
      Step n groups s (some ⟨.main, .rel .mutex⟩) { s with main := .failed, lock := none }
  | push (s ph) (h : s.main = .pushing ph) (hf : s.items.length < 4) (hc : s.closer = .nobody) :
      Step n groups s (some ⟨.main, .acc .write .queue⟩) { s.setGroup ph .queued with main := .pushed ph, items := s.items ++ [ph] }
  | pushUnlock (s ph) (h : s.main = .pushed ph) :
      Step n groups s (some ⟨.main, .rel .mutex⟩) { s with main := .check (ph + 1), lock := none }
  /-- `finish_pipeline` (1028-1051): close -/
  | closeLock (s) (h : s.main = .check (groups + 2)) (hl : s.lock = none) :
      Step n groups s (some ⟨.main, .acq .mutex⟩) { s with main := .closing, lock := some .main, last := some .main }
  | close (s) (h : s.main = .closing) :
      Step n groups s (some ⟨.main, .acc .write .queue⟩) { s with main := .closed, closer := if s.closer = .writer then .writer else .main }
  | closeUnlock (s) (h : s.main = .closed) : Step n groups s (some ⟨.main, .rel .mutex⟩) { s with main := .joining, lock := none }
  | join (s) (h : s.main = .joining) (hw : s.wr = .exited) :
      Step n groups s (some ⟨.main, .acq .exit⟩) { s with main := .joined, wr := .joined }
  | readFlag (s) (h : s.main = .joined) : Step n groups s (some ⟨.main, .acq .error⟩) { s with main := .after }
  /-- after the destructor's `close`: the members of `Impl` -/
  | destroy (s) (h : s.main = .failed) : Step n groups s none { s with main := .destroying }
  /-- the writer thread begins -/
  | wStart (s) (h : s.wr = .created) : Step n groups s (some ⟨.writer, .acq .spawn⟩) { s with wr := .want }
  | wAcc (s k l) (h : writerMay s k l) : Step n groups s (some ⟨.writer, .acc k l⟩) s
  /-- `pop` (encoded_row_group_queue.h:35-46) -/
  | wLock (s) (h : s.wr = .want) (hl : s.lock = none) :
      Step n groups s (some ⟨.writer, .acq .mutex⟩) { s with wr := .locked, lock := some .writer, last := some .writer }
  | wWait (s) (h : s.wr = .locked) (hi : s.items = []) (hc : s.closer = .nobody) :
      Step n groups s (some ⟨.writer, .rel .mutex⟩) { s with wr := .want, lock := none }
  | wEmpty (s) (h : s.wr = .locked) (hi : s.items = []) (hc : s.closer ≠ .nobody) :
      Step n groups s (some ⟨.writer, .rel .mutex⟩) { s with wr := .ending, lock := none }
  | wPop (s ph rest) (h : s.wr = .locked) (hi : s.items = ph :: rest) :
      Step n groups s (some ⟨.writer, .acc .write .queue⟩) { s.setGroup ph .popped with wr := .took ph, items := rest }
  | wUnlock (s ph) (h : s.wr = .took ph) : Step n groups s (some ⟨.writer, .rel .mutex⟩) { s with wr := .writing ph, lock := none }
  | wWritten (s ph) (h : s.wr = .writing ph) : Step n groups s none { s with wr := .want }
  /-- `pipeline_error_ = true` (989) -/
  | wFail (s ph) (h : s.wr = .writing ph) : Step n groups s (some ⟨.writer, .rel .error⟩) { s with wr := .failing, error := true }
  /-- `close` (992) -/
  | wFailLock (s) (h : s.wr = .failing) (hl : s.lock = none) :
      Step n groups s (some ⟨.writer, .acq .mutex⟩) { s with wr := .failLocked, lock := some .writer, last := some .writer }
  | wFailClose (s) (h : s.wr = .failLocked) : Step n groups s (some ⟨.writer, .acc .write .queue⟩) { s with wr := .failClosed, closer := .writer }
  | wFailUnlock (s) (h : s.wr = .failClosed) : Step n groups s (some ⟨.writer, .rel .mutex⟩) { s with wr := .ending, lock := none }
  | wExit (s) (h : s.wr = .ending) : Step n groups s (some ⟨.writer, .rel .exit⟩) { s with wr := .exited }

/-- `read_all` about to submit the analysis tasks; nothing has happened yet (csv_reader.cpp:591-600). -/
def Start (s : St) : Prop :=
  s = ⟨fun _ _ => .none, fun _ => .mine, .submit 0 0, .absent, none, none, [], .nobody, false⟩

end Vroom.Conc
