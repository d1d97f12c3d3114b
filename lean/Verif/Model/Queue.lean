/-
Model of the hand-off queue between encoder and writer, and of the pipeline built on it.
Sources: /repo/src/writer/encoded_row_group_queue.h:15-70,
         /repo/src/writer/parquet_file.cpp:971-1051 (start_pipeline, submit_row_group, finish_pipeline),
         /repo/src/reader/csv_reader.cpp:972-1059 (use by convert_csv_to_parquet).

Granularity: every access to the queue is made under its mutex, so one critical section (from
acquiring the mutex to releasing it, by return or by blocking inside `wait`) is one atomic step.
Condition variables: a thread blocked in `wait` leaves it only by a notification or by a spurious
wake-up, and then must run its predicate again under the mutex.
-/
namespace Vroom

/-- Data of `EncodedRowGroupQueue` (encoded_row_group_queue.h:62-67). -/
structure RgQueue (α : Type) where
  items : List α
  closed : Bool
deriving Repr

/-- `[this]{ return queue_.size() < max_size_ || closed_; }` (line 23) (encoded_row_group_queue.h:23). -/
def RgQueue.pushReady {α} (cap : Nat) (q : RgQueue α) : Bool := q.items.length < cap || q.closed

/-- `[this]{ return !queue_.empty() || closed_; }` (line 37) (encoded_row_group_queue.h:37). -/
def RgQueue.popReady {α} (q : RgQueue α) : Bool := !q.items.isEmpty || q.closed

/-- `queue_.push(...)` (line 28) (encoded_row_group_queue.h:28). -/
def RgQueue.enqueue {α} (q : RgQueue α) (x : α) : RgQueue α := { q with items := q.items ++ [x] }

/-- What a thread using the queue is doing (encoded_row_group_queue.h:21-56: where a call stands). -/
inductive QPC (α : Type) where
  /-- outside the queue -/
  | idle
  /-- in `push(x)`, about to (re)take the mutex and evaluate the predicate -/
  | wantPush (x : α)
  /-- blocked in `not_full_.wait` -/
  | waitPush (x : α)
  | wantPop
  /-- blocked in `not_empty_.wait` -/
  | waitPop

/-- Waiting at encoded_row_group_queue.h:23. -/
def QPC.isWaitPush {α} : QPC α → Bool | .waitPush _ => true | _ => false
/-- Waiting at encoded_row_group_queue.h:37. -/
def QPC.isWaitPop {α} : QPC α → Bool | .waitPop => true | _ => false
/-- Before encoded_row_group_queue.h:21-31. -/
def QPC.isWantPush {α} : QPC α → Bool | .wantPush _ => true | _ => false
/-- Before encoded_row_group_queue.h:35-46. -/
def QPC.isWantPop {α} : QPC α → Bool | .wantPop => true | _ => false

/-- Leaving a wait: the predicate is evaluated again (encoded_row_group_queue.h:23, 37). -/
def QPC.wake {α} : QPC α → QPC α | .waitPush x => .wantPush x | .waitPop => .wantPop | p => p

/-- Results observed by the callers, in the order of the critical sections (encoded_row_group_queue.h:21-56: return values). -/
inductive QEvent (α : Type) where
  /-- `push(x)` returned true -/
  | accepted (x : α)
  /-- `push(x)` returned false -/
  | refused (x : α)
  /-- `pop()` returned `x` -/
  | popped (x : α)
  /-- `pop()` returned nullopt -/
  | exhausted
  /-- `close()` was called -/
  | closed
deriving Repr

/-- A queue and the threads that use it, encoded_row_group_queue.h:15-70. -/
structure QState (α : Type) where
  q : RgQueue α
  threads : List (QPC α)

/-- `notify_one` on the condition variable whose waiters satisfy `p`: wakes one of them (the choice
is the implementation's) if there is one (encoded_row_group_queue.h:29, 44; C++ library). -/
inductive NotifyOne {α : Type} (p : QPC α → Bool) : List (QPC α) → List (QPC α) → Prop
  | none (ts) (h : ∀ t ∈ ts, p t = false) : NotifyOne p ts ts
  | one (ts) (w : Nat) (t : QPC α) (h : ts[w]? = some t) (hp : p t = true) : NotifyOne p ts (ts.set w t.wake)

/-- One step of one of the threads; `some e` when a call completes (encoded_row_group_queue.h:21-56). -/
inductive QStep {α : Type} (cap : Nat) : QState α → Option (QEvent α) → QState α → Prop
  | callPush (q ts) (i : Nat) (x : α) (h : ts[i]? = some .idle) :
      QStep cap ⟨q, ts⟩ none ⟨q, ts.set i (.wantPush x)⟩
  | callPop (q ts) (i : Nat) (h : ts[i]? = some .idle) : QStep cap ⟨q, ts⟩ none ⟨q, ts.set i .wantPop⟩
  /-- `close()` (lines 50-55): `notify_all` on both variables -/
  | close (q ts) (i : Nat) (h : ts[i]? = some .idle) :
      QStep cap ⟨q, ts⟩ (some .closed) ⟨{ q with closed := true }, ts.map QPC.wake⟩
  /-- predicate of `push` false: block (line 23) -/
  | pushBlock (q ts) (i : Nat) (x : α) (h : ts[i]? = some (.wantPush x)) (hr : q.pushReady cap = false) :
      QStep cap ⟨q, ts⟩ none ⟨q, ts.set i (.waitPush x)⟩
  /-- `if (closed_) return false` (lines 25-26) -/
  | pushRefuse (q ts) (i : Nat) (x : α) (h : ts[i]? = some (.wantPush x)) (hr : q.pushReady cap = true) (hc : q.closed = true) :
      QStep cap ⟨q, ts⟩ (some (.refused x)) ⟨q, ts.set i .idle⟩
  /-- enqueue and `not_empty_.notify_one()` (lines 28-30) -/
  | pushAccept (q ts ts') (i : Nat) (x : α) (h : ts[i]? = some (.wantPush x)) (hr : q.pushReady cap = true) (hc : q.closed = false)
      (hn : NotifyOne QPC.isWaitPop (ts.set i .idle) ts') :
      QStep cap ⟨q, ts⟩ (some (.accepted x)) ⟨q.enqueue x, ts'⟩
  /-- predicate of `pop` false: block (line 37) -/
  | popBlock (q ts) (i : Nat) (h : ts[i]? = some .wantPop) (hr : q.popReady = false) :
      QStep cap ⟨q, ts⟩ none ⟨q, ts.set i .waitPop⟩
  /-- `if (queue_.empty()) return nullopt` (lines 39-40) -/
  | popNone (q ts) (i : Nat) (h : ts[i]? = some .wantPop) (hr : q.popReady = true) (he : q.items = []) :
      QStep cap ⟨q, ts⟩ (some .exhausted) ⟨q, ts.set i .idle⟩
  /-- take the front and `not_full_.notify_one()` (lines 42-45) -/
  | popSome (c ts ts') (i : Nat) (x : α) (rest : List α) (h : ts[i]? = some .wantPop)
      (hn : NotifyOne QPC.isWaitPush (ts.set i .idle) ts') :
      QStep cap ⟨⟨x :: rest, c⟩, ts⟩ (some (.popped x)) ⟨⟨rest, c⟩, ts'⟩
  /-- spurious wake-up of any blocked thread -/
  | spurious (q ts) (i : Nat) (t : QPC α) (h : ts[i]? = some t) : QStep cap ⟨q, ts⟩ none ⟨q, ts.set i t.wake⟩

/-- `QRun cap n log s`: from a fresh queue used by `n` threads, some interleaving produced the
observable results `log` (oldest first) and led to `s` (encoded_row_group_queue.h:15-70). -/
inductive QRun {α : Type} (cap n : Nat) : List (QEvent α) → QState α → Prop
  | start : QRun cap n [] ⟨⟨[], false⟩, List.replicate n .idle⟩
  | step {log s e s'} : QRun cap n log s → QStep cap s e s' → QRun cap n (log ++ e.toList) s'

/-! ### The pipeline of `convert_csv_to_parquet` -/

/-- The converting thread (csv_reader.cpp:967-1072, parquet_file.cpp:1001-1051). -/
inductive ProdPC (α : Type) where
  /-- about to call `submit_row_group` for the next row group, or `finish_pipeline` if none is left -/
  | submit (todo : List α)
  | wantPush (x : α) (todo : List α)
  | waitPush (x : α) (todo : List α)
  /-- in `finish_pipeline`, queue closed, waiting in `join` -/
  | joining
  /-- `finish_pipeline` returned -/
  | finished (ok : Bool)
  /-- `submit_row_group` returned an error: the converter returns without `finish_pipeline`, the
  writer object is destroyed while its `std::thread` may still be joinable -/
  | submitFailed
deriving DecidableEq

/-- The writer thread (parquet_file.cpp:983-996). -/
inductive ConsPC (α : Type) where
  | wantPop
  | waitPop
  /-- in `write_encoded_row_group` -/
  | writing (x : α)
  /-- the write threw: `pipeline_error_ = true` done, queue not yet closed -/
  | errorSet
  | exited
deriving DecidableEq

/-- The two threads and the queue, parquet_file.cpp:971-1051. -/
structure PipeState (α : Type) where
  q : RgQueue α
  prod : ProdPC α
  cons : ConsPC α
  /-- row groups written to the file, in order -/
  written : List α
  /-- `pipeline_error_` -/
  error : Bool

/-- encoded_row_group_queue.h:23. -/
def ProdPC.wake {α} : ProdPC α → ProdPC α | .waitPush x todo => .wantPush x todo | p => p
/-- encoded_row_group_queue.h:37. -/
def ConsPC.wake {α} : ConsPC α → ConsPC α | .waitPop => .wantPop | p => p

/-- Steps of the two threads.  `Bool` = false for spurious wake-ups (csv_reader.cpp:967-1072, parquet_file.cpp:971-1051). -/
inductive PipeStep {α : Type} (cap : Nat) : Bool → PipeState α → PipeState α → Prop
  /-- submit_row_group sees `pipeline_error_` (parquet_file.cpp:1009-1011) -/
  | submitErr (q c w) (x : α) (todo) : PipeStep cap true ⟨q, .submit (x :: todo), c, w, true⟩ ⟨q, .submitFailed, c, w, true⟩
  /-- encode and call push (1017-1022) -/
  | submit (q c w) (x : α) (todo) : PipeStep cap true ⟨q, .submit (x :: todo), c, w, false⟩ ⟨q, .wantPush x todo, c, w, false⟩
  | pushBlock (q c w e) (x : α) (todo) (hr : q.pushReady cap = false) :
      PipeStep cap true ⟨q, .wantPush x todo, c, w, e⟩ ⟨q, .waitPush x todo, c, w, e⟩
  | pushRefuse (q c w e) (x : α) (todo) (hr : q.pushReady cap = true) (hc : q.closed = true) :
      PipeStep cap true ⟨q, .wantPush x todo, c, w, e⟩ ⟨q, .submitFailed, c, w, e⟩
  | pushAccept (q c w e) (x : α) (todo) (hr : q.pushReady cap = true) (hc : q.closed = false) :
      PipeStep cap true ⟨q, .wantPush x todo, c, w, e⟩ ⟨q.enqueue x, .submit todo, c.wake, w, e⟩
  /-- finish_pipeline: close (1033-1034) -/
  | finish (q c w e) : PipeStep cap true ⟨q, .submit [], c, w, e⟩ ⟨{ q with closed := true }, .joining, c.wake, w, e⟩
  /-- join returns, result from `pipeline_error_` (1036-1050) -/
  | join (q w e) : PipeStep cap true ⟨q, .joining, .exited, w, e⟩ ⟨q, .finished (!e), .exited, w, e⟩
  | popBlock (q p w e) (hr : q.popReady = false) : PipeStep cap true ⟨q, p, .wantPop, w, e⟩ ⟨q, p, .waitPop, w, e⟩
  /-- `while (auto encoded = pop())` ends (985) -/
  | popNone (q p w e) (hr : q.popReady = true) (he : q.items = []) : PipeStep cap true ⟨q, p, .wantPop, w, e⟩ ⟨q, p, .exited, w, e⟩
  | popSome (cl p w e) (x : α) (rest) : PipeStep cap true ⟨⟨x :: rest, cl⟩, p, .wantPop, w, e⟩ ⟨⟨rest, cl⟩, p.wake, .writing x, w, e⟩
  | writeOk (q p w e) (x : α) : PipeStep cap true ⟨q, p, .writing x, w, e⟩ ⟨q, p, .wantPop, w ++ [x], e⟩
  /-- the write throws (988-990) -/
  | writeThrows (q p w e) (x : α) : PipeStep cap true ⟨q, p, .writing x, w, e⟩ ⟨q, p, .errorSet, w, true⟩
  /-- close and leave the loop (992-993) -/
  | errClose (q p w e) : PipeStep cap true ⟨q, p, .errorSet, w, e⟩ ⟨{ q with closed := true }, p.wake, .exited, w, e⟩
  | spuriousP (q p c w e) : PipeStep cap false ⟨q, p, c, w, e⟩ ⟨q, p.wake, c, w, e⟩
  | spuriousC (q p c w e) : PipeStep cap false ⟨q, p, c, w, e⟩ ⟨q, p, c.wake, w, e⟩

/-- `start_pipeline` followed by the submit loop over `todo` (parquet_file.cpp:971-998, csv_reader.cpp:972-1059). -/
def PipeState.start {α} (todo : List α) : PipeState α :=
  { q := ⟨[], false⟩, prod := .submit todo, cons := .wantPop, written := [], error := false }

/-- Any interleaving, with the number of real steps and the number of spurious wake-ups (csv_reader.cpp:967-1072, parquet_file.cpp:971-1051). -/
inductive PipeRun {α : Type} (cap : Nat) (todo : List α) : Nat → Nat → PipeState α → Prop
  | start : PipeRun cap todo 0 0 (PipeState.start todo)
  | step {n k s b s'} : PipeRun cap todo n k s → PipeStep cap b s s' →
      PipeRun cap todo (n + b.toNat) (k + (!b).toNat) s'

end Vroom
