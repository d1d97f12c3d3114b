import Verif.Model.Reader
/-
Model of the worker-pool phases of `read_all`.
Source: /repo/src/reader/csv_reader.cpp:575-712

Each submitted task reads only immutable data (the file bytes, a by-value copy of the options, the
schema) and writes only its own slot `analysis_results[chunk_idx]` / `chunk_results[chunk_idx]`.
`pool.submit_task` + `future.get()` on every future is a barrier.  A global step is one step of one
task chosen by the scheduler, or a step of the calling thread.  The scheduler is arbitrary; the
number of pool threads only restricts which tasks may be running, i.e. the set of schedules.
A parsing task is interruptible between rows (finer interleavings touch the task's own slot only).
-/
namespace Vroom

/-- Local state of a phase-3 parsing task: columns, row count, unread bytes
(`offset` in parse_chunk_with_state, csv_reader.cpp:127-247). -/
structure ParseTask where
  cols : Cols
  rows : Nat
  rest : Bytes
deriving DecidableEq, Repr

/-- One iteration of the row loop (csv_reader.cpp:178-247). `none` = the loop has ended.
(`splitRow` never fails; see `C12_no_loss`.) -/
def ParseTask.step (cfg : ReadCfg) (t : ParseTask) : Option ParseTask :=
  if t.rest.length = 0 then none
  else
    let rest := skipBlank t.rest
    if rest.length = 0 then none
    else
      match splitRow cfg.cpu cfg.dial cfg.junk rest with
      | none => none
      | some (fs, tail) =>
        some { cols := addRow cfg.nc cfg.quote t.cols.length t.cols fs, rows := t.rows + 1, rest := tail }

/-- Initial local state of the task for a chunk (csv_reader.cpp:670-694, 113-169). -/
def ParseTask.init (cfg : ReadCfg) (n : Nat) (startInside : Bool) (data : Bytes) : ParseTask :=
  let cols : Cols := List.replicate n []
  if data.length = 0 ∨ n = 0 then { cols := cols, rows := 0, rest := [] }
  else
    let rest := if startInside then
        let r := skipToClose cfg.quote data
        skipPartialRow cfg.quote r.1 r.2
      else data
    { cols := cols, rows := 0, rest := rest }

/-- Global state of `read_all` after the chunk ranges are fixed (csv_reader.cpp:591-712). -/
inductive PoolState where
  /-- phase 1 running; `none` = that task has not written its slot yet -/
  | analyzing (slots : List (Option DualStats))
  /-- phase 3 running -/
  | parsing (rowCount : Nat) (slots : List ParseTask)
  /-- returned to the caller -/
  | done (res : ReadResult)

/-- One step of some thread (csv_reader.cpp:600-712). -/
inductive PoolStep (cfg : ReadCfg) (n : Nat) (chunks : List Bytes) : PoolState → PoolState → Prop
  /-- a worker finishes the analysis task of chunk `i` (csv_reader.cpp:600-617) -/
  | analyze (slots : List (Option DualStats)) (i : Nat) (c : Bytes) (hc : chunks[i]? = some c) (hi : slots[i]? = some none) :
      PoolStep cfg n chunks (.analyzing slots) (.analyzing (slots.set i (some (analyzeDual cfg.cpu cfg.quote c))))
  /-- all futures are ready: the caller links and submits phase 3 (csv_reader.cpp:619-694) -/
  | link (slots : List (Option DualStats)) (as : List DualStats) (h : slots = as.map some) :
      PoolStep cfg n chunks (.analyzing slots)
        (.parsing (totalRowCount (linkStates false as) as)
          ((chunks.zip (linkStates false as)).map (fun p => ParseTask.init cfg n p.2 p.1)))
  /-- a worker advances the parsing task of chunk `i` by one row -/
  | parse (k : Nat) (slots : List ParseTask) (i : Nat) (t t' : ParseTask) (hi : slots[i]? = some t) (ht : t.step cfg = some t') :
      PoolStep cfg n chunks (.parsing k slots) (.parsing k (slots.set i t'))
  /-- all parsing tasks have ended: the caller collects the chunks (csv_reader.cpp:698-712) -/
  | collect (k : Nat) (slots : List ParseTask) (h : ∀ t ∈ slots, t.step cfg = none) :
      PoolStep cfg n chunks (.parsing k slots)
        (.done { chunks := slots.map (·.cols), totalRows := (slots.map (·.rows)).sum, rowCount := k })

/-- Any finite interleaving (csv_reader.cpp:591-712). -/
inductive PoolRun (cfg : ReadCfg) (n : Nat) (chunks : List Bytes) : PoolState → PoolState → Prop
  | refl (s) : PoolRun cfg n chunks s s
  | tail {a b c} : PoolRun cfg n chunks a b → PoolStep cfg n chunks b c → PoolRun cfg n chunks a c

/-- `std::vector<ChunkAnalysisResult> analysis_results(num_chunks)` before any task has run (csv_reader.cpp:593). -/
def PoolState.start (chunks : List Bytes) : PoolState := .analyzing (List.replicate chunks.length none)

end Vroom
