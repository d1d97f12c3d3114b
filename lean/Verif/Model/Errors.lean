/-
Model of the error collector.  Source: /repo/include/libvroom/error.h:97-453.
Simplifications: error code, line, column, message and context are carried as one opaque `info`
number (no collector code reads them); `size_t` counters are natural numbers (no wrap at 2^64).
-/
namespace Vroom

/-- `ErrorSeverity` (error.h:97-101). -/
inductive Severity where | warning | recoverable | fatal
deriving DecidableEq, Repr

/-- `ParseError` (error.h:117-152). -/
structure ParseErr where
  severity : Severity
  offset : Nat
  info : Nat := 0
deriving DecidableEq, Repr

/-- `ErrorMode` (error.h:178-183). -/
inductive ErrMode where | disabled | failFast | permissive | bestEffort
deriving DecidableEq, Repr

/-- `ErrorCollector` fields (error.h:446-452). -/
structure Collector where
  mode : ErrMode
  maxErrors : Nat
  errors : List ParseErr
  hasFatal : Bool
  suppressed : Nat
deriving DecidableEq, Repr

namespace Collector

/-- Constructor (error.h:225-228). -/
def new (m : ErrMode) (max : Nat) : Collector :=
  { mode := m, maxErrors := max, errors := [], hasFatal := false, suppressed := 0 }

/-- `add_error` (error.h:247-257). -/
def addError (c : Collector) (e : ParseErr) : Collector :=
  let c := if e.severity = .fatal then { c with hasFatal := true } else c
  if c.errors.length ≥ c.maxErrors then { c with suppressed := c.suppressed + 1 }
  else { c with errors := c.errors ++ [e] }

/-- `should_stop` (error.h:291-299). -/
def shouldStop (c : Collector) : Bool :=
  if c.mode = .disabled then false
  else if c.mode = .failFast ∧ c.errors ≠ [] then true
  else if c.mode ≠ .bestEffort ∧ c.hasFatal = true then true
  else false

/-- `clear` (error.h:334-338). -/
def clear (c : Collector) : Collector := { c with errors := [], hasFatal := false, suppressed := 0 }

/-- `set_mode` (error.h:350). -/
def setMode (c : Collector) (m : ErrMode) : Collector := { c with mode := m }

/-- `set_max_errors` (error.h:361). -/
def setMax (c : Collector) (n : Nat) : Collector := { c with maxErrors := n }

/-- `merge_from` (error.h:373-400). -/
def mergeFrom (c o : Collector) : Collector :=
  let c := { c with suppressed := c.suppressed + o.suppressed }
  if o.errors = [] then
    if o.hasFatal then { c with hasFatal := true } else c
  else
    let available := if c.maxErrors > c.errors.length then c.maxErrors - c.errors.length else 0
    let toCopy := min available o.errors.length
    let c := if toCopy < o.errors.length then
        { c with suppressed := c.suppressed + (o.errors.length - toCopy) } else c
    let c := { c with errors := c.errors ++ o.errors.take toCopy }
    if o.hasFatal then { c with hasFatal := true } else c

/-- `sort_by_offset` (error.h:408-412): `std::sort` is unstable, so its result is modelled as *any*
permutation that is ordered by byte offset. -/
def SortedOf (c c' : Collector) : Prop :=
  ∃ es, c' = { c with errors := es } ∧ es.Perm c.errors ∧ es.Pairwise (fun a b => a.offset ≤ b.offset)

/-- `merge_sorted` (error.h:422-427). -/
def MergeSorted (c : Collector) (others : List Collector) (c' : Collector) : Prop :=
  SortedOf (others.foldl mergeFrom c) c'

end Collector
end Vroom
