/-
What a data race is (C85): no reference to the library.

An execution is the sequence of what the threads did.  By the C++ memory model a program whose interleaved
executions have no data race behaves as if interleaved, so looking at interleaved executions is enough.
-/
namespace Vroom.Race

/-- Reading or writing. -/
inductive Kind where
  | read
  | write
deriving DecidableEq, Repr

/-- What a thread does: access an ordinary object, or synchronise: publish what it has done so far at `s`
(unlock, store to an atomic, hand in a task, complete a future, start a thread, end), or take in what was
published there (lock, load, begin a task, `get` of a future, first step, `join`). -/
inductive Ev (L S : Type) where
  | acc (k : Kind) (l : L)
  | rel (s : S)
  | acq (s : S)
deriving DecidableEq, Repr

/-- An event of an execution: who did what. -/
structure Event (T L S : Type) where
  tid : T
  ev : Ev L S
deriving DecidableEq, Repr

variable {T L S : Type}

/-- `HB tr i j`: event number `i` happens before event number `j`: program order, publishing before a later
taking in, and their compositions. -/
inductive HB (tr : List (Event T L S)) : Nat → Nat → Prop
  | order {i j : Nat} {a b : Event T L S} (hlt : i < j) (hi : tr[i]? = some a) (hj : tr[j]? = some b) (h : a.tid = b.tid) : HB tr i j
  | sync {i j : Nat} {t u : T} {s : S} (hlt : i < j) (hi : tr[i]? = some ⟨t, .rel s⟩) (hj : tr[j]? = some ⟨u, .acq s⟩) : HB tr i j
  | trans {i j k : Nat} : HB tr i j → HB tr j k → HB tr i k

/-- Two accesses of different threads to the same object, not both reads, neither happening before the other
(the later one in the execution cannot happen before the earlier one). -/
def DataRace (tr : List (Event T L S)) : Prop :=
  ∃ (i j : Nat) (t u : T) (k k' : Kind) (l : L), i < j ∧ tr[i]? = some ⟨t, .acc k l⟩ ∧ tr[j]? = some ⟨u, .acc k' l⟩ ∧ t ≠ u ∧
    (k = .write ∨ k' = .write) ∧ ¬ HB tr i j

/-- Executions: from an initial state by steps that may or may not be visible. -/
inductive Exec {St : Type} (start : St → Prop) (step : St → Option (Event T L S) → St → Prop) : List (Event T L S) → St → Prop
  | init {s} (h : start s) : Exec start step [] s
  | next {tr s e s'} : Exec start step tr s → step s e s' → Exec start step (tr ++ e.toList) s'

end Vroom.Race
