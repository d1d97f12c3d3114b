/-
Who owns what when a Python table is exported through the Arrow C interfaces: bindings.cpp:78-238, 476-497, arrow_export.h:14-28, 70-82.
The memory of the columns belongs to the `Table`; the `Table` is destroyed when its last `shared_ptr` is.
-/
namespace Vroom.Life

/-- The allocations that are freed by hand or by the last owner (bindings.cpp:80-84, 148-154, 477-494, arrow_export.h:14-28). -/
inductive Obj where
  /-- the `Table` with the memory of all columns -/
  | table
  /-- `TableStreamPrivate` of stream `i` -/
  | stream (i : Nat)
  /-- `StructArrayPrivate` of array `i` -/
  | array (i : Nat)
  /-- `ArrowColumnPrivate` of child `j` of array `i`: it holds the pointers to the buffers -/
  | child (i j : Nat)
deriving DecidableEq, Repr

/-- A stream: `release != nullptr`, and `batch_returned` (bindings.cpp:80-84, 486). -/
structure Stream where
  live : Bool := true
  returned : Bool := false
deriving DecidableEq, Repr

/-- A struct array: `release != nullptr`, and the same of each child (bindings.cpp:148-154, 216). -/
structure StructArray where
  live : Bool := true
  children : List Bool
deriving DecidableEq, Repr

/-- A child array the consumer moved to a place of its own (not code of /repo: an Arrow consumer that moves a child out (Arrow C data interface)). -/
structure Moved where
  array : Nat
  child : Nat
  live : Bool := true
deriving DecidableEq, Repr

/-- `held`: the Python object exists; `count`: the reference count of the `Table`; `freed`: what was freed, latest first (bindings.cpp:38-73, 80-84, 148-154). -/
structure State where
  cols : Nat
  held : Bool := true
  count : Nat := 1
  streams : List Stream := []
  arrays : List StructArray := []
  moved : List Moved := []
  freed : List Obj := []
deriving DecidableEq, Repr

/-- What a Python program and an Arrow consumer can do (bindings.cpp:157-238, 476-495: the calls from outside). -/
inductive Op where
  /-- the last reference to the Python object goes away -/
  | drop
  /-- `__arrow_c_stream__` -/
  | openStream
  | getNext (i : Nat)
  /-- the stream's release callback, also called by the capsule's destructor -/
  | releaseStream (i : Nat)
  | releaseArray (i : Nat)
  /-- the consumer copies child `j` of array `i` and clears the `release` of the original -/
  | moveChild (i j : Nat)
  /-- the release callback of a moved child -/
  | releaseMoved (k : Nat)
deriving DecidableEq, Repr

/-- `delete` (bindings.cpp:173, 235, 494). -/
def State.free (s : State) (o : Obj) : State := { s with freed := o :: s.freed }

/-- The destructor of a `shared_ptr<Table>` (bindings.cpp:81, 149: the members `table`). -/
def State.unref (s : State) : State :=
  let s := { s with count := s.count - 1 }
  if s.count = 0 then s.free .table else s

/-- The loop over the children in `release_struct_array` (bindings.cpp:162-168), each by `release_arrow_array` (arrow_export.h:71-82). -/
def freeChildren (i : Nat) : Nat → List Bool → List Obj → List Obj
  | _, [], freed => freed
  | j, c :: cs, freed => freeChildren i (j + 1) cs (if c then .child i j :: freed else freed)

/-- One operation; `none` if the caller breaks the protocol (no such object, a call on a released stream, a child that is not there) (bindings.cpp:157-238, 476-495, arrow_export.h:70-82). -/
def step (s : State) : Op → Option State
  | .drop => if s.held then some { s with held := false }.unref else none
  | .openStream => if s.held then some { s with count := s.count + 1, streams := s.streams ++ [{}] } else none           -- bindings.cpp:480-489
  | .getNext i =>                                                                                                         -- bindings.cpp:175-220
    match s.streams[i]? with
    | none => none
    | some st =>
      if !st.live then none
      else if st.returned then some s
      else some { s with count := s.count + 1, arrays := s.arrays ++ [{ children := List.replicate s.cols true }]
                         streams := s.streams.set i { st with returned := true } }
  | .releaseStream i =>                                                                                                   -- bindings.cpp:228-236
    match s.streams[i]? with
    | none => none
    | some st =>
      if !st.live then some s
      else some (({ s with streams := s.streams.set i { st with live := false } }.free (.stream i)).unref)
  | .releaseArray i =>                                                                                                    -- bindings.cpp:154-172
    match s.arrays[i]? with
    | none => none
    | some a =>
      if !a.live then some s
      else
        let s := { s with freed := freeChildren i 0 a.children s.freed
                          arrays := s.arrays.set i { live := false, children := a.children.map (fun _ => false) } }
        some (s.free (.array i)).unref
  | .moveChild i j =>
    match s.arrays[i]? with
    | none => none
    | some a =>
      if a.live ∧ a.children[j]? = some true then
        some { s with arrays := s.arrays.set i { a with children := a.children.set j false }, moved := s.moved ++ [⟨i, j, true⟩] }
      else none
  | .releaseMoved k =>                                                                                                    -- arrow_export.h:71-82
    match s.moved[k]? with
    | none => none
    | some c =>
      if !c.live then some s
      else some ({ s with moved := s.moved.set k { c with live := false } }.free (.child c.array c.child))

/-- A run (not code of /repo: a Python program and an Arrow consumer). -/
def run (s : State) : List Op → Option State
  | [] => some s
  | op :: ops => (step s op).bind (fun s => run s ops)

/-- A fresh table with `cols` columns, as `read_csv` returns it (bindings.cpp:252-343). -/
def fresh (cols : Nat) : State := { cols := cols }

end Vroom.Life
