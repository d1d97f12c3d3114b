import Verif.Spec.Legacy
import Verif.Model.Statistics

/-
Model of the legacy storage: copy-on-write buffers, chunked storage and the chunked column builders.
Sources: /repo/src/columns/cow_buffer.h, /repo/include/libvroom/data_chunk.h, /repo/src/columns/column_builder.cpp.
-/
namespace Vroom

/-! ### CowBuffer -/

/-- `shared_ptr`s to vectors: variable number ↦ vector number (`none`: null pointer, also for destroyed variables),
the vectors, and the number of vectors made so far.  Vectors no longer referenced stay, unobservable (cow_buffer.h:228 for each live object). -/
structure Cow (α : Type) where
  ptr : List (Option Nat) := []
  heap : Nat → List α := fun _ => []
  next : Nat := 0

namespace Cow
variable {α : Type}

/-- `data_` of variable `i` (cow_buffer.h:228). -/
def data (m : Cow α) (i : Nat) : Option Nat := (m.ptr[i]?).join

/-- `as_vec` (cow_buffer.h:97-100). -/
def asVec (m : Cow α) (i : Nat) : List α :=
  match m.data i with
  | none => []
  | some v => m.heap v

/-- `use_count` (cow_buffer.h:126): how many variables share the vector. -/
def useCount (m : Cow α) (i : Nat) : Nat :=
  match m.data i with
  | none => 0
  | some v => m.ptr.count (some v)

/-- `std::make_shared<std::vector<T>>(c)`, stored into variable `i` (cow_buffer.h:36-49, 218, 224). -/
def makeShared (m : Cow α) (i : Nat) (c : List α) : Cow α :=
  { ptr := m.ptr.set i (some m.next), heap := fun k => if k = m.next then c else m.heap k, next := m.next + 1 }

/-- `ensure_unique` (cow_buffer.h:216-226). -/
def ensureUnique (m : Cow α) (i : Nat) : Cow α :=
  match m.data i with
  | none => m.makeShared i []
  | some v => if m.ptr.count (some v) > 1 then m.makeShared i (m.heap v) else m

/-- Replace the content of the vector variable `i` points to (cow_buffer.h:129-176). -/
def write (m : Cow α) (i : Nat) (f : List α → List α) : Cow α :=
  match m.data i with
  | none => m
  | some v => { m with heap := fun k => if k = v then f (m.heap v) else m.heap k }

/-- One operation (cow_buffer.h:37-69, 106-112, 129-176, 183-192, 208).  All mutating members are `ensure_unique`
followed by a change of the vector; a moved-from vector is empty. -/
def step (m : Cow α) : CowOp α → Cow α
  | .new c => { ptr := m.ptr ++ [some m.next], heap := fun k => if k = m.next then c else m.heap k, next := m.next + 1 }
  | .copy i => { m with ptr := m.ptr ++ [m.data i] }
  | .move i => { m with ptr := m.ptr.set i none ++ [m.data i] }
  | .assign i j => { m with ptr := m.ptr.set i (m.data j) }
  | .moveAssign i j => if i = j then m else { m with ptr := (m.ptr.set i (m.data j)).set j none }
  | .mutate i f => (m.ensureUnique i).write i f
  | .intoVec i =>
    match m.data i with
    | none => m
    | some _ => (m.ensureUnique i).write i (fun _ => [])
  | .swap i j => { m with ptr := (m.ptr.set i (m.data j)).set j (m.data i) }
  | .destroy i => { m with ptr := m.ptr.set i none }

/-- Writing through a pointer or reference obtained earlier from `mutable_data`, `to_mut` or `operator[]`
(cow_buffer.h:80-92, 183-192): it changes the vector without `ensure_unique`. -/
def writeRetained (m : Cow α) (v : Nat) (f : List α → List α) : Cow α :=
  { m with heap := fun k => if k = v then f (m.heap v) else m.heap k }

end Cow

/-! ### ChunkedStorage -/

/-- data_chunk.h:164-171; a chunk is its values and its null bitmap. -/
structure Chunked (α : Type) where
  active : List α := []
  activeNulls : List Bool := []
  chunks : List (List α × List Bool) := []
deriving DecidableEq, Repr

namespace Chunked
variable {α : Type}

/-- `size` (data_chunk.h:44-50). -/
def size (s : Chunked α) : Nat := s.chunks.foldl (fun n c => n + c.1.length) s.active.length

/-- `empty` (data_chunk.h:56-66). -/
def isEmpty (s : Chunked α) : Bool :=
  if !s.active.isEmpty then false else s.chunks.all (fun c => c.1.isEmpty)

/-- `append` (data_chunk.h:75-84). -/
def append (s : Chunked α) (v : α) (null : Bool) : Chunked α :=
  { s with active := s.active ++ [v], activeNulls := s.activeNulls ++ [null] }

/-- Writing through `active_values()` and `active_null_bitmap()` (data_chunk.h:87-90). -/
def direct (s : Chunked α) (cells : List (α × Bool)) : Chunked α :=
  { s with active := s.active ++ cells.map (·.1), activeNulls := s.activeNulls ++ cells.map (·.2) }

/-- `finalize_active` (data_chunk.h:110-119). -/
def finalizeActive (s : Chunked α) : Chunked α :=
  if !s.active.isEmpty then { active := [], activeNulls := [], chunks := s.chunks ++ [(s.active, s.activeNulls)] } else s

/-- `merge_from`, the receiver (data_chunk.h:94-107). -/
def mergeFrom (s other : Chunked α) : Chunked α :=
  let s := s.finalizeActive
  let other := other.finalizeActive
  { s with chunks := s.chunks ++ other.chunks.filter (fun c => !c.1.isEmpty) }

/-- `merge_from`, the source afterwards (data_chunk.h:97, 106). -/
def mergedAway (other : Chunked α) : Chunked α := { other.finalizeActive with chunks := [] }

/-- Every history of calls; `read` changes nothing (data_chunk.h:44-119). -/
def run (d : α) : ColHistory α → Chunked α
  | .new => {}
  | .append h none => (run d h).append d true
  | .append h (some v) => (run d h).append v false
  | .direct h cs => (run d h).direct cs
  | .finalize h => (run d h).finalizeActive
  | .read h => run d h
  | .merge h k => (run d h).mergeFrom (run d k)
  | .drained _ k => (run d k).mergedAway

/-- An iterator position: chunk index and offset (data_chunk.h:125-154). -/
abbrev Iter := Nat × Nat

/-- `begin`, `end` (data_chunk.h:156-162). -/
def iterEnd (s : Chunked α) : Iter := (s.chunks.length, 0)
/-- `begin`, data_chunk.h:156-162. -/
def iterBegin (s : Chunked α) : Iter := if s.chunks.isEmpty then s.iterEnd else (0, 0)

/-- `operator*` (data_chunk.h:132-135); `none`: outside the vectors, undefined behaviour. -/
def deref (s : Chunked α) (i : Iter) : Option (α × Bool) :=
  match s.chunks[i.1]? with
  | none => none
  | some c =>
    match c.1[i.2]?, c.2[i.2]? with
    | some v, some b => some (v, b)
    | _, _ => none

/-- `operator++` (data_chunk.h:137-144); `none`: no such chunk. -/
def next (s : Chunked α) (i : Iter) : Option Iter :=
  match s.chunks[i.1]? with
  | none => none
  | some c => if c.1.length ≤ i.2 + 1 then some (i.1 + 1, 0) else some (i.1, i.2 + 1)

/-- A loop `for (it = i; it != end; ++it) visit(*it)` that ends, having visited `out`, all accesses in bounds (data_chunk.h:125-162: a caller's loop). -/
inductive IterRun (s : Chunked α) : Iter → List (α × Bool) → Prop
  | done : IterRun s s.iterEnd []
  | step (i j : Iter) (v : α × Bool) (out : List (α × Bool)) :
      i ≠ s.iterEnd → s.deref i = some v → s.next i = some j → IterRun s j out → IterRun s i (v :: out)

end Chunked

/-! ### ChunkedColumnBuilder -/

/-- Members of the builder (column_builder.cpp:20-27).  `stats_` of the string and bool builders is modelled apart, below. -/
structure LegacyCol (α : Type) where
  storage : Chunked α := {}
  finalized : Bool := false
  cachedValues : List α := []
  cachedNulls : List Bool := []
  cacheValid : Bool := false

namespace LegacyCol
variable {α : Type}

/-- `invalidate_cache` (column_builder.cpp:29-32). -/
def invalidate (b : LegacyCol α) : LegacyCol α := { b with cacheValid := false, finalized := false }

/-- `finalize` (column_builder.cpp:65-70). -/
def finalize (b : LegacyCol α) : LegacyCol α :=
  if !b.finalized then { b with storage := b.storage.finalizeActive, finalized := true } else b

/-- `ensure_cache` (column_builder.cpp:34-57). -/
def ensureCache (b : LegacyCol α) : LegacyCol α :=
  if b.cacheValid then b
  else
    let b := if !b.finalized then b.finalize else b
    { b with cachedValues := b.storage.chunks.flatMap (·.1), cachedNulls := b.storage.chunks.flatMap (·.2), cacheValid := true }

/-- The builder after `raw_values` or `null_bitmap` (column_builder.cpp:109-127). -/
def afterRead (b : LegacyCol α) : LegacyCol α := if b.storage.chunks.length > 0 then b.ensureCache else b

/-- `raw_values` (column_builder.cpp:109-117). -/
def rawValues (b : LegacyCol α) : List α := if b.storage.chunks.length > 0 then b.ensureCache.cachedValues else b.storage.active

/-- `null_bitmap` (column_builder.cpp:119-127). -/
def nullBitmap (b : LegacyCol α) : List Bool := if b.storage.chunks.length > 0 then b.ensureCache.cachedNulls else b.storage.activeNulls

/-- `append` / `append_null` after parsing: `none` is a null, stored as `d` (column_builder.cpp:159-169, 207-228). -/
def append (d : α) (b : LegacyCol α) (v : Option α) : LegacyCol α :=
  match v with
  | none => { b with storage := b.storage.append d true }.invalidate
  | some v => { b with storage := b.storage.append v false }.invalidate

/-- Writing through `raw_values_mutable` and `null_bitmap_mutable` (column_builder.cpp:129-139). -/
def direct (b : LegacyCol α) (cells : List (α × Bool)) : LegacyCol α :=
  let b := b.invalidate
  { b with storage := b.storage.direct cells }

/-- `merge_from`, the receiver (column_builder.cpp:145-150). -/
def mergeFrom (b other : LegacyCol α) : LegacyCol α := { b with storage := b.storage.mergeFrom other.storage }.invalidate

/-- `merge_from`, the source afterwards: only its storage changes (column_builder.cpp:148). -/
def mergedAway (other : LegacyCol α) : LegacyCol α := { other with storage := other.storage.mergedAway }

/-- Every history of calls.  `read` is `raw_values` or `null_bitmap`; `finalize` also stands for the chunked
accessors and `statistics`, which finalize (column_builder.cpp:76-102). -/
def run (d : α) : ColHistory α → LegacyCol α
  | .new => {}
  | .append h v => (run d h).append d v
  | .direct h cs => (run d h).direct cs
  | .finalize h => (run d h).finalize
  | .read h => (run d h).afterRead
  | .merge h k => (run d h).mergeFrom (run d k)
  | .drained _ k => (run d k).mergedAway

/-- `statistics` of the numeric builders (column_builder.cpp:232-262, 300-330, 368-398, 438-468, 504-534):
null count, and minimum and maximum of the rest if `found`. `nan` is constantly false but for `double`. -/
def scanStats (o : StatOps α) (top bottom : α) (b : LegacyCol α) : Nat × Option (α × α) :=
  let b := if !b.finalized then b.finalize else b
  let nulls := b.storage.chunks.foldl (fun n c => n + c.2.count true) 0
  let vals := b.storage.chunks.flatMap (fun c => (c.1.zip c.2).filter (fun p => !p.2 && !o.nan p.1))
  let lo := vals.foldl (fun m p => stdMin o.lt m p.1) top
  let hi := vals.foldl (fun m p => stdMin (fun a b => o.lt b a) m p.1) bottom
  (nulls, if vals.isEmpty then none else some (lo, hi))

/-- `stats_` of the string builder: updated by `append` and `append_null` only (column_builder.cpp:159-169);
`merge_from` and direct writing leave it alone, as does being merged away. -/
def runStringStats (o : StatOps α) (d : α) : ColHistory α → Stats α
  | .new => Stats.new d
  | .append h none => (runStringStats o d h).updateNull
  | .append h (some v) => (runStringStats o d h).update o v
  | .direct h _ => runStringStats o d h
  | .finalize h => runStringStats o d h
  | .read h => runStringStats o d h
  | .merge h _ => runStringStats o d h
  | .drained _ k => runStringStats o d k

/-- `statistics` of the string builder: nulls from the chunks, extrema from `stats_` (column_builder.cpp:173-191). -/
def stringStatistics (o : StatOps α) (d : α) (h : ColHistory α) : Nat × Option (α × α) :=
  let b := run d h
  let b := if !b.finalized then b.finalize else b
  let s := runStringStats o d h
  (b.storage.chunks.foldl (fun n c => n + c.2.count true) 0, if s.has then some (s.min, s.max) else none)

/-- `stats_` of the bool builder (column_builder.cpp:547-583, 614). -/
def runBoolStats : ColHistory Bool → BoolStats
  | .new => {}
  | .append h none => (runBoolStats h).updateNull
  | .append h (some v) => (runBoolStats h).update v
  | .direct h _ => runBoolStats h
  | .finalize h => runBoolStats h
  | .read h => runBoolStats h
  | .merge h _ => runBoolStats h
  | .drained _ k => runBoolStats k

/-- `statistics` of the bool builder (column_builder.cpp:587-607). -/
def boolStatistics (h : ColHistory Bool) : Nat × Option (Bool × Bool) :=
  let b := run false h
  let b := if !b.finalized then b.finalize else b
  let s := runBoolStats h
  (b.storage.chunks.foldl (fun n c => n + c.2.count true) 0, if s.has then some (s.min, s.max) else none)

end LegacyCol
end Vroom
