import Verif.Model.MemRead
/-
Who owns the bytes a reader reads, and when they go away.
Sources: /repo/src/reader/mmap_source.cpp, /repo/include/libvroom/io_util.h (AlignedBuffer),
/repo/src/reader/csv_reader.cpp:254-300, 393-405, 516-540.

The operating system and the allocator are tables of live file descriptors, mappings and heap blocks.  Numbers are
never reused (a real address may be, which hides a dangling pointer without making it right).
-/
namespace Vroom.Src
open Vroom Mem

/-- Replace the value at one index (not code of /repo: replacing one variable). -/
def put {α : Type} (f : Nat → α) (i : Nat) (x : α) : Nat → α := fun j => if j = i then x else f j

/-- Live descriptors, mappings and heap blocks; `bad` records a release of something that is not live (not code of /repo: the operating system under mmap_source.cpp and io_util.h). -/
structure Os where
  fd : Nat → Bool := fun _ => false
  map : Nat → Option Bytes := fun _ => none
  heap : Nat → Option Bytes := fun _ => none
  next : Nat := 0
  bad : Bool := false

/-- `::close` (called in mmap_source.cpp:34, 48, 79). -/
def Os.closeFd (o : Os) (n : Nat) : Os := if o.fd n then { o with fd := put o.fd n false } else { o with bad := true }

/-- `munmap(ptr, size)`: releasing another size than was mapped counts as wrong (called in mmap_source.cpp:75). -/
def Os.unmap (o : Os) (n size : Nat) : Os :=
  if (o.map n).map List.length = some size then { o with map := put o.map n none } else { o with bad := true }

/-- `std::free` (called in io_util.h:123). -/
def Os.free (o : Os) (n : Nat) : Os := if (o.heap n).isSome then { o with heap := put o.heap n none } else { o with bad := true }

/-- How the operating system answers `::open`, `fstat` and `mmap` for a path: a file (of the given content), or a failure
of one of the three (mmap_source.cpp:27, 33, 46). -/
inductive FileAnswer where
  | cannotOpen
  | cannotStat
  | cannotMap (size : Nat)
  | file (content : Bytes)
deriving DecidableEq, Repr

/-- `MmapSource::Impl` (mmap_source.cpp:10-14); `none` is -1 and `nullptr`. -/
structure Source where
  fd : Option Nat := none
  data : Option Nat := none
  size : Nat := 0
deriving DecidableEq, Repr

/-- `MmapSource::close` (mmap_source.cpp:71-81). -/
def Source.close (o : Os) (s : Source) : Os × Source :=
  let r : Os × Option Nat := match s.data with
    | some p => if s.size > 0 then (o.unmap p s.size, none) else (o, s.data)
    | none => (o, none)
  let o := match s.fd with
    | some n => r.1.closeFd n
    | none => r.1
  (o, { fd := none, data := r.2, size := 0 })

/-- `Result::failure` messages of `MmapSource::open` (mmap_source.cpp:29, 36, 50). -/
inductive SrcErr where | cannotOpen | cannotStat | cannotMap
deriving DecidableEq, Repr

/-- `MmapSource::open` (mmap_source.cpp:22-57). `mmap` of a `cannotMap 0` file is not tried. -/
def Source.openFile (o : Os) (s : Source) (a : FileAnswer) : Option SrcErr × Os × Source :=
  let r : Os × Source := if s.fd.isSome then s.close o else (o, s)
  let o := r.1
  let s := r.2
  match a with
  | .cannotOpen => (some .cannotOpen, o, { s with fd := none })
  | .cannotStat =>
    let n := o.next
    let o := { o with fd := put o.fd n true, next := n + 1 }
    (some .cannotStat, o.closeFd n, { s with fd := none })
  | .cannotMap size =>
    let n := o.next
    let o := { o with fd := put o.fd n true, next := n + 1 }
    if size = 0 then (none, o, { s with fd := some n, size := 0 })
    else (some .cannotMap, o.closeFd n, { s with fd := none, size := size })
  | .file content =>
    let n := o.next
    let o := { o with fd := put o.fd n true, next := n + 1 }
    if content.length = 0 then (none, o, { s with fd := some n, size := 0 })
    else
      let p := o.next
      (none, { o with map := put o.map p (some content), next := p + 1 }, { fd := some n, data := some p, size := content.length })

/-- `AlignedBuffer` (io_util.h:39-134). -/
structure Buf where
  data : Option Nat := none
  size : Nat := 0
  capacity : Nat := 0
deriving DecidableEq, Repr

/-- `AlignedBuffer::allocate` (io_util.h:91-115) and filling it with `content`: the padding is zeroed. -/
def Buf.allocate (o : Os) (content : Bytes) (padding : Nat) : Os × Buf :=
  ({ o with heap := put o.heap o.next (some (content ++ List.replicate padding 0)), next := o.next + 1 },
    { data := some o.next, size := content.length, capacity := content.length + padding })

/-- `free_data` (io_util.h:118-129), also the destructor (:67). -/
def Buf.free (o : Os) (b : Buf) : Os × Buf :=
  match b.data with
  | some p => (o.free p, {})
  | none => (o, b)

/-- Move assignment `dst = std::move(src)` of two different objects (io_util.h:52-63): the new `dst`, the moved-from `src`. -/
def Buf.moveAssign (o : Os) (dst src : Buf) : Os × Buf × Buf := ((dst.free o).1, src, {})

/-- `data_ptr` (csv_reader.cpp:258). -/
inductive Ptr where | null | mapping (n : Nat) | block (n : Nat)
deriving DecidableEq, Repr

/-- `source.data()` (mmap_source.cpp:59-61). -/
def Source.ptr (s : Source) : Ptr := match s.data with
  | some p => .mapping p
  | none => .null

/-- `owned_buffer.data()` (io_util.h:70). -/
def Buf.ptr (b : Buf) : Ptr := match b.data with
  | some p => .block p
  | none => .null

/-- What can be loaded through a pointer: nothing if it is null or what it points to is gone (not code of /repo: what a load through a pointer of csv_reader.cpp:258 finds). -/
def Os.at (o : Os) : Ptr → Bytes
  | .null => []
  | .mapping n => (o.map n).getD []
  | .block n => (o.heap n).getD []

/-- `CsvReader::Impl` (csv_reader.cpp:254-265). -/
structure Reader where
  source : Source := {}
  owned : Buf := {}
  ptr : Ptr := .null
  size : Nat := 0
  st : ReaderState
  rowCount : Nat := 0

/-- The constant parts: machine, options (csv_reader.cpp:267-281: options). -/
structure Setup where
  t : Target
  infer : InferCfg
  read : ReadCfg
  sampleRows : Nat
  threads : Nat

/-- `size - data_start` in `size_t` (csv_reader.cpp:526). -/
def wrapSub (a b : Nat) : Nat := if b ≤ a then a - b else 2 ^ 64 - (b - a)

/-- `CsvReader::read_all` (csv_reader.cpp:516-713), the difference of sizes as it wraps. -/
def readAllW (S : Setup) (n : Nat) (m : Bytes) (size start : Nat) : Option ReadResult :=
  if n = 0 then some { chunks := [], totalRows := 0, rowCount := 0 }
  else if wrapSub size start < 1024 * 1024 then readSerialM S.t S.read n m size start
  else
    (chunkRangesGoM (findRowEndM S.t m size S.read.quote) size (calculateChunkSize (wrapSub size start) n S.threads) (size + 1) start).bind fun ranges =>
      if ranges.length ≤ 1 then readSerialM S.t S.read n m size start
      else readChunksM S.t S.read n m ranges

/-- The calls of a program that uses one reader. `openBuffer none` passes an empty `AlignedBuffer` (csv_reader.cpp:283-540: `open`, `open_from_buffer`, `read_all`). -/
inductive Call where
  | openFile (a : FileAnswer)
  | openBuffer (b : Option (Bytes × Nat))
  | readAll
deriving DecidableEq, Repr

/-- What a call answers (csv_reader.cpp:283-713). -/
inductive Answer where
  | opened
  | noFile (e : SrcErr)
  | refused (e : OpenErr)
  | table (r : ReadResult)
deriving DecidableEq, Repr

/-- `open` and `open_from_buffer` once the data pointer is set (csv_reader.cpp:290-388, 394-498). -/
def openTail (S : Setup) (o : Os) (r : Reader) : Option (Answer × Os × Reader) :=
  (openDataM S.t S.infer S.sampleRows r.st (o.at r.ptr) r.size).map fun x =>
    match x.1 with
    | some e => (.refused e, o, { r with st := x.2 })
    | none => (.opened, o, { r with st := x.2, rowCount := 0 })

/-- One call; `none` is an access to memory that is not there (csv_reader.cpp:283-713). -/
def step (S : Setup) (o : Os) (r : Reader) : Call → Option (Answer × Os × Reader)
  | .openFile a =>
    match r.source.openFile o a with
    | (some e, o', src) => some (.noFile e, o', { r with source := src })
    | (none, o', src) =>
      openTail S o' { r with source := src, ptr := src.ptr, size := src.size }
  | .openBuffer b =>
    let a : Os × Buf := match b with
      | some (content, padding) => Buf.allocate o content padding
      | none => (o, {})
    let m := Buf.moveAssign a.1 r.owned a.2
    openTail S m.1 { r with owned := m.2.1, ptr := m.2.1.ptr, size := m.2.1.size }
  | .readAll =>
    (readAllW S r.st.schema.length (o.at r.ptr) r.size r.st.dataStart).map fun res =>
      (.table res, o, if r.st.schema.length = 0 then r else { r with rowCount := res.rowCount })

/-- A sequence of calls (not code of /repo: a program that uses a reader). -/
def run (S : Setup) (o : Os) (r : Reader) : List Call → Option (List Answer × Os × Reader)
  | [] => some ([], o, r)
  | c :: cs => (step S o r c).bind fun x => (run S x.2.1 x.2.2 cs).map fun y => (x.1 :: y.1, y.2)

/-- `CsvReader` just constructed (csv_reader.cpp:267-281). -/
def Reader.new (mode : ErrMode) (maxErrors : Nat) : Reader := { st := ReaderState.new mode maxErrors }

/-- `~CsvReader`: the members in reverse order; `owned_buffer`, then `source` (csv_reader.cpp:256-257, 281). -/
def Reader.destroy (o : Os) (r : Reader) : Os := (r.source.close (r.owned.free o).1).1

end Vroom.Src

namespace Vroom
open Src

/-- The calls of a program that uses a `MmapSource` directly (mmap_source.cpp:22-81). -/
inductive SourceCall where | openFile (a : FileAnswer) | close
deriving DecidableEq, Repr

/-- Such a program (mmap_source.cpp:22-81). -/
def runSource (o : Src.Os) (s : Source) : List SourceCall → Src.Os × Source
  | [] => (o, s)
  | .openFile a :: cs => runSource (s.openFile o a).2.1 (s.openFile o a).2.2 cs
  | .close :: cs => runSource (s.close o).1 (s.close o).2 cs

/-- What a program does with its `AlignedBuffer` variables: `v = AlignedBuffer::allocate(…)`, `dst = std::move(src)`,
`AlignedBuffer dst(std::move(src))` (`dst` being new, that is empty), and the end of a variable's life (io_util.h:39-134). -/
inductive BufCall where
  | allocate (v : Nat) (content : List UInt8) (padding : Nat)
  | assign (dst src : Nat)
  | drop (v : Nat)
deriving DecidableEq, Repr

/-- One such call; `assign v v` does nothing (io_util.h:52). -/
def bufStep (o : Src.Os) (env : Nat → Buf) : BufCall → Src.Os × (Nat → Buf)
  | .allocate v content padding =>
    let a := Buf.allocate o content padding
    let m := Buf.moveAssign a.1 (env v) a.2
    (m.1, put env v m.2.1)
  | .assign dst src =>
    if dst = src then (o, env)
    else
      let m := Buf.moveAssign o (env dst) (env src)
      (m.1, put (put env dst m.2.1) src m.2.2)
  | .drop v => (((env v).free o).1, put env v {})

/-- Several (io_util.h:39-134). -/
def bufRun (o : Src.Os) (env : Nat → Buf) : List BufCall → Src.Os × (Nat → Buf)
  | [] => (o, env)
  | c :: cs => bufRun (bufStep o env c).1 (bufStep o env c).2 cs

end Vroom
