import Verif.Model.CliArgs
/-
/repo/src/io_util.cpp and AlignedBuffer::allocate (/repo/include/libvroom/io_util.h:91-115).  Memory is a byte list of the size allocated; the system's answers are
parameters.  `load_file_to_ptr` opens the file at its end (a FIFO or terminal cannot be opened that way: `opens` is false).
-/
namespace Vroom

/-- What reading a stream delivers: the bytes, and whether it then breaks off with an error instead of ending (not code of /repo: the operating system under io_util.cpp:16-56). -/
structure Dev where
  bytes : Bytes
  broken : Bool := false
deriving DecidableEq, Repr

/-- A path as `std::ifstream` sees it: can it be opened, the position of its end (`none`: `tellg` is -1), and what reading gives (not code of /repo: the file io_util.cpp:18-34 opens). -/
structure FileDev extends Dev where
  opens : Bool := true
  size : Option Nat
deriving DecidableEq, Repr

/-- `posix_memalign`: `none` = failure or a null pointer, else the memory with whatever it contains (called in io_util.h:99). -/
abbrev Alloc := Nat → Option Bytes

/-- How loading ends. `buffer`: the memory of the buffer and its `size()` (io_util.cpp:16-56: return value or exception). -/
inductive Loaded where
  | throws
  | ub
  | buffer (mem : Bytes) (size : Nat)
deriving DecidableEq, Repr

/-- Writing `src` at offset `at`; `none` = outside the memory (io_util.cpp:34, 52). -/
def writeAt (mem : Bytes) (at_ : Nat) (src : Bytes) : Option Bytes :=
  if at_ + src.length ≤ mem.length then some (mem.take at_ ++ src ++ mem.drop (at_ + src.length)) else none

/-- `AlignedBuffer::allocate` (io_util.h:91-115). `size + padding` is computed in `size_t`. -/
def allocBuf (alloc : Alloc) (size padding : Nat) : Loaded :=
  match alloc ((size + padding) % 2 ^ 64) with
  | none => .throws
  | some mem =>
    if padding > 0 then
      match writeAt mem size (List.replicate padding 0) with
      | none => .ub
      | some mem => .buffer mem size
    else .buffer mem size

/-- `load_file_to_ptr` (io_util.cpp:16-39). `file.read` fails unless it gets all the bytes asked for. -/
def loadFile (alloc : Alloc) (f : FileDev) (padding : Nat) : Loaded :=
  if f.opens = false then .throws
  else
    match f.size with
    | none => .throws
    | some size =>
      match allocBuf alloc size padding with
      | .throws => .throws
      | .ub => .ub
      | .buffer mem _ =>
        if size > 0 then
          if f.bytes.length < size then .throws
          else
            match writeAt mem 0 (f.bytes.take size) with
            | none => .ub
            | some mem => .buffer mem size
        else .buffer mem size

/-- `std::cin`: its buffer, and its `badbit` (C++ library; used in io_util.cpp:44-47). -/
structure Cin where
  rdbuf : Dev
  bad : Bool := false

/-- `ss << std::cin.rdbuf()` (io_util.cpp:44): the characters up to the end of the stream or an error go to `ss`.  The stream buffer reports both as
end of file, and the state bits of `std::cin` belong to the stream object, which is not involved. -/
def Cin.drain (c : Cin) : Cin × Bytes := ({ c with rdbuf := { c.rdbuf with bytes := [] } }, c.rdbuf.bytes)

/-- `read_stdin_to_ptr` (io_util.cpp:41-56). -/
def readStdin (alloc : Alloc) (dev : Dev) (padding : Nat) : Loaded :=
  let r := Cin.drain { rdbuf := dev }
  if r.1.bad then .throws
  else
    match allocBuf alloc r.2.length padding with
    | .throws => .throws
    | .ub => .ub
    | .buffer mem n =>
      match writeAt mem 0 r.2 with
      | none => .ub
      | some mem => .buffer mem n

/-- The program with a command line that makes it read standard input, which is a device: `read_stdin_to_ptr()` with the default padding (cli.cpp:576, 647, 750, 870, 1006; common_defs.h:17),
then as in `vroom`.  `none`: undefined behaviour; an exception is not caught by the commands (cli.cpp:1159-1217). -/
def vroomDev (m : Machine) (alloc : Alloc) (dev : Dev) (files : Files) (args : List Bytes) : Option CliOut :=
  match readStdin alloc dev 64 with
  | .throws => some .abort
  | .ub => none
  | .buffer mem size => vroom m (mem.take size) files args

end Vroom
