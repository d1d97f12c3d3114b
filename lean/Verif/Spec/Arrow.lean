import Verif.Spec.ParquetTable
/-
A consumer of the Arrow C data interface, written from its specification
(https://arrow.apache.org/docs/format/CDataInterface.html and Columnar.html), independent of the code: formats `i`, `l`, `g`, `C`, `tdD`, `tsu:`, `u`
and the struct of columns.  Buffers are byte strings; `none` in `buffers` is a null pointer.
Reading answers `none` if it would leave a buffer or if the array is not a valid one.
-/
namespace Vroom.Arrow
open Vroom Parquet

/-- A child of an `ArrowSchema`. -/
structure Field where
  format : List UInt8
  name : List UInt8
  nullable : Bool
deriving DecidableEq, Repr

/-- An `ArrowArray` without children. -/
structure Arr where
  length : Nat
  nullCount : Nat
  offset : Nat
  buffers : List (Option (List UInt8))
deriving DecidableEq, Repr

/-- A struct array: one record batch. -/
structure Batch where
  length : Nat
  nullCount : Nat
  offset : Nat
  children : List Arr
deriving DecidableEq, Repr

/-- The `i`-th little-endian number of `w` bytes in a buffer. -/
def numAt (w : Nat) (buf : List UInt8) (i : Nat) : Option Nat :=
  if (i + 1) * w ≤ buf.length then some (leNat ((buf.drop (i * w)).take w)) else none

/-- Is entry `i` valid?  Without a validity buffer the null count has to be 0. -/
def validAt (a : Arr) (i : Nat) : Option Bool :=
  match a.buffers[0]? with
  | some none => if a.nullCount = 0 then some true else none
  | some (some v) => (v[i / 8]?).map (fun b => b.toNat.testBit (i % 8))
  | none => none

/-- A buffer that is there. -/
def buffer (a : Arr) (k : Nat) : Option (List UInt8) := (a.buffers[k]?).join

/-- Bytes per entry of the fixed-width formats. -/
def fixedWidth (format : List UInt8) : Option Nat :=
  if format = [105] ∨ format = [116, 100, 68] then some 4                                          -- i, tdD
  else if format = [108] ∨ format = [103] ∨ format = [116, 115, 117, 58] then some 8               -- l, g, tsu:
  else if format = [67] then some 1                                                                -- C
  else none

/-- The text between two signed 32-bit offsets. -/
def textAt (offs data : List UInt8) (i : Nat) : Option (List UInt8) := do
  let s ← numAt 4 offs i
  let e ← numAt 4 offs (i + 1)
  if s ≤ e ∧ e < 2 ^ 31 ∧ e ≤ data.length then some ((data.drop s).take (e - s)) else none

/-- Entry `i` of an array: `some none` is a null. -/
def entry (format : List UInt8) (a : Arr) (i : Nat) : Option (Option Val) := do
  let valid ← validAt a (i + a.offset)
  if valid = false then some none
  else if format = [117] then                                                                      -- u
    let offs ← buffer a 1
    let data ← buffer a 2
    let s ← textAt offs data (i + a.offset)
    some (some (.bytes s))
  else
    let w ← fixedWidth format
    let buf ← buffer a 1
    let n ← numAt w buf (i + a.offset)
    some (some (.num n))

/-- The first `n` entries of an array; an array with fewer is not valid here. -/
def column (n : Nat) (format : List UInt8) (a : Arr) : Option (List (Option Val)) :=
  if n ≤ a.length then (List.range n).mapM (entry format a) else none

/-- The columns of a batch, read with the fields of the stream's schema. -/
def table (fields : List Field) (b : Batch) : Option (List (List (Option Val))) :=
  if fields.length = b.children.length ∧ b.offset = 0 ∧ b.nullCount = 0 then
    (fields.zip b.children).mapM (fun p => column b.length p.1.format p.2)
  else none

/-- The values of a batch as a consumer sees them: a boolean column comes as bytes that are 0 or 1. -/
def asArrow : Val → Val
  | .bool b => .num (if b then 1 else 0)
  | v => v

end Vroom.Arrow
