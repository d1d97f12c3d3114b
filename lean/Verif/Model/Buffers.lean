/-
Model of the Arrow-style column storage.
Sources: /repo/include/libvroom/arrow_buffer.h, /repo/include/libvroom/arrow_column_builder.h,
         /repo/include/libvroom/fast_arrow_context.h.
`std::vector` is a list; `reserve` has no observable effect and is omitted (it only records or
allocates capacity).  Reading outside a vector is undefined in C++; the model's `getD … 0` is only
ever applied inside the bounds (`C23_in_bounds`).
-/
namespace Vroom

/-- `std::vector<uint8_t>::resize(n, fill)` (C++ library; called in arrow_buffer.h:38-42, 60-88). -/
def vresize (l : List UInt8) (n : Nat) (fill : UInt8) : List UInt8 := l.take n ++ List.replicate (n - l.length) fill

/-- `NullBitmap` (arrow_buffer.h:30-213). `reserved_capacity_` is never read and left out. -/
structure NullBitmap where
  data : List UInt8 := []
  size : Nat := 0
  nullCount : Nat := 0
  hasNulls : Bool := false
deriving DecidableEq, Repr

namespace NullBitmap

/-- `1 << bit_idx`, narrowed to a byte (arrow_buffer.h:84, 99, 113). -/
def bitMask (i : Nat) : UInt8 := (1 : UInt8) <<< (i % 8).toUInt8

/-- `data_[byte_idx] |= (1 << bit_idx)` (arrow_buffer.h:99, 113). -/
def setBit (d : List UInt8) (i : Nat) : List UInt8 := d.set (i / 8) (d.getD (i / 8) 0 ||| bitMask i)

/-- `data_[byte_idx] &= ~(1 << bit_idx)` (arrow_buffer.h:84, 115). -/
def clearBit (d : List UInt8) (i : Nat) : List UInt8 := d.set (i / 8) (d.getD (i / 8) 0 &&& ~~~ (bitMask i))

/-- `init_bitmap_with_all_valid` (arrow_buffer.h:203-206). -/
def initAllValid (b : NullBitmap) : NullBitmap := { b with data := vresize b.data ((b.size + 7) / 8) 0xFF }

/-- `push_back_valid`, `push_back_valid_slow` (arrow_buffer.h:60-101). -/
def pushValid (b : NullBitmap) : NullBitmap :=
  if b.hasNulls = false then { b with size := b.size + 1 }
  else
    let d := if b.size / 8 ≥ b.data.length then b.data ++ [0] else b.data
    { b with data := setBit d b.size, size := b.size + 1 }

/-- `push_back_null` (arrow_buffer.h:71-88). -/
def pushNull (b : NullBitmap) : NullBitmap :=
  let b := if b.hasNulls = false then { b.initAllValid with hasNulls := true } else b
  let d := if b.size / 8 ≥ b.data.length then b.data ++ [0] else clearBit b.data b.size
  { b with data := d, size := b.size + 1, nullCount := b.nullCount + 1 }

/-- `push_back` (arrow_buffer.h:47-53). -/
def push (b : NullBitmap) (valid : Bool) : NullBitmap := if valid then b.pushValid else b.pushNull

/-- `is_valid` (arrow_buffer.h:120-126). -/
def isValid (b : NullBitmap) (i : Nat) : Bool :=
  if b.hasNulls = false then true else (b.data.getD (i / 8) 0 &&& bitMask i) != 0

/-- `null_count` (arrow_buffer.h:132-139). -/
def countNulls (b : NullBitmap) : Nat := ((List.range b.size).filter (fun i => !b.isValid i)).length

/-- `null_count_fast` (arrow_buffer.h:142-146). -/
def nullCountFast (b : NullBitmap) : Nat := if b.hasNulls = false then 0 else b.nullCount

/-- `clear` (arrow_buffer.h:155-161). -/
def clear (_ : NullBitmap) : NullBitmap := {}

/-- `append_from` with a different bitmap (arrow_buffer.h:170-191). Appending a bitmap to itself is
not modelled: with nulls present the C++ loop bound `other.size_` grows with every iteration. -/
def appendFrom (b o : NullBitmap) : NullBitmap :=
  if o.size = 0 then b
  else if o.hasNulls = false then
    if b.hasNulls = false then { b with size := b.size + o.size }
    else (List.range o.size).foldl (fun acc _ => acc.push true) b
  else (List.range o.size).foldl (fun acc i => acc.push (o.isValid i)) b

/-- `finalize` (arrow_buffer.h:194-199). -/
def finalize (b : NullBitmap) : NullBitmap :=
  if b.hasNulls = false ∧ b.size > 0 then { b with data := vresize b.data ((b.size + 7) / 8) 0xFF } else b

/-- `resize` (arrow_buffer.h:38-42). -/
def resize (b : NullBitmap) (n : Nat) : NullBitmap :=
  { b with data := vresize b.data ((n + 7) / 8) 0xFF, size := n, hasNulls := false }

/-- `set` (arrow_buffer.h:108-117). -/
def set (b : NullBitmap) (i : Nat) (valid : Bool) : NullBitmap :=
  { b with data := if valid then setBit b.data i else clearBit b.data i }

end NullBitmap

/-- `StringBuffer` (arrow_buffer.h:218-295): bytes and 32-bit offsets. -/
structure StringBuffer where
  data : List UInt8 := []
  offsets : List UInt32 := [0]
deriving DecidableEq, Repr

namespace StringBuffer
/-- `push_back` (arrow_buffer.h:233-236). -/
def push (b : StringBuffer) (s : List UInt8) : StringBuffer :=
  { data := b.data ++ s, offsets := b.offsets ++ [UInt32.ofNat (b.data ++ s).length] }
/-- `push_back_empty` (arrow_buffer.h:249). -/
def pushEmpty (b : StringBuffer) : StringBuffer := { b with offsets := b.offsets ++ [UInt32.ofNat b.data.length] }
/-- `get` (arrow_buffer.h:252-256); the length `end - start` is a 32-bit subtraction. -/
def get (b : StringBuffer) (i : Nat) : List UInt8 :=
  let start := b.offsets.getD i 0
  let stop := b.offsets.getD (i + 1) 0
  (b.data.drop start.toNat).take (stop - start).toNat
/-- `size` (arrow_buffer.h:263). -/
def size (b : StringBuffer) : Nat := b.offsets.length - 1
/-- `append_from` (arrow_buffer.h:277-290). -/
def appendFrom (b o : StringBuffer) : StringBuffer :=
  let base := UInt32.ofNat b.data.length
  { data := b.data ++ o.data, offsets := b.offsets ++ (o.offsets.drop 1).map (· + base) }
/-- `clear` (arrow_buffer.h:270-274). -/
def clear (_ : StringBuffer) : StringBuffer := {}
end StringBuffer

/-- The six fixed-width builders (arrow_column_builder.h:68-505) share one shape: a `NumericBuffer<T>`
and a bitmap; `dflt` is the filler stored under a null (0, or NaN for doubles). -/
structure NumColumn (T : Type) where
  values : List T := []
  nulls : NullBitmap := {}

namespace NumColumn
/-- successful branch of `append_*` (e.g. fast_arrow_context.h:97-106) -/
def append {T} (c : NumColumn T) (v : T) : NumColumn T := { values := c.values ++ [v], nulls := c.nulls.pushValid }
/-- `append_null_*` and the failing branch of `append_*` (e.g. fast_arrow_context.h:107-110, 107-110) -/
def appendNull {T} (c : NumColumn T) (dflt : T) : NumColumn T := { values := c.values ++ [dflt], nulls := c.nulls.pushNull }
/-- `merge_from` (e.g. arrow_column_builder.h:95-99), with a different builder. -/
def mergeFrom {T} (c o : NumColumn T) : NumColumn T :=
  { values := c.values ++ o.values, nulls := c.nulls.appendFrom o.nulls }
/-- `clear` (`clear`, arrow_column_builder.h:78-81, 519-522). -/
def clear {T} (_ : NumColumn T) : NumColumn T := {}
/-- `size()` (arrow_column_builder.h:71, 511). -/
def size {T} (c : NumColumn T) : Nat := c.values.length
end NumColumn

/-- `ArrowStringColumnBuilder` (arrow_column_builder.h:508-581). -/
structure StrColumn where
  values : StringBuffer := {}
  nulls : NullBitmap := {}

namespace StrColumn
/-- `append_string` (fast_arrow_context.h:46-49) -/
def append (c : StrColumn) (s : List UInt8) : StrColumn := { values := c.values.push s, nulls := c.nulls.pushValid }
/-- `append_null_string` (fast_arrow_context.h:50-53) -/
def appendNull (c : StrColumn) : StrColumn := { values := c.values.pushEmpty, nulls := c.nulls.pushNull }
/-- `merge_from` (arrow_column_builder.h:536-540) -/
def mergeFrom (c o : StrColumn) : StrColumn :=
  { values := c.values.appendFrom o.values, nulls := c.nulls.appendFrom o.nulls }
/-- `clear`, arrow_column_builder.h:78-81, 519-522. -/
def clear (_ : StrColumn) : StrColumn := {}
/-- arrow_column_builder.h:71, 511. -/
def size (c : StrColumn) : Nat := c.values.size
end StrColumn

/-! ### Arrow C data export -/

/-- The exported `ArrowArray` (arrow_c_data.h, filled at arrow_column_builder.h:104-119, 544-561):
buffers are the column's own storage, by reference; `none` is a null pointer. -/
structure ArrowArr (β : Type) where
  length : Nat
  nullCount : Nat
  offset : Nat
  validity : Option (List UInt8)
  buffers : List β

/-- `export_to_arrow` of the fixed-width builders (arrow_column_builder.h:104-119). -/
def NumColumn.exportArrow {T} (c : NumColumn T) : ArrowArr (List T) :=
  { length := c.values.length, nullCount := c.nulls.nullCountFast, offset := 0,
    validity := if c.nulls.hasNulls then some c.nulls.data else none, buffers := [c.values] }

/-- `export_to_arrow` of the string builder: validity, offsets, bytes (arrow_column_builder.h:544-561). -/
def StrColumn.exportArrow (c : StrColumn) : ArrowArr (List UInt32 ⊕ List UInt8) :=
  { length := c.values.size, nullCount := c.nulls.nullCountFast, offset := 0,
    validity := if c.nulls.hasNulls then some c.nulls.data else none,
    buffers := [.inl c.values.offsets, .inr c.values.data] }

/-- Ownership state of an exported structure: `release` pointer set?, private data owned, and the
number of times private data was deleted (arrow_export.h:57-82). -/
structure Exported where
  releaseSet : Bool
  hasPrivate : Bool
  deletes : Nat
deriving DecidableEq, Repr

/-- `release_arrow_array` / `release_arrow_schema` (arrow_export.h:57-82). -/
def Exported.release (e : Exported) : Exported :=
  if e.releaseSet = false then e
  else { e with deletes := e.deletes + (if e.hasPrivate then 1 else 0), releaseSet := false }

end Vroom
