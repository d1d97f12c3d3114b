import Verif.Model.Encoding
/-
Model of the PLAIN encoders (/repo/src/encoding/plain.cpp).
Each encoder first grows the output by a computed number of bytes and then writes through a raw
pointer.  The model keeps both: `none` means more bytes were written than allocated (a heap overflow
in C++), and bytes allocated but not written keep the value 0 that `resize` gives them.
A value is described by `bytes : T → List UInt8`, its in-memory representation, of size `k`.
-/
namespace Vroom

/-- Result of growing by `alloc` bytes and writing `written` through the pointer (plain.cpp:17-20, 47-49, 61-63, 90-92, 104-106, 133-135). -/
def writeInto (alloc : Nat) (written : List UInt8) : Option (List UInt8) :=
  if alloc < written.length then none else some (vresize written alloc 0)

/-- `encode_int32_plain_arrow`, `encode_int64_plain_arrow`, `encode_float64_plain_arrow`
(plain.cpp:247-325): bulk copy if `null_count_fast() == 0`, else the valid rows one by one.
`values.size() - null_count` is an unsigned subtraction; if it wrapped, `resize` would throw, which is
`none` here as well (`values.length < nullCount`). -/
def encodeFixedArrow {T : Type} (k : Nat) (bytes : T → List UInt8) (values : List T) (nulls : NullBitmap) :
    Option (List UInt8) :=
  if nulls.nullCountFast = 0 then writeInto (values.length * k) (values.flatMap bytes)
  else if values.length < nulls.nullCountFast then none
  else writeInto ((values.length - nulls.nullCountFast) * k)
    (values.zipIdx.flatMap (fun p => if nulls.isValid p.2 then bytes p.1 else []))

/-- The bit-setting loop of `encode_bool_plain*` (plain.cpp:339-347): `none` is a write past the end. -/
def packBools (d : List UInt8) (idx : Nat) : List Bool → Option (List UInt8)
  | [] => some d
  | true :: t => if d.length ≤ idx / 8 then none else packBools (NullBitmap.setBit d idx) (idx + 1) t
  | false :: t => packBools d (idx + 1) t

/-- `encode_bool_plain_arrow` (plain.cpp:328-347). -/
def encodeBoolArrow (values : List UInt8) (nulls : NullBitmap) : Option (List UInt8) :=
  if values.length < nulls.nullCountFast then none
  else
    packBools (List.replicate ((values.length - nulls.nullCountFast + 7) / 8) 0) 0
      ((values.zipIdx.filter (fun p => nulls.isValid p.2)).map (fun p => p.1 != 0))

/-- One byte array: 4-byte length, then the bytes (plain.cpp:366-377 and copies). -/
def lenPrefixed (s : List UInt8) : List UInt8 := le4 (UInt32.ofNat s.length) ++ s

/-- `StringBuffer::length` (arrow_buffer.h:259-261), a 32-bit subtraction. -/
def StringBuffer.len (b : StringBuffer) (i : Nat) : Nat := (b.offsets.getD (i + 1) 0 - b.offsets.getD i 0).toNat

/-- `encode_byte_array_plain_arrow` (plain.cpp:350-379). -/
def encodeByteArrayArrow (values : StringBuffer) (nulls : NullBitmap) : Option (List UInt8) :=
  let rows := (List.range values.size).filter (fun i => nulls.isValid i)
  writeInto ((rows.map (fun i => 4 + values.len i)).sum) (rows.flatMap (fun i => lenPrefixed (values.get i)))

/-! Legacy encoders over `std::vector` with a `std::vector<bool>` in which `true` means null; an empty
bitmap means no nulls.  The bitmap, if present, has one entry per value. -/

/-- `encode_int32_plain` / `encode_int64_plain` / `encode_float64_plain` (plain.cpp:24-143). -/
def encodeFixedLegacy {T : Type} (k : Nat) (bytes : T → List UInt8) (values : List T) (nulls : List Bool) :
    Option (List UInt8) :=
  if nulls.isEmpty then writeInto (values.length * k) (values.flatMap bytes)
  else
    let nonNull := ((List.range values.length).filter (fun i => !(nulls.getD i false))).length
    if nonNull = values.length then writeInto (values.length * k) (values.flatMap bytes)
    else writeInto (nonNull * k) (values.zipIdx.flatMap (fun p => if nulls.getD p.2 false then [] else bytes p.1))

/-- `encode_bool_plain` (plain.cpp:158-181). -/
def encodeBoolLegacy (values : List Bool) (nulls : List Bool) : Option (List UInt8) :=
  let rows := values.zipIdx.filter (fun p => nulls.isEmpty || !(nulls.getD p.2 false))
  packBools (List.replicate ((rows.length + 7) / 8) 0) 0 (rows.map (·.1))

/-- `encode_byte_array_plain` (plain.cpp:209-239). -/
def encodeByteArrayLegacy (values : List (List UInt8)) (nulls : List Bool) : Option (List UInt8) :=
  let rows := (values.zipIdx.filter (fun p => nulls.isEmpty || !(nulls.getD p.2 false))).map (·.1)
  writeInto ((rows.map (fun s => 4 + s.length)).sum) (rows.flatMap lenPrefixed)

/-- `encode_string_plain` (plain.cpp:185-206) and `encode_dictionary_page_strings` (plain.cpp:546-565). -/
def encodeStrings (values : List (List UInt8)) : Option (List UInt8) :=
  writeInto ((values.map (fun s => 4 + s.length)).sum) (values.flatMap lenPrefixed)

end Vroom
