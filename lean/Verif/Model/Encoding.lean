import Verif.Model.Buffers
/-
Model of the integer and level encoders.
Sources: /repo/src/encoding/rle.cpp, hybrid_rle.cpp, plain.cpp, delta_bitpacked.cpp.
An encoder appends to an output vector; the model returns the appended bytes.
-/
namespace Vroom

/-- `write_varint` (rle.cpp:13-22), `write_uvarint` (delta_bitpacked.cpp:25-34),
`ThriftCompactWriter::write_varint` (thrift_compact.cpp:108-115) and the inline loop at
plain.cpp:442-447.  The 32-bit versions are applied to a zero-extended value. -/
def writeVarint (v : UInt64) : List UInt8 :=
  if h : v ≥ 0x80 then ((v &&& 0x7F) ||| 0x80).toUInt8 :: writeVarint (v >>> 7)
  else [(v &&& 0x7F).toUInt8]
termination_by v.toNat
decreasing_by
  have h' : (0x80 : UInt64).toNat ≤ v.toNat := UInt64.le_iff_toNat_le.1 h
  have e : (0x80 : UInt64).toNat = 128 := rfl
  rw [UInt64.toNat_shiftRight]
  show v.toNat >>> 7 < v.toNat
  rw [Nat.shiftRight_eq_div_pow]
  exact Nat.div_lt_self (by omega) (by decide)

/-- `bits_required` (rle.cpp:25-34). -/
def bitsRequired (v : UInt32) : Nat := if h : v = 0 then 0 else 1 + bitsRequired (v >>> 1)
termination_by v.toNat
decreasing_by
  have : v.toNat ≠ 0 := fun h0 => h (UInt32.toNat_inj.1 (by simpa using h0))
  rw [UInt32.toNat_shiftRight]
  show v.toNat >>> 1 < v.toNat
  rw [Nat.shiftRight_eq_div_pow]
  exact Nat.div_lt_self (by omega) (by decide)

/-- `while (bits_in_buffer >= 8) { push(buffer & 0xFF); buffer >>= 8; bits_in_buffer -= 8; }`
(rle.cpp:107-112 and its copies). -/
def drain (buf : UInt64) (n : Nat) : List UInt8 × UInt64 × Nat :=
  if 8 ≤ n then
    let r := drain (buf >>> 8) (n - 8)
    (buf.toUInt8 :: r.1, r.2)
  else ([], buf, n)
termination_by n

/-- The bit-packing loop (rle.cpp:99-119, hybrid_rle.cpp:135-153, plain.cpp:500-521, 624-646,
delta_bitpacked.cpp:45-67): `n` bits are pending in `buf`. -/
def packLoop (w : Nat) (buf : UInt64) (n : Nat) : List UInt64 → List UInt8
  | [] => if 0 < n then [buf.toUInt8] else []
  | v :: vs =>
    let r := drain (buf ||| (v <<< n.toUInt64)) (n + w)
    r.1 ++ packLoop w r.2.1 r.2.2 vs

/-- `for (b = 0; b < bytes; ++b) push((value >> (b*8)) & 0xFF)` (rle.cpp:86-89 and copies).
For `b ≥ 4` the 32-bit shift count would be out of range; widths above 32 do not occur. -/
def valueBytes (v : UInt32) (k : Nat) : List UInt8 :=
  (List.range k).map (fun b => (v >>> (b * 8).toUInt32).toUInt8)

/-- `write_rle_run` (rle.cpp:80-90; copies at plain.cpp:482-489, 606-613). -/
def rleRun (w : Nat) (value : UInt32) (count : Nat) : List UInt8 :=
  writeVarint ((UInt32.ofNat count) <<< 1).toUInt64 ++ valueBytes value ((w + 7) / 8)

/-- `write_bit_packed_run` (rle.cpp:92-120): pads with zeros to whole groups of 8. -/
def packedRun (w : Nat) (vs : List UInt32) : List UInt8 :=
  let groups := (vs.length + 7) / 8
  writeVarint (((UInt32.ofNat groups) <<< 1) ||| 1).toUInt64 ++
    packLoop w 0 0 ((vs ++ List.replicate (groups * 8 - vs.length) 0).map UInt32.toUInt64)

/-- Length of the run of equal values at the front, at most `cap` (rle.cpp:55-58). -/
def runLength (v : UInt32) (cap : Nat) : List UInt32 → Nat
  | [] => 0
  | x :: t => if cap = 0 then 0 else if x = v then 1 + runLength v (cap - 1) t else 0

/-- `max_run_length_` (rle.cpp:44). -/
def maxRun : Nat := 2 ^ 30

/-- The loop of `RleEncoder::encode` (rle.cpp:51-76); the same loop appears in
`encode_def_levels_hybrid_arrow` (plain.cpp:467-529) and `encode_dictionary_indices`
(plain.cpp:596-654). -/
def rleLoop (w : Nat) (vs : List UInt32) : List UInt8 :=
  match vs with
  | [] => []
  | v :: t =>
    let run := runLength v maxRun (v :: t)
    if 8 ≤ run then rleRun w v run ++ rleLoop w ((v :: t).drop run)
    else packedRun w ((v :: t).take (min 8 (v :: t).length)) ++ rleLoop w ((v :: t).drop (min 8 (v :: t).length))
termination_by vs.length
decreasing_by
  · simp; omega
  · simp; omega

/-- `RleEncoder::encode` (rle.cpp:47-77). -/
def rleEncode (w : Nat) (vs : List UInt32) : List UInt8 :=
  if vs.length = 0 ∨ w = 0 then [] else rleLoop w vs

/-- 4 bytes little-endian (e.g. rle length prefixes, plain.cpp:531-535; `memcpy` of a `uint32_t` on a
little-endian machine, plain.cpp:18-19). -/
def le4 (v : UInt32) : List UInt8 :=
  [v.toUInt8, (v >>> 8).toUInt8, (v >>> 16).toUInt8, (v >>> 24).toUInt8]

/-- 8 bytes little-endian (`memcpy` of a 64-bit value on a little-endian machine, plain.cpp:62). -/
def le8 (v : UInt64) : List UInt8 :=
  [v.toUInt8, (v >>> 8).toUInt8, (v >>> 16).toUInt8, (v >>> 24).toUInt8,
   (v >>> 32).toUInt8, (v >>> 40).toUInt8, (v >>> 48).toUInt8, (v >>> 56).toUInt8]

/-- `encode_definition_levels_rle` (rle.cpp:124-143); `nulls[i] = true` means null. -/
def encodeDefinitionLevelsRle (nulls : List Bool) (maxDef : UInt8) : List UInt8 :=
  if nulls.isEmpty then []
  else rleEncode (bitsRequired maxDef.toUInt32) (nulls.map (fun isNull => if isNull then 0 else maxDef.toUInt32))

/-- `encode_def_levels_hybrid_arrow` (plain.cpp:387-538).  The output vector's earlier contents are
not modelled; the section is produced on its own. -/
def encodeDefLevelsArrow (nulls : NullBitmap) (maxDef : UInt8) (nullCount : Nat) : List UInt8 :=
  if nulls.size = 0 then []
  else if (nullCount = 0 ∨ nulls.hasNulls = false) ∧ maxDef = 1 then
    let header : UInt32 := (UInt32.ofNat nulls.size) <<< 1
    let varintSize : Nat :=
      if header < 0x80 then 1 else if header < 0x4000 then 2 else if header < 0x200000 then 3
      else if header < 0x10000000 then 4 else 5
    -- the buffer is sized from `varintSize`; the bytes are written through a moving pointer
    le4 (UInt32.ofNat (varintSize + 1)) ++ vresize (writeVarint header.toUInt64 ++ [1]) (varintSize + 1) 0
  else
    let w := bitsRequired maxDef.toUInt32
    let body :=
      if nullCount = 0 ∨ nulls.hasNulls = false then rleRun w maxDef.toUInt32 nulls.size
      else rleLoop w ((List.range nulls.size).map (fun i => if nulls.isValid i then maxDef.toUInt32 else 0))
    le4 (UInt32.ofNat body.length) ++ body

end Vroom

namespace Vroom

/-- `zigzag_encode` (delta_bitpacked.cpp:20-22, thrift_compact.cpp:121-125):
`(value << 1) ^ (value >> 63)` with an arithmetic right shift. -/
def zigzagEncode (v : Int64) : UInt64 := ((v <<< 1) ^^^ (v >>> 63)).toUInt64

/-- `write_signed_varint` (thrift_compact.cpp:117-119) and `write_uvarint(zigzag_encode(v))`
(delta_bitpacked.cpp:77). -/
def writeSignedVarint (v : Int64) : List UInt8 := writeVarint (zigzagEncode v)

/-- Members of `HybridRleEncoder` (hybrid_rle.cpp:155-161). -/
structure HybridEnc where
  out : List UInt8 := []
  buf : List UInt32 := []
  cur : UInt32 := 0
  rep : Nat := 0
deriving DecidableEq, Repr

namespace HybridEnc

/-- `flush_rle_run` (hybrid_rle.cpp:107-121). -/
def flushRle (w : Nat) (s : HybridEnc) : HybridEnc :=
  if s.rep = 0 then s
  else { s with out := s.out ++ rleRun w s.cur s.rep, rep := 0 }

/-- `flush_bit_packed(count)` (hybrid_rle.cpp:123-153); `count ≤ buf.length` at both call sites. -/
def flushPacked (w : Nat) (s : HybridEnc) (count : Nat) : HybridEnc :=
  if count = 0 then s else { s with out := s.out ++ packedRun w (s.buf.take count) }

/-- `flush_buffered` (hybrid_rle.cpp:84-105). -/
def flushBuffered (w : Nat) (s : HybridEnc) : HybridEnc :=
  if s.buf = [] then s
  else
    let s :=
      if 8 ≤ s.rep ∧ s.buf.length = s.rep then s.flushRle w
      else if 8 ≤ s.rep then
        let k := s.buf.length - s.rep
        (if 0 < k then s.flushPacked w k else s).flushRle w
      else s.flushPacked w s.buf.length
    { s with buf := [], rep := 0 }

/-- `put` (hybrid_rle.cpp:29-72). -/
def put (w : Nat) (s : HybridEnc) (v : UInt32) : HybridEnc :=
  if s.buf = [] then { s with cur := v, rep := 1, buf := [v] }
  else
    let s :=
      if v = s.cur then
        let s := { s with rep := s.rep + 1, buf := s.buf ++ [v] }
        if 8 ≤ s.rep then
          let k := s.buf.length - s.rep
          if 0 < k then
            let s := s.flushPacked w k
            { s with buf := s.buf.drop (s.buf.length - s.rep) }
          else s
        else s
      else
        let s := if 8 ≤ s.rep then { s.flushRle w with buf := [] } else s
        { s with cur := v, rep := 1, buf := s.buf ++ [v] }
    if 64 ≤ s.buf.length then s.flushBuffered w else s

end HybridEnc

/-- `encode_hybrid_rle` (hybrid_rle.cpp:164-178). -/
def encodeHybridRle (w : Nat) (vs : List UInt32) : List UInt8 :=
  if vs.length = 0 then []
  else ((vs.foldl (fun s v => s.put w v) ({} : HybridEnc)).flushBuffered w).out

/-- `encode_def_levels_hybrid` (hybrid_rle.cpp:181-227); `nulls[i] = true` means null. -/
def encodeDefLevelsHybrid (nulls : List Bool) (maxDef : UInt8) (nullCount : Nat) : List UInt8 :=
  if nulls = [] then []
  else
    let w := bitsRequired maxDef.toUInt32
    let body :=
      if nullCount = 0 then rleRun w maxDef.toUInt32 nulls.length
      else encodeHybridRle w (nulls.map (fun isNull => if isNull then 0 else maxDef.toUInt32))
    le4 (UInt32.ofNat body.length) ++ body

end Vroom
