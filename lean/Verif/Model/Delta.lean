import Verif.Model.Encoding
/-
Model of /repo/src/encoding/delta_bitpacked.cpp and delta_length.cpp.
Differences are computed exactly; `none` means a signed 64-bit subtraction overflowed (undefined
behaviour in C++).
-/
namespace Vroom

/-- `bit_width_for_value` (delta_bitpacked.cpp:37-41): `64 - clz(v)`. -/
def bitWidthForValue (v : UInt64) : Nat := if v = 0 then 0 else Nat.log2 v.toNat + 1

/-- `bit_pack` (delta_bitpacked.cpp:44-67). -/
def bitPack (vs : List UInt64) (w : Nat) : List UInt8 := if w = 0 then [] else packLoop w 0 0 vs

/-- `BLOCK_SIZE`, `MINIBLOCK_COUNT`, `MINIBLOCK_SIZE` (delta_bitpacked.cpp:15-17). -/
def blockSize : Nat := 128
/-- delta_bitpacked.cpp:16. -/
def miniblockCount : Nat := 4
/-- delta_bitpacked.cpp:17. -/
def miniblockSize : Nat := blockSize / miniblockCount

/-- The result of a signed 64-bit operation with exact value `x` (the signed additions and subtractions of delta_bitpacked.cpp:82-86, 112). -/
def int64? (x : Int) : Option Int := if -(2 ^ 63) ≤ x ∧ x < 2 ^ 63 then some x else none

/-- Differences of neighbours (delta_bitpacked.cpp:82-86, 163-167). -/
def deltasOf : List Int → Option (List Int)
  | a :: b :: t => do
    let d ← int64? (b - a)
    let ds ← deltasOf (b :: t)
    pure (d :: ds)
  | _ => some []

/-- Minimum of a block (delta_bitpacked.cpp:95-98). -/
def minDelta : List Int → Int
  | [] => 0
  | d :: t => t.foldl min d

/-- `static_cast<uint64_t>(deltas[i] - min_delta)` (delta_bitpacked.cpp:112). -/
def adjust (m d : Int) : Option UInt64 := (int64? (d - m)).map (fun x => UInt64.ofNat x.toNat)

/-- Adjusted values of miniblock `mb` (delta_bitpacked.cpp:107-117, 127-138). -/
def miniblock (adj : List UInt64) (mb : Nat) : List UInt64 := (adj.drop (mb * miniblockSize)).take miniblockSize

/-- `bit_widths[mb]` (delta_bitpacked.cpp:110-117). -/
def mbWidth (mb : List UInt64) : Nat := bitWidthForValue (mb.foldl max 0)

/-- One block (delta_bitpacked.cpp:91-141). -/
def deltaBlock (ds : List Int) : Option (List UInt8) := do
  let m := minDelta ds
  let adj ← ds.mapM (adjust m)
  let mbs := (List.range miniblockCount).map (miniblock adj)
  pure (writeSignedVarint (Int64.ofInt m) ++ mbs.map (fun b => UInt8.ofNat (mbWidth b)) ++
    mbs.flatMap (fun b => if b.length = 0 then [] else bitPack b (mbWidth b)))

/-- The block loop (delta_bitpacked.cpp:88-144). -/
def deltaBlocksEnc (ds : List Int) : Option (List UInt8) :=
  match ds with
  | [] => some []
  | d :: t => do
    let b ← deltaBlock ((d :: t).take blockSize)
    let r ← deltaBlocksEnc ((d :: t).drop blockSize)
    pure (b ++ r)
termination_by ds.length
decreasing_by simp [blockSize]; omega

/-- `encode_int64_delta` (delta_bitpacked.cpp:148-216); `encode_int32_delta` (69-145) runs the same code
on values widened to 64 bits. -/
def encodeDelta (vs : List Int64) : Option (List UInt8) :=
  match vs with
  | [] => some []
  | v :: t => do
    let header := writeVarint (UInt64.ofNat blockSize) ++ writeVarint (UInt64.ofNat miniblockCount) ++
      writeVarint (UInt64.ofNat (v :: t).length) ++ writeSignedVarint v
    let ds ← deltasOf ((v :: t).map Int64.toInt)
    let body ← deltaBlocksEnc ds
    pure (header ++ body)

/-- `encode_int32_delta` (delta_bitpacked.cpp:69-145). -/
def encodeInt32Delta (vs : List Int32) : Option (List UInt8) := encodeDelta (vs.map Int32.toInt64)

/-- `encode_delta_length_byte_array` (delta_length.cpp:16-45); `nulls[i] = true` means null, an empty
bitmap means no nulls. -/
def encodeDeltaLength (values : List (List UInt8)) (nulls : List Bool) : Option (List UInt8) :=
  if values = [] then some []
  else do
    let rows := (values.zipIdx.filter (fun p => nulls.isEmpty || !(nulls.getD p.2 false))).map (·.1)
    let lens ← encodeInt32Delta (rows.map (fun s => Int32.ofNat s.length))
    pure (lens ++ rows.flatten)

end Vroom
