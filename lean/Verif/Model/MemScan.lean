import Verif.Model.SplitLine
import Verif.Model.SplitFields
/-
Memory-level model of the scanners: pointers are indices into an allocation, every load is checked.
Sources: /repo/src/parser/simd_chunk_finder.cpp, chunk_finder.cpp, split_fields.cpp, split_fields-inl.h,
/repo/include/libvroom/split_fields.h, /repo/src/parser/split_fields_iter-inl.h.

`m` is the allocation the caller's pointer points to, `size` the size passed along; `none` is a load outside
the allocation.  A vector has any positive number of lanes here (Highway's `Lanes(d)` is not bounded by 64 on
SVE and RVV targets).
-/
namespace Vroom.Mem
open Vroom

/-- One byte load `data[i]` (any load of simd_chunk_finder.cpp, split_fields.h, csv_reader.cpp). -/
def ld (m : Bytes) (i : Nat) : Option UInt8 := m[i]?

/-- `hn::LoadU(d, data + i)` with `n` lanes (simd_chunk_finder.cpp:76, 225, 405). -/
def ldVec (m : Bytes) (i n : Nat) : Option Bytes := if i + n ≤ m.length then some ((m.drop i).take n) else none

/-- `i < size && data[i] == c` (simd_chunk_finder.cpp:563, 574, 598, 610). -/
def peekEq (m : Bytes) (size i : Nat) (c : UInt8) : Option Bool := if i < size then (ld m i).map (· == c) else some false

/-- What run-time dispatch decides, without the restriction of `Cpu` that the lanes divide 64 (simd_chunk_finder.cpp:58, 75). -/
structure Target where
  lanes : Nat
  pf : PrefixImpl
  pos : 0 < lanes

/-- The inner loop over mask bytes (simd_chunk_finder.cpp:93-101). -/
def maskBytes (N : Nat) (c : UInt8) (v : Bytes) (chunk : Nat) (acc : U64) : U64 :=
  (List.range ((N + 7) / 8)).foldl (fun acc b =>
    if chunk + b * 8 < 64 then acc ||| (storeMaskByte N c v 0 b <<< (chunk + b * 8)) else acc) acc

/-- `for (chunk = 0; chunk < 64; chunk += N)` with a vector load in each round (simd_chunk_finder.cpp:75-101, 223-250,
374-401; split_fields_iter-inl.h:39-56). -/
def blockMaskFrom (m : Bytes) (N : Nat) (hN : 0 < N) (c : UInt8) (base chunk : Nat) (acc : U64) : Option U64 :=
  if chunk < 64 then
    (ldVec m (base + chunk) N).bind (fun v => blockMaskFrom m N hN c base (chunk + N) (maskBytes N c v chunk acc))
  else some acc
termination_by 64 - chunk
decreasing_by omega

/-- The comparison mask of the 64 bytes at `base` (simd_chunk_finder.cpp:75-101). -/
def blockMaskM (t : Target) (m : Bytes) (base : Nat) (c : UInt8) : Option U64 := blockMaskFrom m t.lanes t.pos c base 0 0#64

/-- `count_rows_scalar` (simd_chunk_finder.cpp:553-586). -/
def countRowsScalarM (m : Bytes) (size : Nat) (q : UInt8) (rows last : Nat) (inq : Bool) (i : Nat) : Option (Nat × Nat) :=
  if i < size then
    (ld m i).bind fun c =>
      if c = q then
        (if inq then peekEq m size (i + 1) q else some false).bind fun esc =>
          if esc then countRowsScalarM m size q rows last inq (i + 2)
          else countRowsScalarM m size q rows last (!inq) (i + 1)
      else if inq = false then
        if c = LF then countRowsScalarM m size q (rows + 1) (i + 1) inq (i + 1)
        else if c = CR then
          (peekEq m size (i + 1) LF).bind fun nl =>
            if nl then countRowsScalarM m size q rows last inq (i + 1)
            else countRowsScalarM m size q (rows + 1) (i + 1) inq (i + 1)
        else countRowsScalarM m size q rows last inq (i + 1)
      else countRowsScalarM m size q rows last inq (i + 1)
  else some (rows, last)
termination_by size - i

/-- Scalar tail of `AnalyzeChunkSimdImpl` (simd_chunk_finder.cpp:146-175). -/
def analyzeTailM (m : Bytes) (size : Nat) (q : UInt8) (rows last : Nat) (qs : U64) (i : Nat) : Option (Nat × Nat × U64) :=
  if i < size then
    (ld m i).bind fun c =>
      if c = q then
        (if qs ≠ 0#64 then peekEq m size (i + 1) q else some false).bind fun esc =>
          if esc then analyzeTailM m size q rows last qs (i + 2)
          else analyzeTailM m size q rows last (if qs ≠ 0#64 then 0#64 else BitVec.allOnes 64) (i + 1)
      else if qs = 0#64 then
        if c = LF then analyzeTailM m size q (rows + 1) (i + 1) qs (i + 1)
        else if c = CR then
          (peekEq m size (i + 1) LF).bind fun nl =>
            if nl then analyzeTailM m size q rows last qs (i + 1)
            else analyzeTailM m size q (rows + 1) (i + 1) qs (i + 1)
        else analyzeTailM m size q rows last qs (i + 1)
      else analyzeTailM m size q rows last qs (i + 1)
  else some (rows, last, qs)
termination_by size - i

/-- `standalone_cr & (1ULL << 63)` and the look at the next block's first byte (simd_chunk_finder.cpp:121-131, 436-450). -/
def validEolM (m : Bytes) (size off : Nat) (inside lf cr : U64) : Option U64 :=
  let validLf := lf &&& ~~~inside
  let validCr := cr &&& ~~~inside
  let crlfCr := validCr &&& (lf >>> 1)
  let standalone := validCr &&& ~~~crlfCr
  (if standalone &&& (1#64 <<< 63) ≠ 0#64 then
    (peekEq m size (off + 64) LF).map fun nl => if nl then standalone &&& ~~~(1#64 <<< 63) else standalone
  else some standalone).map fun s => validLf ||| s

/-- Block loop of `AnalyzeChunkSimdImpl` (simd_chunk_finder.cpp:68-144), followed by the tail. -/
def analyzeLoopM (t : Target) (m : Bytes) (size : Nat) (q : UInt8) (rows last : Nat) (qs : U64) (off : Nat) : Option (Nat × Nat × U64) :=
  if off + 64 ≤ size then
    (blockMaskM t m off q).bind fun qm =>
    (blockMaskM t m off LF).bind fun lf =>
    (blockMaskM t m off CR).bind fun cr =>
    let r := findQuoteMask t.pf.run qm qs
    (validEolM m size off r.1 lf cr).bind fun eol =>
      analyzeLoopM t m size q (rows + popcount eol) (if eol ≠ 0#64 then off + (63 - eol.clz.toNat) + 1 else last) r.2 (off + 64)
  else analyzeTailM m size q rows last qs off
termination_by size - off

/-- `analyze_chunk_simd` (simd_chunk_finder.cpp:45-179, 525-530). -/
def analyzeChunkM (t : Target) (m : Bytes) (size : Nat) (q : UInt8) (startInside : Bool) : Option (Nat × Nat × Bool) :=
  let init : U64 := if startInside then BitVec.allOnes 64 else 0#64
  if size = 0 then some (0, 0, decide (init ≠ 0#64))
  else (analyzeLoopM t m size q 0 0 init 0).map fun r => (r.1, r.2.1, decide (r.2.2 ≠ 0#64))

/-- `ChunkFinder::count_rows` (chunk_finder.cpp:82-87). -/
def countRowsM (t : Target) (m : Bytes) (size : Nat) (q : UInt8) : Option (Nat × Nat) :=
  if size ≥ 64 then (analyzeChunkM t m size q false).map fun r => (r.1, r.2.1)
  else countRowsScalarM m size q 0 0 false 0

/-- Scalar tail of `AnalyzeChunkDualStateSimdImpl` (simd_chunk_finder.cpp:296-335). -/
def dualTailM (m : Bytes) (size : Nat) (q : UInt8) (s : DualStats) (par : Bool) (i : Nat) : Option DualStats :=
  if i < size then
    (ld m i).bind fun c =>
      if c = q then dualTailM m size q s (!par) (i + 1)
      else if c = LF then
        if par = false then dualTailM m size q { s with rowsOutside := s.rowsOutside + 1, lastOutside := i + 1 } par (i + 1)
        else dualTailM m size q { s with rowsInside := s.rowsInside + 1, lastInside := i + 1 } par (i + 1)
      else if c = CR then
        (peekEq m size (i + 1) LF).bind fun nl =>
          if nl then dualTailM m size q s par (i + 1)
          else if par = false then dualTailM m size q { s with rowsOutside := s.rowsOutside + 1, lastOutside := i + 1 } par (i + 1)
          else dualTailM m size q { s with rowsInside := s.rowsInside + 1, lastInside := i + 1 } par (i + 1)
      else dualTailM m size q s par (i + 1)
  else some { s with endsInside := par }
termination_by size - i

/-- Block loop of `AnalyzeChunkDualStateSimdImpl` (simd_chunk_finder.cpp:217-294). -/
def dualLoopM (t : Target) (m : Bytes) (size : Nat) (q : UInt8) (s : DualStats) (mask : U64) (off : Nat) : Option DualStats :=
  if off + 64 ≤ size then
    (blockMaskM t m off q).bind fun qm =>
    (blockMaskM t m off LF).bind fun lf =>
    (blockMaskM t m off CR).bind fun cr =>
    let parity := t.pf.run qm ^^^ mask
    let mask' := parity.sshiftRight 63
    let crlfCr := cr &&& (lf >>> 1)
    let out := (lf &&& ~~~parity) ||| (cr &&& ~~~parity &&& ~~~crlfCr)
    let ins := (lf &&& parity) ||| (cr &&& parity &&& ~~~crlfCr)
    (if cr &&& (1#64 <<< 63) ≠ 0#64 then peekEq m size (off + 64) LF else some false).bind fun fix =>
    let out := if fix then out &&& ~~~(1#64 <<< 63) else out
    let ins := if fix then ins &&& ~~~(1#64 <<< 63) else ins
    dualLoopM t m size q
      { rowsOutside := s.rowsOutside + popcount out
        rowsInside := s.rowsInside + popcount ins
        lastOutside := if out ≠ 0#64 then off + (63 - out.clz.toNat) + 1 else s.lastOutside
        lastInside := if ins ≠ 0#64 then off + (63 - ins.clz.toNat) + 1 else s.lastInside
        endsInside := s.endsInside }
      mask' (off + 64)
  else dualTailM m size q s (decide (mask ≠ 0#64)) off
termination_by size - off

/-- `analyze_chunk_dual_state_simd` (simd_chunk_finder.cpp:192-338, 534-544). -/
def analyzeDualM (t : Target) (m : Bytes) (size : Nat) (q : UInt8) : Option DualStats :=
  if size = 0 then some {} else dualLoopM t m size q {} 0#64 0

/-- `find_row_end_scalar` (simd_chunk_finder.cpp:589-622) and the scalar tail of `FindRowEndSimdImpl` (439-462). -/
def findRowEndScalarM (m : Bytes) (size : Nat) (q : UInt8) (inq : Bool) (i : Nat) : Option Nat :=
  if i < size then
    (ld m i).bind fun c =>
      if c = q then
        (if inq then peekEq m size (i + 1) q else some false).bind fun esc =>
          if esc then findRowEndScalarM m size q inq (i + 2)
          else findRowEndScalarM m size q (!inq) (i + 1)
      else if inq = false then
        if c = LF then some (i + 1)
        else if c = CR then
          (peekEq m size (i + 1) LF).bind fun nl => if nl then some (i + 2) else some (i + 1)
        else findRowEndScalarM m size q inq (i + 1)
      else findRowEndScalarM m size q inq (i + 1)
  else some size
termination_by size - i

/-- Block loop of `FindRowEndSimdImpl` (simd_chunk_finder.cpp:397-469). -/
def rowEndLoopM (t : Target) (m : Bytes) (size : Nat) (q : UInt8) (qs : U64) (off : Nat) : Option Nat :=
  if off + 64 ≤ size then
    (blockMaskM t m off q).bind fun qm =>
    (blockMaskM t m off LF).bind fun lf =>
    (blockMaskM t m off CR).bind fun cr =>
    let r := findQuoteMask t.pf.run qm qs
    (validEolM m size off r.1 lf cr).bind fun eol =>
      if eol ≠ 0#64 then
        let p := off + eol.ctz.toNat
        (ld m p).bind fun c =>
          if c = LF then some (p + 1)
          else (peekEq m size (p + 1) LF).bind fun nl => if nl then some (p + 2) else some (p + 1)
      else rowEndLoopM t m size q r.2 (off + 64)
  else findRowEndScalarM m size q (decide (qs ≠ 0#64)) off
termination_by size - off

/-- Unaligned prefix of `FindRowEndSimdImpl` (simd_chunk_finder.cpp:361-394). -/
def rowEndPrefixM (t : Target) (m : Bytes) (size : Nat) (q : UInt8) (aligned : Nat) (inq : Bool) (i : Nat) : Option Nat :=
  if i < aligned ∧ i < size then
    (ld m i).bind fun c =>
      if c = q then
        (if inq then peekEq m size (i + 1) q else some false).bind fun esc =>
          if esc then rowEndPrefixM t m size q aligned inq (i + 2)
          else rowEndPrefixM t m size q aligned (!inq) (i + 1)
      else if inq = false then
        if c = LF then some (i + 1)
        else if c = CR then
          (peekEq m size (i + 1) LF).bind fun nl => if nl then some (i + 2) else some (i + 1)
        else rowEndPrefixM t m size q aligned inq (i + 1)
      else rowEndPrefixM t m size q aligned inq (i + 1)
  else rowEndLoopM t m size q (if inq then BitVec.allOnes 64 else 0#64) i
termination_by size - i

/-- `find_row_end_simd` (simd_chunk_finder.cpp:343-496, 548-550). -/
def findRowEndSimdM (t : Target) (m : Bytes) (size : Nat) (q : UInt8) (start : Nat) : Option Nat :=
  if start ≥ size then some size
  else rowEndPrefixM t m size q (min (((start + 63) / 64) * 64) size) false start

/-- `ChunkFinder::find_row_end` (chunk_finder.cpp:12-20); the subtraction wraps for `start > size`. -/
def findRowEndM (t : Target) (m : Bytes) (size : Nat) (q : UInt8) (start : Nat) : Option Nat :=
  if size < start ∨ size - start ≥ 64 then findRowEndSimdM t m size q start
  else findRowEndScalarM m size q false start

end Vroom.Mem
