import Verif.Model.MemRead
import Verif.Model.LineParser
import Verif.Model.FindChunks
/-
Memory-level model of the line and chunk functions of the public header: split_fields, split_fields_into, LineParser::parse_line,
ChunkFinder::find_chunks.  As in Model/MemScan, `m` is the allocation behind the caller's pointer, `size` the size passed along, and `none`
an access outside the allocation.
Sources: /repo/src/parser/split_fields.cpp, split_fields-inl.h, line_parser.cpp, chunk_finder.cpp.
-/
namespace Vroom.Mem
open Vroom

/-- A `FieldView` as returned to the caller: `data` (as an offset from the caller's pointer), `size`, `quoted` (types.h; split_fields.cpp:45-48). -/
structure LineView where
  off : Nat
  size : Nat
  quoted : Bool
deriving DecidableEq, Repr

/-- `while (field.size > 0 && (field.data[0] == ' ' || …)) { field.data++; field.size--; }` (split_fields.cpp:58-61, 98-101, 145-148;
split_fields-inl.h:30-33): the new pointer and size. -/
def trimFrontM (p : UInt8 → Bool) (m : Bytes) : Nat → Nat → Option (Nat × Nat)
  | off, 0 => some (off, 0)
  | off, size + 1 => (ld m off).bind fun c => if p c then trimFrontM p m (off + 1) size else some (off, size + 1)

/-- `while (field.size > 0 && p(field.data[field.size - 1])) field.size--;` (split_fields.cpp:62-65, 84-87, 102-105, 151-154, 198-201;
split_fields-inl.h:36-39, 178-181). -/
def trimBackM (p : UInt8 → Bool) (m : Bytes) (off : Nat) : Nat → Option Nat
  | 0 => some 0
  | size + 1 => (ld m (off + size)).bind fun c => if p c then trimBackM p m off size else some (size + 1)

/-- `field.size >= 2 && field.data[0] == quote && field.data[field.size - 1] == quote` (split_fields.cpp:51, 90, 138; split_fields-inl.h:23). -/
def wrappedM (m : Bytes) (q : UInt8) (off size : Nat) : Option Bool :=
  if size ≥ 2 then
    (ld m off).bind fun a => if a = q then (ld m (off + size - 1)).map (· == q) else some false
  else some false

/-- `PostProcessField` (split_fields.cpp:136-155, split_fields-inl.h:21-40; spelt out at split_fields.cpp:50-65, 89-105). -/
def postProcessM (m : Bytes) (q : UInt8) (off size : Nat) : Option LineView :=
  (wrappedM m q off size).bind fun w =>
  (trimFrontM isBlank m (if w then off + 1 else off) (if w then size - 2 else size)).bind fun r =>
  (trimBackM isBlank m r.1 r.2).map fun n => ⟨r.1, n, w⟩

/-- A field from `field_start` to a later position: `field.size = i - field_start` (split_fields.cpp:45-48, 180-184; split_fields-inl.h:115-119,
127-131, 159-163); the subtraction must not wrap. -/
def fieldM (m : Bytes) (q : UInt8) (fs i : Nat) : Option LineView := if fs ≤ i then postProcessM m q fs (i - fs) else none

/-- The last field (split_fields.cpp:78-107, 192-203; split_fields-inl.h:173-187). -/
def lastFieldM (m : Bytes) (size : Nat) (q : UInt8) (fs : Nat) (acc : List LineView) : Option (List LineView) :=
  if fs ≤ size then (trimBackM isEolByte m fs (size - fs)).bind fun n => (postProcessM m q fs n).map fun v => acc ++ [v] else none

/-- The byte loop (split_fields.cpp:36-76, 170-190; split_fields-inl.h:146-171) and what follows it. -/
def splitTailM (m : Bytes) (size : Nat) (sep q : UInt8) (inq : Bool) (fs : Nat) (acc : List LineView) (i : Nat) : Option (List LineView) :=
  if i < size then
    (ld m i).bind fun c =>
      if c = q then
        (if inq then peekEq m size (i + 1) q else some false).bind fun esc =>
          if esc then splitTailM m size sep q inq fs acc (i + 2)
          else splitTailM m size sep q (!inq) fs acc (i + 1)
      else if inq = false then
        if c = sep then (fieldM m q fs i).bind fun v => splitTailM m size sep q inq (i + 1) (acc ++ [v]) (i + 1)
        else if isEolByte c then lastFieldM m size q fs acc
        else splitTailM m size sep q inq fs acc (i + 1)
      else splitTailM m size sep q inq fs acc (i + 1)
  else lastFieldM m size q fs acc
termination_by size - i

/-- `split_fields_scalar` and `split_fields_scalar_into` (split_fields.cpp:24-109, 158-204). -/
def splitScalarM (m : Bytes) (size : Nat) (sep q : UInt8) : Option (List LineView) :=
  if size = 0 then some [] else splitTailM m size sep q false 0 [] 0

/-- The extraction loop (split_fields-inl.h:107-141, 249-275): the fields, `field_start`, and whether the function returned. -/
def simdExtractM (m : Bytes) (q : UInt8) (pos : Nat) (mask : U64) (fs : Nat) (acc : List LineView) : Option (List LineView × Nat × Bool) :=
  if h : mask = 0#64 then some (acc, fs, false)
  else
    let p := pos + mask.ctz.toNat
    (ld m p).bind fun c =>
    (fieldM m q fs p).bind fun v =>
      if c = LF ∨ c = CR then some (acc ++ [v], fs, true)
      else simdExtractM m q pos (mask &&& (mask - 1#64)) (p + 1) (acc ++ [v])
termination_by mask.toNat
decreasing_by exact clearLowest_lt mask h

/-- The block loop (split_fields-inl.h:67-141, 215-277) and the tail; each vector is loaded once in the code and once per character here.
`alignas(64) uint8_t mask_bytes[8]` is written by `StoreMaskBits` with one bit per lane: more than 64 lanes overrun it (split_fields-inl.h:84-86). -/
def splitSimdGoM (t : Target) (m : Bytes) (size : Nat) (sep q : UInt8) (prev : U64) (pos fs : Nat) (acc : List LineView) : Option (List LineView) :=
  if pos + 64 ≤ size then
    if (t.lanes + 7) / 8 ≤ 8 then
      (blockMaskM t m pos sep).bind fun sm =>
      (blockMaskM t m pos q).bind fun qm =>
      (blockMaskM t m pos LF).bind fun lf =>
      (blockMaskM t m pos CR).bind fun cr =>
      let r := findQuoteMask t.pf.run qm prev
      (simdExtractM m q pos ((sm ||| (lf ||| cr)) &&& ~~~ r.1) fs acc).bind fun x =>
        if x.2.2 then some x.1 else splitSimdGoM t m size sep q r.2 (pos + 64) x.2.1 x.1
    else none
  else splitTailM m size sep q (decide (prev ≠ 0#64)) fs acc pos
termination_by size - pos

/-- `split_fields` and `split_fields_into` (split_fields.cpp:112-125, 207-221). -/
def splitFieldsM (t : Target) (m : Bytes) (size : Nat) (sep q : UInt8) : Option (List LineView) :=
  if size ≥ 64 then splitSimdGoM t m size sep q 0#64 0 0 [] else splitScalarM m size sep q

/-- `columns[field_index]->append…` (line_parser.cpp:119-123, 143-147, 165-169, 175): the index is checked. -/
def pushM (cols : Cols) (idx : Nat) (x : Cell) : Option Cols := if idx < cols.length then some (Cols.push cols idx x) else none

/-- Character loop of `parse_line` (line_parser.cpp:107-156). -/
def lineGoM (m : Bytes) (size : Nat) (nc : NullChecker) (sep q : UInt8) (n : Nat) (inq : Bool) (cur : Bytes) (cols : Cols) (idx i : Nat) : Option (Cols × Nat × Bytes) :=
  if i < size ∧ idx < n then
    (ld m i).bind fun c =>
      if inq = false ∧ (c = LF ∨ c = CR) then (pushM cols idx (lineCell nc cur)).map fun cols => (cols, idx + 1, [])
      else if c = q then
        (if inq then peekEq m size (i + 1) q else some false).bind fun esc =>
          if esc then lineGoM m size nc sep q n inq (cur ++ [q]) cols idx (i + 2)
          else lineGoM m size nc sep q n (!inq) cur cols idx (i + 1)
      else if c = sep ∧ inq = false then
        (pushM cols idx (lineCell nc cur)).bind fun cols => lineGoM m size nc sep q n inq [] cols (idx + 1) (i + 1)
      else if cur = [] ∧ inq = false ∧ (c = 32 ∨ c = 9) then lineGoM m size nc sep q n inq cur cols idx (i + 1)
      else lineGoM m size nc sep q n inq (cur ++ [c]) cols idx (i + 1)
  else some (cols, idx, cur)
termination_by size - i

/-- The loop of null appends (line_parser.cpp:173-177): `n` is `columns.size()`. -/
def fillM (n : Nat) (cols : Cols) (idx : Nat) : Option (Cols × Nat) :=
  if idx < n then (pushM cols idx .null).bind fun cols => fillM n cols (idx + 1) else some (cols, idx)
termination_by n - idx

/-- `LineParser::parse_line` (line_parser.cpp:96-183). -/
def parseLineM (m : Bytes) (size : Nat) (nc : NullChecker) (sep q : UInt8) (cols : Cols) : Option (Cols × Nat) :=
  if size = 0 ∨ cols.length = 0 then some (cols, 0)
  else
    (lineGoM m size nc sep q cols.length false [] cols 0 0).bind fun r =>
    (if r.2.1 < cols.length ∧ r.2.2 ≠ [] then (pushM r.1 r.2.1 (lineCell nc r.2.2)).map fun cs => (cs, r.2.1 + 1) else some (r.1, r.2.1)).bind fun x =>
      fillM cols.length x.1 x.2

/-- The row counting loop of `find_chunks` (chunk_finder.cpp:59-70): `find_row_end(data, chunk.end_offset, pos)`. -/
def chunkRowCountM (t : Target) (m : Bytes) (endOffset : Nat) (q : UInt8) : Nat → Nat → Nat → Option Nat
  | 0, _, _ => none
  | fuel + 1, pos, rows =>
    if pos < endOffset then
      (findRowEndM t m endOffset q pos).bind fun e =>
        if e > pos then chunkRowCountM t m endOffset q fuel e (rows + 1) else some rows
    else some rows

/-- The boundaries of `find_chunks`, chunk by chunk (chunk_finder.cpp:33-77). -/
def chunkBoundariesM (t : Target) (m : Bytes) (size : Nat) (q : UInt8) : List (Nat × Nat) → Option (List ChunkBoundary)
  | [] => some []
  | r :: rs =>
    (chunkRowCountM t m r.2 q (size + 1) r.1 0).bind fun n =>
      (chunkBoundariesM t m size q rs).map ((⟨r.1, r.2, n, false⟩ : ChunkBoundary) :: ·)

/-- `find_chunks` (chunk_finder.cpp:22-80), with the two loops over chunks (boundaries, row counts) one after the other. -/
def findChunksM (t : Target) (m : Bytes) (size : Nat) (q : UInt8) (target : Nat) : Option (List ChunkBoundary) :=
  if size = 0 then some []
  else (chunkRangesGoM (findRowEndM t m size q) size target (size + 1) 0).bind (chunkBoundariesM t m size q)

end Vroom.Mem
