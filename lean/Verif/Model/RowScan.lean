import Verif.Model.QuoteParity
/-
Model of row-boundary scanning.
Sources: /repo/src/parser/simd_chunk_finder.cpp, /repo/src/parser/chunk_finder.cpp

A pointer walking forward over `data[0..size)` is modelled by the remaining suffix `rest`
together with the absolute `offset`; `data[offset+1]` with its bound check is `rest.head?`.
`size_t` is unbounded (`Nat`): no buffer can hold 2^64 bytes.
-/
namespace Vroom

/-- Bytes behind a `const char*`, simd_chunk_finder.cpp, csv_reader.cpp. -/
abbrev Bytes := List UInt8

/-- `'\n'` (simd_chunk_finder.cpp:146-175). -/
abbrev LF : UInt8 := 10
/-- `'\r'` (simd_chunk_finder.cpp:146-175). -/
abbrev CR : UInt8 := 13

/-- What Highway's run-time dispatch decides: the number of 8-bit lanes `N` of a vector
(simd_chunk_finder.cpp:58; 16, 32, 64 on current targets, 1 on HWY_SCALAR) and the prefix-xor
implementation.  Lane counts always divide 64 on supported targets; with more than 64 lanes
the loop at simd_chunk_finder.cpp:75 would load past the 64-byte block, which is excluded here. -/
structure Cpu where
  lanes : Nat
  pf : PrefixImpl
  dvd : lanes ∣ 64

/-- Byte `b` written by `hn::StoreMaskBits` for the comparison of one `N`-lane vector
(starting at byte `chunkOffset` of the block) with `c` (simd_chunk_finder.cpp:77-90):
bit `j` is lane `8*b+j`, if that lane exists. -/
def storeMaskByte (N : Nat) (c : UInt8) (blk : Bytes) (chunkOffset b : Nat) : U64 :=
  (List.range 8).foldl (fun acc j =>
    if 8 * b + j < N ∧ blk[chunkOffset + (8 * b + j)]? = some c then acc ||| (1#64 <<< j) else acc) 0#64

/-- The comparison mask of a 64-byte block, assembled from `N`-lane vectors
(simd_chunk_finder.cpp:75-101, repeated at 210-238 and 374-401). -/
def blockMask (N : Nat) (c : UInt8) (blk : Bytes) : U64 :=
  (List.range (64 / N)).foldl (fun acc k =>
    (List.range ((N + 7) / 8)).foldl (fun acc b =>
      if k * N + b * 8 < 64 then acc ||| (storeMaskByte N c blk (k * N) b <<< (k * N + b * 8)) else acc)
      acc) 0#64

/-- `__builtin_popcountll` (simd_chunk_finder.cpp:133, 280-281; compiler builtin). -/
def popcount (x : U64) : Nat := ((List.range 64).filter x.getLsbD).length

/-- `valid_eol` of one block (simd_chunk_finder.cpp:108-131 and 403-424).
`next` is `data[offset+64]` when in bounds. -/
def validEol (inside lf cr : U64) (next : Option UInt8) : U64 :=
  let validLf := lf &&& ~~~inside
  let validCr := cr &&& ~~~inside
  let crlfCr := validCr &&& (lf >>> 1)
  let standalone := validCr &&& ~~~crlfCr
  let standalone :=
    if standalone &&& (1#64 <<< 63) ≠ 0#64 then
      if next = some LF then standalone &&& ~~~(1#64 <<< 63) else standalone
    else standalone
  validLf ||| standalone

/-- Scalar tail of `AnalyzeChunkSimdImpl` (simd_chunk_finder.cpp:146-175).
Returns (row_count, last_row_end, quote_state). -/
def analyzeTail (q : UInt8) (rows last : Nat) (qs : U64) (off : Nat) (rest : Bytes) : Nat × Nat × U64 :=
  match rest with
  | [] => (rows, last, qs)
  | c :: rest =>
    if c = q then
      if qs ≠ 0#64 ∧ rest.head? = some q then
        analyzeTail q rows last qs (off + 2) (rest.drop 1)
      else
        analyzeTail q rows last (if qs ≠ 0#64 then 0#64 else BitVec.allOnes 64) (off + 1) rest
    else if qs = 0#64 then
      if c = LF then analyzeTail q (rows + 1) (off + 1) qs (off + 1) rest
      else if c = CR then
        if rest.head? = some LF then analyzeTail q rows last qs (off + 1) rest
        else analyzeTail q (rows + 1) (off + 1) qs (off + 1) rest
      else analyzeTail q rows last qs (off + 1) rest
    else analyzeTail q rows last qs (off + 1) rest
termination_by rest.length
decreasing_by all_goals (simp; try omega)

/-- Block loop of `AnalyzeChunkSimdImpl` (simd_chunk_finder.cpp:68-144), followed by the tail. -/
def analyzeLoop (cpu : Cpu) (q : UInt8) (rows last : Nat) (qs : U64) (off : Nat) (rest : Bytes) :
    Nat × Nat × U64 :=
  if 64 ≤ rest.length then
    let blk := rest.take 64
    let r := findQuoteMask cpu.pf.run (blockMask cpu.lanes q blk) qs
    let eol := validEol r.1 (blockMask cpu.lanes LF blk) (blockMask cpu.lanes CR blk) (rest.drop 64).head?
    let last := if eol ≠ 0#64 then off + (63 - eol.clz.toNat) + 1 else last
    analyzeLoop cpu q (rows + popcount eol) last r.2 (off + 64) (rest.drop 64)
  else analyzeTail q rows last qs off rest
termination_by rest.length
decreasing_by simp; omega

/-- `AnalyzeChunkSimdImpl` / `analyze_chunk_simd` (simd_chunk_finder.cpp:45-179, 525-530).
Returns (row_count, last_row_end, ends_inside_quote). -/
def analyzeChunkSimd (cpu : Cpu) (q : UInt8) (startInside : Bool) (data : Bytes) : Nat × Nat × Bool :=
  let init : U64 := if startInside then BitVec.allOnes 64 else 0#64
  if data.length = 0 then (0, 0, init ≠ 0#64)
  else
    let r := analyzeLoop cpu q 0 0 init 0 data
    (r.1, r.2.1, r.2.2 ≠ 0#64)

/-- `count_rows_simd` / `CountRowsSimdImpl` (simd_chunk_finder.cpp:183-188, 519-521). -/
def countRowsSimd (cpu : Cpu) (q : UInt8) (data : Bytes) : Nat × Nat :=
  let r := analyzeChunkSimd cpu q false data
  (r.1, r.2.1)

/-- `count_rows_scalar` (simd_chunk_finder.cpp:553-586). -/
def countRowsScalarGo (q : UInt8) (rows last : Nat) (inq : Bool) (off : Nat) (rest : Bytes) : Nat × Nat :=
  match rest with
  | [] => (rows, last)
  | c :: rest =>
    if c = q then
      if inq ∧ rest.head? = some q then countRowsScalarGo q rows last inq (off + 2) (rest.drop 1)
      else countRowsScalarGo q rows last (!inq) (off + 1) rest
    else if inq = false then
      if c = LF then countRowsScalarGo q (rows + 1) (off + 1) inq (off + 1) rest
      else if c = CR then
        if rest.head? = some LF then countRowsScalarGo q rows last inq (off + 1) rest
        else countRowsScalarGo q (rows + 1) (off + 1) inq (off + 1) rest
      else countRowsScalarGo q rows last inq (off + 1) rest
    else countRowsScalarGo q rows last inq (off + 1) rest
termination_by rest.length
decreasing_by all_goals (simp; try omega)

/-- `count_rows_scalar` (simd_chunk_finder.cpp:553-586). -/
def countRowsScalar (q : UInt8) (data : Bytes) : Nat × Nat := countRowsScalarGo q 0 0 false 0 data

/-- `ChunkFinder::count_rows` (chunk_finder.cpp:82-87): SIMD from `kSimdThreshold` = 64 bytes on. -/
def countRows (cpu : Cpu) (q : UInt8) (data : Bytes) : Nat × Nat :=
  if data.length ≥ 64 then countRowsSimd cpu q data else countRowsScalar q data

/-- `DualStateChunkStats` (vroom.h) / `DualStateResultInternal` (simd_chunk_finder.cpp:28-34). -/
structure DualStats where
  rowsOutside : Nat := 0
  lastOutside : Nat := 0
  rowsInside : Nat := 0
  lastInside : Nat := 0
  endsInside : Bool := false
deriving DecidableEq, Repr

/-- Scalar tail of `AnalyzeChunkDualStateSimdImpl` (simd_chunk_finder.cpp:296-335). -/
def dualTail (q : UInt8) (s : DualStats) (par : Bool) (off : Nat) : Bytes → DualStats
  | [] => { s with endsInside := par }
  | c :: rest =>
    if c = q then dualTail q s (!par) (off + 1) rest
    else if c = LF then
      if par = false then
        dualTail q { s with rowsOutside := s.rowsOutside + 1, lastOutside := off + 1 } par (off + 1) rest
      else
        dualTail q { s with rowsInside := s.rowsInside + 1, lastInside := off + 1 } par (off + 1) rest
    else if c = CR then
      if rest.head? = some LF then dualTail q s par (off + 1) rest
      else if par = false then
        dualTail q { s with rowsOutside := s.rowsOutside + 1, lastOutside := off + 1 } par (off + 1) rest
      else
        dualTail q { s with rowsInside := s.rowsInside + 1, lastInside := off + 1 } par (off + 1) rest
    else dualTail q s par (off + 1) rest

/-- Block loop of `AnalyzeChunkDualStateSimdImpl` (simd_chunk_finder.cpp:217-294). -/
def dualLoop (cpu : Cpu) (q : UInt8) (s : DualStats) (mask : U64) (off : Nat) (rest : Bytes) : DualStats :=
  if 64 ≤ rest.length then
    let blk := rest.take 64
    let lf := blockMask cpu.lanes LF blk
    let cr := blockMask cpu.lanes CR blk
    let parity := cpu.pf.run (blockMask cpu.lanes q blk) ^^^ mask
    let mask' := parity.sshiftRight 63
    let crlfCr := cr &&& (lf >>> 1)
    let out := (lf &&& ~~~parity) ||| (cr &&& ~~~parity &&& ~~~crlfCr)
    let ins := (lf &&& parity) ||| (cr &&& parity &&& ~~~crlfCr)
    let fix := cr &&& (1#64 <<< 63) ≠ 0#64 ∧ (rest.drop 64).head? = some LF
    let out := if fix then out &&& ~~~(1#64 <<< 63) else out
    let ins := if fix then ins &&& ~~~(1#64 <<< 63) else ins
    dualLoop cpu q
      { rowsOutside := s.rowsOutside + popcount out
        rowsInside := s.rowsInside + popcount ins
        lastOutside := if out ≠ 0#64 then off + (63 - out.clz.toNat) + 1 else s.lastOutside
        lastInside := if ins ≠ 0#64 then off + (63 - ins.clz.toNat) + 1 else s.lastInside
        endsInside := s.endsInside }
      mask' (off + 64) (rest.drop 64)
  else dualTail q s (mask ≠ 0#64) off rest
termination_by rest.length
decreasing_by simp; omega

/-- `analyze_chunk_dual_state_simd` (simd_chunk_finder.cpp:192-338, 534-544). -/
def analyzeDual (cpu : Cpu) (q : UInt8) (data : Bytes) : DualStats :=
  if data.length = 0 then {} else dualLoop cpu q {} 0#64 0 data

/-- `find_row_end_scalar` from offset `off` with suffix `rest` (simd_chunk_finder.cpp:589-622);
also the scalar tail of `FindRowEndSimdImpl` (439-462). Returns `size` at the end, where
`size = off + rest.length`. -/
def findRowEndGo (q : UInt8) (inq : Bool) (off : Nat) (rest : Bytes) : Nat :=
  match rest with
  | [] => off
  | c :: rest =>
    if c = q then
      if inq ∧ rest.head? = some q then findRowEndGo q inq (off + 2) (rest.drop 1)
      else findRowEndGo q (!inq) (off + 1) rest
    else if inq = false then
      if c = LF then off + 1
      else if c = CR then
        if rest.head? = some LF then off + 2 else off + 1
      else findRowEndGo q inq (off + 1) rest
    else findRowEndGo q inq (off + 1) rest
termination_by rest.length
decreasing_by all_goals (simp; try omega)

/-- `find_row_end_scalar` (simd_chunk_finder.cpp:589-622). When `start > size` the loop does not
run and `size` is returned. -/
def findRowEndScalar (q : UInt8) (data : Bytes) (start : Nat) : Nat :=
  if start ≤ data.length then findRowEndGo q false start (data.drop start) else data.length

/-- Block loop and scalar tail of `FindRowEndSimdImpl` (simd_chunk_finder.cpp:397-494). -/
def rowEndLoop (cpu : Cpu) (q : UInt8) (qs : U64) (off : Nat) (rest : Bytes) : Nat :=
  if 64 ≤ rest.length then
    let blk := rest.take 64
    let r := findQuoteMask cpu.pf.run (blockMask cpu.lanes q blk) qs
    let eol := validEol r.1 (blockMask cpu.lanes LF blk) (blockMask cpu.lanes CR blk) (rest.drop 64).head?
    if eol ≠ 0#64 then
      let bit := eol.ctz.toNat
      if rest[bit]? = some LF then off + bit + 1
      else if rest[bit + 1]? = some LF then off + bit + 2
      else off + bit + 1
    else rowEndLoop cpu q r.2 (off + 64) (rest.drop 64)
  else findRowEndGo q (qs ≠ 0#64) off rest
termination_by rest.length
decreasing_by simp; omega

/-- Unaligned prefix of `FindRowEndSimdImpl` (simd_chunk_finder.cpp:361-394): scans while
`offset < aligned`, then continues with the block loop. -/
def rowEndPrefix (cpu : Cpu) (q : UInt8) (aligned : Nat) (inq : Bool) (off : Nat) (rest : Bytes) : Nat :=
  if off < aligned then
    match rest with
    | [] => rowEndLoop cpu q (if inq then BitVec.allOnes 64 else 0#64) off []
    | c :: rest =>
      if c = q then
        if inq ∧ rest.head? = some q then rowEndPrefix cpu q aligned inq (off + 2) (rest.drop 1)
        else rowEndPrefix cpu q aligned (!inq) (off + 1) rest
      else if inq = false then
        if c = LF then off + 1
        else if c = CR then
          if rest.head? = some LF then off + 2 else off + 1
        else rowEndPrefix cpu q aligned inq (off + 1) rest
      else rowEndPrefix cpu q aligned inq (off + 1) rest
  else rowEndLoop cpu q (if inq then BitVec.allOnes 64 else 0#64) off rest
termination_by rest.length
decreasing_by all_goals (simp; try omega)

/-- `find_row_end_simd` / `FindRowEndSimdImpl` (simd_chunk_finder.cpp:343-496, 548-550). -/
def findRowEndSimd (cpu : Cpu) (q : UInt8) (data : Bytes) (start : Nat) : Nat :=
  if start ≥ data.length then data.length
  else
    let aligned := min (((start + 63) / 64) * 64) data.length
    rowEndPrefix cpu q aligned false start (data.drop start)

/-- `ChunkFinder::find_row_end` (chunk_finder.cpp:12-20): SIMD if at least 64 bytes remain.
`remaining = size - start` is unsigned; for `start > size` it wraps to a huge value and the
SIMD version is called, which returns `size`. -/
def findRowEnd (cpu : Cpu) (q : UInt8) (data : Bytes) (start : Nat) : Nat :=
  if data.length < start ∨ data.length - start ≥ 64 then findRowEndSimd cpu q data start
  else findRowEndScalar q data start

end Vroom
