import Verif.Model.RowScan
/-
Model of how a file is cut into chunks and how chunk analyses are linked.
Sources: /repo/include/libvroom/options.h, /repo/src/reader/csv_reader.cpp (read_all),
/repo/src/parser/chunk_finder.cpp (find_chunks)
-/
namespace Vroom

/-- `ThreadOptions::ALLOCATION_BUDGET` etc. (options.h:66-70). -/
def allocationBudget : Nat := 500000
/-- `MIN_CHUNK_SIZE`, options.h:69. -/
def minChunkSize : Nat := 1024 * 1024
/-- `MAX_CHUNK_SIZE`, options.h:70. -/
def maxChunkSize : Nat := 4 * 1024 * 1024

/-- `calculate_chunk_size` (options.h:86-106).  `n_threads * 16` is computed modulo 2^64
(`size_t`); everything else cannot overflow. Division by `n_parts` is guarded by the code's own
zero test. -/
def calculateChunkSize (fileSize nCols nThreads : Nat) : Nat :=
  let maxChunks := allocationBudget / max nCols 1
  let nParts := min ((nThreads * 16) % 2 ^ 64) maxChunks
  let nParts := if nParts = 0 then 1 else nParts
  let chunk := fileSize / nParts
  let chunk := if chunk < minChunkSize then minChunkSize else chunk
  if chunk > maxChunkSize then maxChunkSize else chunk

/-- The inner "stuck" loop of `read_all` (csv_reader.cpp:556-560) / `find_chunks`
(chunk_finder.cpp:49-52).  `none` = the loop has not ended within `fuel` iterations. -/
def unstick (rowEnd : Nat → Nat) (size chunkSize : Nat) : Nat → Nat → Nat → Option Nat
  | 0, _, _ => none
  | fuel + 1, target, chunkEnd =>
    if chunkEnd = target ∧ chunkEnd < size then
      let target' := min (target + chunkSize) size
      unstick rowEnd size chunkSize fuel target' (rowEnd target')
    else some chunkEnd

/-- The chunk boundary loop of `read_all` (csv_reader.cpp:539-566) and of `find_chunks`
(chunk_finder.cpp:33-57).  `none` = not finished within `fuel` iterations. -/
def chunkRangesGo (rowEnd : Nat → Nat) (size chunkSize : Nat) : Nat → Nat → Option (List (Nat × Nat))
  | 0, _ => none
  | fuel + 1, offset =>
    if offset < size then
      let target := min (offset + chunkSize) size
      let chunkEnd? :=
        if target ≥ size then some size
        else unstick rowEnd size chunkSize (size + 1) target (rowEnd target)
      match chunkEnd? with
      | none => none
      | some chunkEnd =>
        (chunkRangesGo rowEnd size chunkSize fuel chunkEnd).map ((offset, chunkEnd) :: ·)
    else some []

/-- Chunk ranges of `read_all` for a given chunk size (csv_reader.cpp:534-566). -/
def chunkRanges (cpu : Cpu) (q : UInt8) (data : Bytes) (dataStart chunkSize : Nat) : Option (List (Nat × Nat)) :=
  chunkRangesGo (findRowEnd cpu q data) data.length chunkSize (data.length + 1) dataStart

/-- `data + start_offset, end_offset - start_offset` (csv_reader.cpp:608-609, 679-680). -/
def slice (data : Bytes) (r : Nat × Nat) : Bytes := (data.drop r.1).take (r.2 - r.1)

/-- Row counting loop of `find_chunks` (chunk_finder.cpp:59-70) over the bytes of the chunk:
`find_row_end(data, chunk.end_offset, pos)` sees the buffer truncated at the chunk end. -/
def chunkRowCount (cpu : Cpu) (q : UInt8) (upto : Bytes) : Nat → Nat → Nat → Option Nat
  | 0, _, _ => none
  | fuel + 1, pos, rows =>
    if pos < upto.length then
      let e := findRowEnd cpu q upto pos
      if e > pos then chunkRowCount cpu q upto fuel e (rows + 1) else some rows
    else some rows

/-- Phase 2 of `read_all` (csv_reader.cpp:626-646): starting states of the chunks. -/
def linkStates (first : Bool) : List DualStats → List Bool
  | [] => []
  | a :: as => first :: linkStates (if first then !a.endsInside else a.endsInside) as

/-- Row total of `read_all` (csv_reader.cpp:648-654). -/
def totalRowCount (use : List Bool) (as : List DualStats) : Nat :=
  ((use.zip as).map (fun p => if p.1 then p.2.rowsInside else p.2.rowsOutside)).sum

/-- Phases 1 and 2 together: per chunk starting state, and the reported row count (csv_reader.cpp:591-654). -/
def analyzeAndLink (cpu : Cpu) (q : UInt8) (chunks : List Bytes) : List Bool × Nat :=
  let as := chunks.map (analyzeDual cpu q)
  let use := linkStates false as
  (use, totalRowCount use as)

end Vroom
