import Verif.Model.Chunking
/-
Model of `ChunkFinder::find_chunks` (public API).  Source: /repo/src/parser/chunk_finder.cpp:22-80
-/
namespace Vroom

/-- `ChunkBoundary` (include/libvroom/types.h; chunk_finder.cpp:34-77). -/
structure ChunkBoundary where
  startOffset : Nat
  endOffset : Nat
  rowCount : Nat
  endsInQuote : Bool
deriving DecidableEq, Repr

/-- One chunk of `find_chunks` once its range is known (chunk_finder.cpp:59-77): the rows are counted with `find_row_end` on the
buffer cut at the end of the chunk; `ends_in_quote` is always false. -/
def chunkBoundary (cpu : Cpu) (q : UInt8) (data : Bytes) (r : Nat × Nat) : Option ChunkBoundary :=
  (chunkRowCount cpu q (data.take r.2) (data.length + 1) r.1 0).map fun n => ⟨r.1, r.2, n, false⟩

/-- The chunks of the ranges, in order (chunk_finder.cpp:33-77). -/
def chunkBoundaries (cpu : Cpu) (q : UInt8) (data : Bytes) : List (Nat × Nat) → Option (List ChunkBoundary)
  | [] => some []
  | r :: rs => (chunkBoundary cpu q data r).bind fun c => (chunkBoundaries cpu q data rs).map (c :: ·)

/-- `find_chunks` (chunk_finder.cpp:22-80).  Simplified: `offset + target_chunk_size` does not wrap.  `none` = a loop did not end. -/
def findChunks (cpu : Cpu) (q : UInt8) (data : Bytes) (target : Nat) : Option (List ChunkBoundary) :=
  if data.length = 0 then some []
  else (chunkRanges cpu q data 0 target).bind (chunkBoundaries cpu q data)

end Vroom
