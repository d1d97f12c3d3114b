/-
Specification for C31: how many bytes of padding a DELTA_BINARY_PACKED section lacks when its last
miniblock is stored without padding.
-/
namespace Vroom.Spec

/-- Number of binary digits of `n` (`0` for zero). -/
def binDigits (n : Nat) : Nat := if n = 0 then 0 else Nat.log2 n + 1

/-- Smallest element of a list of integers. -/
def least : List Int → Int
  | [] => 0
  | d :: t => t.foldl min d

/-- Width of the slots of the last miniblock when the differences are `ds`: blocks hold 128 differences,
miniblocks 32; differences are stored relative to the smallest of their block. -/
def lastWidth (ds : List Int) : Nat :=
  let block := ds.drop (ds.length / 128 * 128)
  binDigits (((ds.drop (ds.length / 32 * 32)).map (fun d => (d - least block).toNat)).foldl max 0)

/-- Bytes by which the last miniblock is shorter than the `32 * width` bits Parquet demands, when only the slots in
use are stored. -/
def missingPadding (ds : List Int) : Nat :=
  if ds.length % 32 = 0 then 0 else 4 * lastWidth ds - (ds.length % 32 * lastWidth ds + 7) / 8

end Vroom.Spec
