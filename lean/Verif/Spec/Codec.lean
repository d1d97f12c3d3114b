import Verif.Model.Compression
/-
What is assumed of zstd, zlib, snappy and lz4 (C86).
-/
namespace Vroom

/-- `dec k y`: what a reader of Parquet codec `k` makes of the bytes `y` (6 zstd, 2 gzip, 1 snappy, 7 raw LZ4).
Every library, when it reports success, has written at most as many bytes as it was given room for, at least one,
and a reader of its format gets the input back.  Snappy has no room argument: it writes at most `snappyMax`.
Nothing is assumed about when a library succeeds, nor about the levels. -/
structure LibsOk (L : Libs) (dec : Int → List UInt8 → Option (List UInt8)) : Prop where
  zstd : ∀ level room x y, L.zstd level room x = some y → y.length ≤ room ∧ y ≠ [] ∧ dec 6 y = some x
  gzip : ∀ level room x y, L.gzip level room x = some y → y.length ≤ room ∧ y ≠ [] ∧ dec 2 y = some x
  snappy : ∀ x, x ≠ [] → (L.snappy x).length ≤ L.snappyMax x.length ∧ L.snappy x ≠ [] ∧ dec 1 (L.snappy x) = some x
  lz4 : ∀ room x y, L.lz4 room x = some y → y.length ≤ room ∧ y ≠ [] ∧ dec 7 y = some x

end Vroom
