/-
Decoding rules of the Parquet format (https://parquet.apache.org/docs/file-format/data-pages/encodings/)
and of ULEB128 / zigzag integers, written independently of the encoders.
Bytes are `UInt8`, decoded numbers are natural numbers or integers.
-/
namespace Vroom.Parquet

/-- A byte string read as one little-endian number. -/
def leNat : List UInt8 → Nat
  | [] => 0
  | b :: t => b.toNat + 256 * leNat t

/-- ULEB128: seven bits per byte, least significant group first, high bit set on all but the last.
Returns the number and the bytes after it. -/
def readVarint : List UInt8 → Option (Nat × List UInt8)
  | [] => none
  | b :: t =>
    if b.toNat < 128 then some (b.toNat, t)
    else match readVarint t with
      | none => none
      | some (v, rest) => some (b.toNat - 128 + 128 * v, rest)

/-- Zigzag: 0, -1, 1, -2, 2, … are written 0, 1, 2, 3, 4, … -/
def unzigzag (n : Nat) : Int := if n % 2 = 0 then (n / 2 : Nat) else - ((n / 2 : Nat) : Int) - 1

/-- `k` values of `w` bits packed least significant bit first into the bytes `bs`: value `i` occupies
bits `i*w … (i+1)*w - 1` of the byte string. -/
def unpack (w k : Nat) (bs : List UInt8) : List Nat :=
  (List.range k).map (fun i => leNat bs / 2 ^ (i * w) % 2 ^ w)

/-- The RLE / bit-packing hybrid: runs `<varint header> <data>`; header even: `header/2` copies of one
value stored in `ceil(w/8)` bytes; header odd: `header/2` groups of 8 values of `w` bits.  Reads runs
until `n` values are produced (surplus values of the last run are padding). -/
def hybrid (w : Nat) (n : Nat) (bs : List UInt8) : Option (List Nat) :=
  if n = 0 then some []
  else match h : readVarint bs with
    | none => none
    | some (hd, rest) =>
      if hd % 2 = 0 then
        let sz := (w + 7) / 8
        if rest.length < sz then none
        else
          let k := min n (hd / 2)
          match hybrid w (n - k) (rest.drop sz) with
          | none => none
          | some vs => some (List.replicate k (leNat (rest.take sz)) ++ vs)
      else
        let sz := hd / 2 * w
        if rest.length < sz then none
        else
          let k := min n (hd / 2 * 8)
          match hybrid w (n - k) (rest.drop sz) with
          | none => none
          | some vs => some ((unpack w (hd / 2 * 8) (rest.take sz)).take k ++ vs)
termination_by bs.length
decreasing_by
  all_goals
    have key : ∀ (l : List UInt8) v r, readVarint l = some (v, r) → r.length < l.length := by
      intro l
      induction l with
      | nil => intro v r h; simp [readVarint] at h
      | cons b t ih =>
        intro v r h
        simp only [readVarint] at h
        split at h
        · simp at h; simp [← h.2]
        · split at h
          · simp at h
          · rename_i v' r' he
            simp at h
            have := ih _ _ he
            simp [← h.2]; omega
    have := key _ _ _ h
    simp; omega

/-- Little-endian fixed-width number of `k` bytes. -/
def readFixed (k : Nat) (bs : List UInt8) : Option (Nat × List UInt8) :=
  if bs.length < k then none else some (leNat (bs.take k), bs.drop k)

/-- `n` PLAIN fixed-width values of `k` bytes. -/
def plainFixed (k : Nat) : Nat → List UInt8 → Option (List Nat × List UInt8)
  | 0, bs => some ([], bs)
  | n + 1, bs =>
    match readFixed k bs with
    | none => none
    | some (v, rest) =>
      match plainFixed k n rest with
      | none => none
      | some (vs, r) => some (v :: vs, r)

/-- `n` PLAIN byte arrays: 4-byte little-endian length, then the bytes. -/
def plainByteArrays : Nat → List UInt8 → Option (List (List UInt8) × List UInt8)
  | 0, bs => some ([], bs)
  | n + 1, bs =>
    match readFixed 4 bs with
    | none => none
    | some (len, rest) =>
      if rest.length < len then none
      else match plainByteArrays n (rest.drop len) with
        | none => none
        | some (vs, r) => some (rest.take len :: vs, r)

/-- `n` PLAIN booleans: bit-packed, least significant bit first. -/
def plainBools (n : Nat) (bs : List UInt8) : List Bool := (unpack 1 n bs).map (· == 1)

/-- Definition levels of a v1 data page: 4-byte little-endian byte length, then a hybrid section of
exactly that many bytes; returns the levels and the remaining bytes. -/
def defLevels (w n : Nat) (bs : List UInt8) : Option (List Nat × List UInt8) :=
  match readFixed 4 bs with
  | none => none
  | some (len, rest) =>
    if rest.length < len then none
    else match hybrid w n (rest.take len) with
      | none => none
      | some vs => some (vs, rest.drop len)

end Vroom.Parquet

namespace Vroom.Parquet

/-- Data of an RLE_DICTIONARY page holding `n` values: a bit-width byte, then a hybrid section of
indices into the dictionary.  A page without values needs no bytes. -/
def dictData {V : Type} (dict : List V) (n : Nat) (bs : List UInt8) : Option (List V) :=
  if n = 0 then some []
  else match bs with
    | [] => none
    | w :: body =>
      if 32 < w.toNat then none
      else match hybrid w.toNat n body with
        | none => none
        | some is => is.mapM (fun i => dict[i]?)

end Vroom.Parquet

namespace Vroom.Parquet

/-- Bodies of the miniblocks of one delta block holding `n` values.  By the format, a miniblock that
holds any value occupies `per` values' worth of bytes even if it is the last and partly filled
(`padded = true`); with `padded = false` a miniblock is assumed to end with its last value. -/
def miniblocks (padded : Bool) (per : Nat) : List UInt8 → Nat → List UInt8 → Option (List Nat × List UInt8)
  | [], _, bs => some ([], bs)
  | w :: ws, n, bs =>
    if n = 0 then some ([], bs)
    else
      let k := min n per
      let sz := ((if padded then per else k) * w.toNat + 7) / 8
      if bs.length < sz then none
      else match miniblocks padded per ws (n - k) (bs.drop sz) with
        | none => none
        | some (vs, r) => some (unpack w.toNat k (bs.take sz) ++ vs, r)

/-- The delta blocks: zigzag varint minimum, one width byte per miniblock, the miniblocks. -/
def deltaBlocks (padded : Bool) (mini per : Nat) (n : Nat) (bs : List UInt8) : Option (List Int × List UInt8) :=
  if hn : n = 0 then some ([], bs)
  else if hp : mini * per = 0 then none
  else match readVarint bs with
    | none => none
    | some (m, rest) =>
      if rest.length < mini then none
      else match miniblocks padded per (rest.take mini) (min n (mini * per)) (rest.drop mini) with
        | none => none
        | some (adj, rest2) =>
          match deltaBlocks padded mini per (n - mini * per) rest2 with
          | none => none
          | some (ds, r) => some (adj.map (fun (a : Nat) => unzigzag m + (a : Int)) ++ ds, r)
termination_by n
decreasing_by omega

/-- Running sums. -/
def cumulate (x : Int) : List Int → List Int
  | [] => [x]
  | d :: ds => x :: cumulate (x + d) ds

/-- A DELTA_BINARY_PACKED section: block size, miniblocks per block, number of values, first value,
blocks. -/
def deltaDecode (padded : Bool) (bs : List UInt8) : Option (List Int × List UInt8) :=
  match readVarint bs with
  | none => none
  | some (block, b1) =>
    match readVarint b1 with
    | none => none
    | some (mini, b2) =>
      match readVarint b2 with
      | none => none
      | some (count, b3) =>
        match readVarint b3 with
        | none => none
        | some (first, b4) =>
          if count = 0 then some ([], b4)
          else match deltaBlocks padded mini (block / mini) (count - 1) b4 with
            | none => none
            | some (ds, r) => some (cumulate (unzigzag first) ds, r)

/-- Cut a byte string into pieces of the given lengths. -/
def cutAt : List Int → List UInt8 → Option (List (List UInt8) × List UInt8)
  | [], bs => some ([], bs)
  | n :: ns, bs =>
    if n < 0 ∨ bs.length < n.toNat then none
    else match cutAt ns (bs.drop n.toNat) with
      | none => none
      | some (vs, r) => some (bs.take n.toNat :: vs, r)

/-- DELTA_LENGTH_BYTE_ARRAY: delta-encoded lengths, then all the bytes. -/
def deltaLengthDecode (padded : Bool) (bs : List UInt8) : Option (List (List UInt8) × List UInt8) :=
  match deltaDecode padded bs with
  | none => none
  | some (lens, r) => cutAt lens r

end Vroom.Parquet
