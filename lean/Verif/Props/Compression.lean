import Verif.Spec.Codec
import Verif.Spec.ParquetTable
import Verif.Props.ParquetFile
/-
C86: compression (compression.cpp) keeps the data, whatever was compressed before.
-/
namespace Vroom
open Parquet

theorem storeAt_some {buffer out : List UInt8} (h : out.length ≤ buffer.length) : storeAt buffer out = some (out ++ buffer.drop out.length) := if_pos h

theorem resizeTo_length (b : List UInt8) (n : Nat) : (resizeTo b n).length = n := by
  simp [resizeTo]; omega

theorem resizeTo_prefix (out rest : List UInt8) : resizeTo (out ++ rest) out.length = out := by
  simp [resizeTo]

theorem store_cut {buffer out : List UInt8} (h : out.length ≤ buffer.length) :
    (storeAt buffer out).map (fun b => resizeTo b out.length) = some out := by
  rw [storeAt_some h, Option.map_some, resizeTo_prefix]

theorem store_take {buffer out : List UInt8} (h : out.length ≤ buffer.length) :
    (storeAt buffer out).map (fun b => (b.take out.length, b)) = some (out, out ++ buffer.drop out.length) := by
  rw [storeAt_some h]; simp

theorem toUInt_le (n : Nat) : toUInt n ≤ n := Nat.mod_le _ _

theorem take_toUInt {data : List UInt8} (h : data.length < 2 ^ 32) : data.take (toUInt data.length) = data := by
  rw [toUInt, Nat.mod_eq_of_lt h, List.take_length]

/-- **C86** Compressing never writes outside its buffer; the outcome is the data itself or, for less than 4 GiB, a non-empty text that a
reader of the codec's format turns back into the data. -/
theorem C86_compress_partial {L : Libs} {dec} (ok : LibsOk L dec) (level : Int) (codec : Compression) (data : List UInt8) :
    ∃ out, compress L level codec data = some out ∧ (out = data ∨ (out ≠ [] ∧ codec ≠ .none ∧
      (data.length < 2 ^ 32 → dec (producedFormat codec) out = some data))) := by
  unfold compress
  by_cases h0 : data.length = 0
  · rw [if_pos h0]
    exact ⟨[], rfl, .inl (List.length_eq_zero_iff.1 h0).symm⟩
  · rw [if_neg h0]
    have hne : data ≠ [] := fun h => h0 (by rw [h]; rfl)
    cases codec with
    | none => exact ⟨data, rfl, .inl rfl⟩
    | zstd =>
      dsimp only
      cases hz : L.zstd level (L.zstdBound data.length) data with
      | none => exact ⟨data, rfl, .inl rfl⟩
      | some out =>
        obtain ⟨h1, h2, h3⟩ := ok.zstd _ _ _ _ hz
        exact ⟨out, store_cut (by rw [resizeTo_length]; exact h1), .inr ⟨h2, by simp, fun _ => h3⟩⟩
    | gzip =>
      dsimp only
      by_cases hi : L.gzipInit level = false
      · rw [if_pos hi]; exact ⟨data, rfl, .inl rfl⟩
      · rw [if_neg hi]
        cases hz : L.gzip level (toUInt (resizeTo [] (L.gzipBound level data.length)).length) (data.take (toUInt data.length)) with
        | none => exact ⟨data, rfl, .inl rfl⟩
        | some out =>
          obtain ⟨h1, h2, h3⟩ := ok.gzip _ _ _ _ hz
          refine ⟨out, store_cut (Nat.le_trans h1 (toUInt_le _)), .inr ⟨h2, by simp, fun hlt => ?_⟩⟩
          rw [take_toUInt hlt] at h3
          exact h3
    | snappy =>
      dsimp only
      by_cases hs : L.haveSnappy = true
      · rw [if_pos hs]
        obtain ⟨h1, h2, h3⟩ := ok.snappy data hne
        exact ⟨_, store_cut (by rw [resizeTo_length]; exact h1), .inr ⟨h2, by simp, fun _ => h3⟩⟩
      · rw [if_neg hs]; exact ⟨data, rfl, .inl rfl⟩
    | lz4 =>
      dsimp only
      by_cases hs : L.haveLz4 = true
      · rw [if_pos hs]
        by_cases hl : data.length > 2147483647
        · rw [if_pos hl]; exact ⟨data, rfl, .inl rfl⟩
        · rw [if_neg hl]
          cases hz : L.lz4 (L.lz4Bound data.length) data with
          | none => exact ⟨data, rfl, .inl rfl⟩
          | some out =>
            obtain ⟨h1, h2, h3⟩ := ok.lz4 _ _ _ hz
            exact ⟨out, store_cut (by rw [resizeTo_length]; exact h1), .inr ⟨h2, by simp, fun _ => h3⟩⟩
      · rw [if_neg hs]; exact ⟨data, rfl, .inl rfl⟩

/-- The full claim: for data of any size. -/
def C86_full : Prop :=
  ∀ (L : Libs) (dec : Int → List UInt8 → Option (List UInt8)), LibsOk L dec → ∀ (level : Int) (codec : Compression) (data : List UInt8),
    ∃ out, compress L level codec data = some out ∧ (out = data ∨ dec (producedFormat codec) out = some data)

/-- **C86 (buffer reuse)** `compress_into` gives the same bytes as `compress`, whatever earlier calls have left in the thread's buffer. -/
theorem C86_compress_into {L : Libs} {dec} (ok : LibsOk L dec) (level : Int) (codec : Compression) (pool data : List UInt8) :
    ∃ pool', compressInto L level codec pool data = (compress L level codec data).map (fun out => (out, pool')) := by
  unfold compress compressInto
  by_cases h0 : data.length = 0
  · rw [if_pos h0, if_pos h0]; exact ⟨pool, rfl⟩
  · rw [if_neg h0, if_neg h0]
    have hne : data ≠ [] := fun h => h0 (by rw [h]; rfl)
    cases codec with
    | none => exact ⟨pool, rfl⟩
    | zstd =>
      dsimp only
      cases hz : L.zstd level (L.zstdBound data.length) data with
      | none => exact ⟨_, rfl⟩
      | some out =>
        obtain ⟨h1, h2, h3⟩ := ok.zstd _ _ _ _ hz
        dsimp only
        rw [store_cut (by rw [resizeTo_length]; exact h1), store_take (by rw [getBuffer, resizeTo_length]; exact h1)]
        exact ⟨_, rfl⟩
    | gzip =>
      dsimp only
      by_cases hi : L.gzipInit level = false
      · rw [if_pos hi, if_pos hi]; exact ⟨pool, rfl⟩
      · rw [if_neg hi, if_neg hi, getBuffer, resizeTo_length, resizeTo_length]
        cases hz : L.gzip level (toUInt (L.gzipBound level data.length)) (data.take (toUInt data.length)) with
        | none => exact ⟨_, rfl⟩
        | some out =>
          obtain ⟨h1, h2, h3⟩ := ok.gzip _ _ _ _ hz
          have := Nat.le_trans h1 (toUInt_le _)
          dsimp only
          rw [store_cut (by rw [resizeTo_length]; exact this), store_take (by rw [resizeTo_length]; exact this)]
          exact ⟨_, rfl⟩
    | snappy =>
      dsimp only
      by_cases hs : L.haveSnappy = true
      · rw [if_pos hs, if_pos hs]
        obtain ⟨h1, h2, h3⟩ := ok.snappy data hne
        rw [store_cut (by rw [resizeTo_length]; exact h1), store_take (by rw [getBuffer, resizeTo_length]; exact h1)]
        exact ⟨_, rfl⟩
      · rw [if_neg hs, if_neg hs]; exact ⟨pool, rfl⟩
    | lz4 =>
      dsimp only
      by_cases hs : L.haveLz4 = true
      · rw [if_pos hs, if_pos hs]
        by_cases hl : data.length > 2147483647
        · rw [if_pos hl, if_pos hl]; exact ⟨pool, rfl⟩
        · rw [if_neg hl, if_neg hl]
          cases hz : L.lz4 (L.lz4Bound data.length) data with
          | none => exact ⟨_, rfl⟩
          | some out =>
            obtain ⟨h1, h2, h3⟩ := ok.lz4 _ _ _ hz
            dsimp only
            rw [store_cut (by rw [resizeTo_length]; exact h1), store_take (by rw [getBuffer, resizeTo_length]; exact h1)]
            exact ⟨_, rfl⟩
      · rw [if_neg hs, if_neg hs]; exact ⟨pool, rfl⟩

/-- **C86 (Parquet pages)** The compressor of the Parquet writer meets the contract under which written files read back (C35, C53, C56, C62):
only the libraries' contracts are left as assumptions.  In particular a page that could not be compressed is never taken for a compressed one. -/
theorem C86_codec_contract {L : Libs} {dec} (ok : LibsOk L dec) (level : Int) (codec : Compression) (enableDictionary : Bool) (ratioLt : StrColumn → Bool) :
    CodecOk (L.writerEnv level codec enableDictionary ratioLt) dec := by
  intro raw hlen hlt
  obtain ⟨out, h1, h2⟩ := C86_compress_partial ok level codec raw
  simp only [Libs.writerEnv, h1, Option.getD_some] at hlt ⊢
  rcases h2 with rfl | ⟨h2, -, h3⟩
  · omega
  · exact ⟨h2, h3 (by omega)⟩

/-- C53 with the compressors of the code. -/
theorem C86_file_roundtrip {L : Libs} {dec} (ok : LibsOk L dec) (level : Int) (codec : Compression) (hlz : codec ≠ .lz4) (enableDictionary : Bool)
    (ratioLt : StrColumn → Bool) (schema : List ColSchema) (hne : schema ≠ []) (hs : schema.length + 1 < 2 ^ 31)
    (hnm : ∀ c ∈ schema, c.name.length < 2 ^ 64) (ts : List TableGroup) (hts : ts.length < 2 ^ 31)
    (h : ∀ t ∈ ts, t.numRows < 2 ^ 31 ∧ ColsOk (L.writerEnv level codec enableDictionary ratioLt) t.numRows schema t.cols t.cells) :
    ∃ p, writeAll (L.writerEnv level codec enableDictionary ratioLt) ({ schema := schema } : PWriter).openFile (ts.map (·.cols)) = some p ∧
      ((p.metadata.write {}).buf.length < 2 ^ 32 → p.close.file.length < 2 ^ 63 →
        readFile dec p.close.file = some (schema.map (fun c => (c.name, (toParquetType c.type).toInt, c.nullable)),
          ts.map (fun t => ⟨t.numRows, t.cells⟩))) :=
  C53_file_roundtrip _ dec (C86_codec_contract ok level codec enableDictionary ratioLt) hlz schema hne hs hnm ts hts h

/-- **C86 (caller's buffer)** `compress_into_buffer` writes only the bytes it reports, inside the buffer; what it reports is the data itself without a
codec, and otherwise (below 4 GiB) reads back as the data. -/
theorem C86_into_buffer {L : Libs} {dec} (ok : LibsOk L dec) (level : Int) (codec : Compression) (output data : List UInt8) :
    ∃ n b, compressIntoBuffer L level codec output data = some (n, b) ∧ b.length = output.length ∧ n ≤ output.length ∧ b.drop n = output.drop n ∧
      (n ≠ 0 → if codec = .none then b.take n = data else data.length < 2 ^ 32 → dec (producedFormat codec) (b.take n) = some data) := by
  have fail : ∃ n b, some (0, output) = some (n, b) ∧ b.length = output.length ∧ n ≤ output.length ∧ b.drop n = output.drop n ∧
      (n ≠ 0 → if codec = .none then b.take n = data else data.length < 2 ^ 32 → dec (producedFormat codec) (b.take n) = some data) :=
    ⟨0, output, rfl, rfl, Nat.zero_le _, rfl, fun h => absurd rfl h⟩
  have good : ∀ out : List UInt8, out.length ≤ output.length →
      (if codec = .none then out = data else data.length < 2 ^ 32 → dec (producedFormat codec) out = some data) →
      ∃ n b, (storeAt output out).map (fun b => (out.length, b)) = some (n, b) ∧ b.length = output.length ∧ n ≤ output.length ∧ b.drop n = output.drop n ∧
      (n ≠ 0 → if codec = .none then b.take n = data else data.length < 2 ^ 32 → dec (producedFormat codec) (b.take n) = some data) := by
    intro out hl hd
    refine ⟨out.length, out ++ output.drop out.length, by rw [storeAt_some hl]; rfl, by simp; omega, hl, by simp, fun _ => ?_⟩
    rw [List.take_left' rfl]
    exact hd
  unfold compressIntoBuffer
  by_cases h0 : data.length = 0
  · rw [if_pos h0]; exact fail
  · rw [if_neg h0]
    have hne : data ≠ [] := fun h => h0 (by rw [h]; rfl)
    cases codec with
    | none =>
      dsimp only
      by_cases hc : output.length ≥ data.length
      · rw [if_pos hc]; exact good data hc (by simp)
      · rw [if_neg hc]; exact fail
    | zstd =>
      dsimp only
      cases hz : L.zstd level output.length data with
      | none => exact fail
      | some out =>
        obtain ⟨h1, h2, h3⟩ := ok.zstd _ _ _ _ hz
        exact good out h1 (by rw [if_neg (by simp)]; exact fun _ => h3)
    | gzip =>
      dsimp only
      by_cases hi : L.gzipInit level = false
      · rw [if_pos hi]; exact fail
      · rw [if_neg hi]
        cases hz : L.gzip level (toUInt output.length) (data.take (toUInt data.length)) with
        | none => exact fail
        | some out =>
          obtain ⟨h1, h2, h3⟩ := ok.gzip _ _ _ _ hz
          refine good out (Nat.le_trans h1 (toUInt_le _)) ?_
          rw [if_neg (by simp)]
          intro hlt
          rw [take_toUInt hlt] at h3
          exact h3
    | snappy =>
      dsimp only
      by_cases hs : L.haveSnappy = true
      · rw [if_pos hs]
        by_cases hc : output.length < L.snappyMax data.length
        · rw [if_pos hc]; exact fail
        · rw [if_neg hc]
          obtain ⟨h1, h2, h3⟩ := ok.snappy data hne
          exact good _ (by omega) (by rw [if_neg (by simp)]; exact fun _ => h3)
      · rw [if_neg hs]; exact fail
    | lz4 =>
      dsimp only
      by_cases hs : L.haveLz4 = true
      · rw [if_pos hs]
        by_cases hl : data.length > 2147483647 ∨ output.length > 2147483647
        · rw [if_pos hl]; exact fail
        · rw [if_neg hl]
          cases hz : L.lz4 output.length data with
          | none => exact fail
          | some out =>
            obtain ⟨h1, h2, h3⟩ := ok.lz4 _ _ _ hz
            exact good out h1 (by rw [if_neg (by simp)]; exact fun _ => h3)
      · rw [if_neg hs]; exact fail

/-! ### A library that meets the contracts: one marker byte before the data. -/

/-- Stores `mark :: x` if there is room. -/
def markLib (mark : UInt8) (room : Nat) (x : List UInt8) : Option (List UInt8) := if x.length + 1 ≤ room then some (mark :: x) else none

def markLibs : Libs :=
  { zstdBound := fun n => n + 1, zstd := fun _ => markLib 6, gzipInit := fun l => decide (l ≤ 9), gzipBound := fun _ n => n + 1,
    gzip := fun _ => markLib 2, snappyMax := fun n => n + 1, snappy := fun x => 1 :: x, lz4Bound := fun n => n + 1, lz4 := markLib 7,
    haveSnappy := true, haveLz4 := false }

def markDec (k : Int) : List UInt8 → Option (List UInt8)
  | [] => none
  | m :: x => if k = m.toNat then some x else none

theorem markLibs_ok : LibsOk markLibs markDec := by
  have h : ∀ mark room x y, markLib mark room x = some y → y.length ≤ room ∧ y ≠ [] ∧ markDec mark.toNat y = some x := by
    intro mark room x y h
    unfold markLib at h
    split at h
    · simp only [Option.some.injEq] at h
      subst h
      exact ⟨by simpa using ‹_›, by simp, by simp [markDec]⟩
    · simp at h
  exact ⟨fun _ => h 6, fun _ => h 2, fun x _ => ⟨by simp [markLibs], by simp [markLibs], by simp [markLibs, markDec]⟩, h 7⟩

example : compressInto markLibs 3 .zstd [9, 9, 9, 9, 9, 9] [1, 2, 3] = some ([6, 1, 2, 3], [6, 1, 2, 3]) := by decide +kernel
/-- A level zlib does not know: the data uncompressed. -/
example : compress markLibs 22 .gzip [1, 2, 3] = some [1, 2, 3] := by decide +kernel
example : compressIntoBuffer markLibs 3 .gzip [9, 9, 9, 9, 9] [1, 2, 3] = some (4, [2, 1, 2, 3, 9]) := by decide +kernel

/-- **C86 finding** gzip: of 4 GiB and more only the size modulo 4 GiB is compressed, and success is reported. -/
theorem C86_gzip_truncates {L : Libs} {dec} (ok : LibsOk L dec) (level : Int) (hi : L.gzipInit level = true) (data out : List UInt8) (hlen : data.length ≠ 0)
    (hz : L.gzip level (toUInt (L.gzipBound level data.length)) (data.take (data.length % 2 ^ 32)) = some out) :
    compress L level .gzip data = some out ∧ dec 2 out = some (data.take (data.length % 2 ^ 32)) := by
  obtain ⟨h1, h2, h3⟩ := ok.gzip _ _ _ _ hz
  refine ⟨?_, h3⟩
  unfold compress
  rw [if_neg hlen]
  dsimp only
  rw [if_neg (by simp [hi]), resizeTo_length]
  have hz' : L.gzip level (toUInt (L.gzipBound level data.length)) (data.take (toUInt data.length)) = some out := hz
  rw [hz']
  exact store_cut (by rw [resizeTo_length]; exact Nat.le_trans h1 (toUInt_le _))

theorem C86_full_fails : ¬ C86_full := by
  intro h
  have hlen : (List.replicate (2 ^ 32) (0 : UInt8)).length = 2 ^ 32 := List.length_replicate
  generalize List.replicate (2 ^ 32) (0 : UInt8) = data at hlen
  have h0 : data.take (data.length % 2 ^ 32) = [] := by rw [hlen, Nat.mod_self]; rfl
  obtain ⟨h1, h2⟩ := C86_gzip_truncates markLibs_ok 3 rfl data [2] (by rw [hlen]; decide) (by rw [h0, hlen]; decide)
  obtain ⟨out, g1, g2⟩ := h markLibs markDec markLibs_ok 3 .gzip data
  rw [h1] at g1
  simp only [Option.some.injEq] at g1
  subst g1
  rcases g2 with g2 | g2
  · rw [← g2] at hlen
    exact absurd hlen (by decide)
  · have g3 := h2.symm.trans g2
    rw [h0] at g3
    simp only [Option.some.injEq] at g3
    rw [← g3] at hlen
    exact absurd hlen (by decide)

/-- **C86 finding** The comment of `compress_into_buffer` ("output contains uncompressed data in that case") does not hold: after a failure the buffer may be
untouched, even if the data would fit. -/
theorem C86_failure_comment_refuted : ∃ (L : Libs) (dec : Int → List UInt8 → Option (List UInt8)) (output data : List UInt8), LibsOk L dec ∧ data ≠ [] ∧ data.length ≤ output.length ∧
    ∃ b, compressIntoBuffer L 3 .lz4 output data = some (0, b) ∧ b.take data.length ≠ data :=
  ⟨markLibs, markDec, [9, 9, 9], [1, 2], markLibs_ok, by simp, by simp, [9, 9, 9], by decide +kernel, by decide⟩

/-- Libraries that always succeed when given as much room as their bound says. -/
structure Generous (L : Libs) : Prop where
  zstd : ∀ level room x, L.zstdBound x.length ≤ room → L.zstd level room x ≠ none
  lz4 : ∀ room x, x.length ≤ 0x7E000000 → L.lz4Bound x.length ≤ room → L.lz4 room x ≠ none

/-- **C86 (advertised size)** A buffer of `max_compressed_size` bytes is enough (gzip, whose estimate is not zlib's own, and LZ4 above 2^31 - 2^25 bytes, where
the library has no bound, aside). -/
theorem C86_max_size_suffices {L : Libs} {dec} (ok : LibsOk L dec) (hg : Generous L) (level : Int) (codec : Compression) (hc : codec ≠ .gzip) (output data : List UInt8)
    (hne : data ≠ []) (hbuilt : (codec = .snappy → L.haveSnappy = true) ∧ (codec = .lz4 → L.haveLz4 = true ∧ data.length ≤ 0x7E000000 ∧ output.length < 2 ^ 31))
    (hcap : maxCompressedSize L codec data.length ≤ output.length) :
    ∃ n b, compressIntoBuffer L level codec output data = some (n, b) ∧ n ≠ 0 := by
  obtain ⟨n, b, h1, -⟩ := C86_into_buffer ok level codec output data
  refine ⟨n, b, h1, ?_⟩
  rintro rfl
  have h0 : ¬ data.length = 0 := fun h => hne (List.length_eq_zero_iff.1 h)
  unfold compressIntoBuffer at h1
  rw [if_neg h0] at h1
  cases codec with
  | none =>
    dsimp only [maxCompressedSize] at h1 hcap
    rw [if_pos hcap, storeAt_some hcap, Option.map_some, Option.some.injEq, Prod.mk.injEq] at h1
    exact h0 h1.1
  | zstd =>
    dsimp only [maxCompressedSize] at h1 hcap
    cases hz : L.zstd level output.length data with
    | none => exact hg.zstd level _ _ hcap hz
    | some out =>
      obtain ⟨g1, g2, -⟩ := ok.zstd _ _ _ _ hz
      rw [hz] at h1
      dsimp only at h1
      rw [storeAt_some g1, Option.map_some, Option.some.injEq, Prod.mk.injEq] at h1
      exact g2 (List.length_eq_zero_iff.1 h1.1)
  | gzip => exact hc rfl
  | snappy =>
    dsimp only [maxCompressedSize] at h1 hcap
    have hs := hbuilt.1 rfl
    rw [if_pos hs] at h1 hcap
    rw [if_neg (by omega)] at h1
    obtain ⟨g1, g2, -⟩ := ok.snappy data hne
    rw [storeAt_some (by omega), Option.map_some, Option.some.injEq, Prod.mk.injEq] at h1
    exact g2 (List.length_eq_zero_iff.1 h1.1)
  | lz4 =>
    dsimp only [maxCompressedSize] at h1 hcap
    obtain ⟨hs, hl, ho⟩ := hbuilt.2 rfl
    rw [if_pos hs] at h1 hcap
    rw [if_neg (by omega)] at h1 hcap
    cases hz : L.lz4 output.length data with
    | none => exact hg.lz4 _ _ hl hcap hz
    | some out =>
      obtain ⟨g1, g2, -⟩ := ok.lz4 _ _ _ hz
      rw [hz] at h1
      dsimp only at h1
      rw [storeAt_some g1, Option.map_some, Option.some.injEq, Prod.mk.injEq] at h1
      exact g2 (List.length_eq_zero_iff.1 h1.1)

example : Generous markLibs :=
  ⟨fun _ room x h => by simp only [markLibs, markLib] at *; rw [if_pos h]; simp, fun room x _ h => by simp only [markLibs, markLib] at *; rw [if_pos h]; simp⟩

end Vroom
