import Verif.Lemmas.Packing
import Verif.Props.Buffers
/-
C26 varint / zigzag, C29 RLE/bit-packed hybrid, C28 definition levels.
-/
namespace Vroom
open Parquet

/-! ## C26 -/

/-- Every unsigned number decodes back, and exactly the emitted bytes are consumed. -/
theorem C26_varint_roundtrip (v : UInt64) (rest : List UInt8) :
    readVarint (writeVarint v ++ rest) = some (v.toNat, rest) := readVarint_writeVarint v rest

example : writeVarint 300 = [0xAC, 0x02] := by decide +kernel

/-- Varints of 64-bit numbers use between one and ten bytes. -/
theorem C26_varint_size (v : UInt64) (k : Nat) (hk : 0 < k) :
    (writeVarint v).length ≤ k ↔ v.toNat < 128 ^ k := by
  induction k, hk using Nat.le_induction generalizing v with
  | base =>
    rw [writeVarint_length]
    have := writeVarint_ne_nil (v >>> 7)
    have := List.length_pos_iff.2 this
    by_cases h : v.toNat < 128
    · simp [h]
    · rw [if_neg h]; omega
  | succ k hk ih =>
    rw [writeVarint_length]
    have e : (v >>> 7).toNat = v.toNat / 128 := by
      rw [UInt64.toNat_shiftRight]; show v.toNat >>> 7 = _; rw [Nat.shiftRight_eq_div_pow]
    have i := ih (v >>> 7)
    rw [e, Nat.div_lt_iff_lt_mul (by decide), ← Nat.pow_succ] at i
    by_cases h : v.toNat < 128
    · rw [if_pos h]
      have : 128 ^ 1 ≤ 128 ^ (k + 1) := Nat.pow_le_pow_right (by decide) (by omega)
      constructor <;> intro <;> omega
    · rw [if_neg h, ← i]; omega

theorem zigzag_toNat (v : Int64) :
    (zigzagEncode v).toNat = if 0 ≤ v.toInt then (2 * v.toInt).toNat else (-2 * v.toInt - 1).toNat := by
  have hlo := Int64.le_toInt v
  have hhi := Int64.toInt_lt v
  have key : (zigzagEncode v).toNat = ((v.toBitVec <<< 1) ^^^ (v.toBitVec.sshiftRight 63)).toNat := by
    rfl
  rw [key]
  have hI : v.toInt = v.toBitVec.toInt := rfl
  rw [hI] at *
  generalize v.toBitVec = x at *
  have hx := x.isLt
  rw [BitVec.toInt_eq_msb_cond] at *
  by_cases hm : x.msb = true
  · have hbig : 2 ^ 63 ≤ x.toNat := by
      have := (BitVec.msb_eq_decide x).symm.trans hm
      simpa using this
    simp only [hm, if_true] at hlo hhi ⊢
    rw [BitVec.sshiftRight_eq_of_msb_true hm]
    have hz : (~~~x) >>> 63 = 0#64 := by
      apply BitVec.eq_of_toNat_eq
      rw [BitVec.toNat_ushiftRight, BitVec.toNat_not, Nat.shiftRight_eq_div_pow]
      simp; omega
    rw [hz, show ~~~(0#64) = BitVec.allOnes 64 by decide, BitVec.xor_allOnes, BitVec.toNat_not,
      BitVec.toNat_shiftLeft, Nat.shiftLeft_eq]
    rw [if_neg (by omega)]
    omega
  · have hm' : x.msb = false := by simpa using hm
    have hsm : x.toNat < 2 ^ 63 := by
      have := (BitVec.msb_eq_decide x).symm.trans hm'
      simpa using this
    simp only [hm', Bool.false_eq_true, if_false] at hlo hhi ⊢
    rw [BitVec.sshiftRight_eq_of_msb_false hm']
    have hz : x >>> 63 = 0#64 := by
      apply BitVec.eq_of_toNat_eq
      rw [BitVec.toNat_ushiftRight, Nat.shiftRight_eq_div_pow]
      simp; omega
    rw [hz, BitVec.xor_zero, BitVec.toNat_shiftLeft, Nat.shiftLeft_eq, if_pos (by omega)]
    omega

/-- Every signed number decodes back from its zigzag form. -/
theorem C26_zigzag_roundtrip (v : Int64) : unzigzag (zigzagEncode v).toNat = v.toInt := by
  rw [zigzag_toNat, unzigzag]
  by_cases h : 0 ≤ v.toInt
  · rw [if_pos h, if_pos (by omega)]; omega
  · rw [if_neg h, if_neg (by omega)]; omega

/-- Signed varints decode back, whatever follows them. -/
theorem C26_signed_roundtrip (v : Int64) (rest : List UInt8) :
    (readVarint (writeSignedVarint v ++ rest)).map (fun p => (unzigzag p.1, p.2)) = some (v.toInt, rest) := by
  rw [writeSignedVarint, C26_varint_roundtrip]; simp [C26_zigzag_roundtrip]

example : writeSignedVarint (-3) = [5] := by decide +kernel

/-! ## C29 -/

/-- The encoder of rle.cpp (also inlined in plain.cpp): for every bit width 1…32 and every list of
values that fit, the Parquet rule gives the values back, whatever bytes follow. -/
theorem C29_rle_roundtrip (w : Nat) (hw : 0 < w) (hw32 : w ≤ 32) (vs : List UInt32)
    (hv : ∀ v ∈ vs, v.toNat < 2 ^ w) (rest : List UInt8) :
    hybrid w vs.length (rleEncode w vs ++ rest) = some (vs.map UInt32.toNat) := by
  rw [rleEncode]
  by_cases h : vs.length = 0
  · rw [h, hybrid_zero, List.length_eq_zero_iff.1 h]; rfl
  · rw [if_neg (by omega)]
    exact hybrid_rleLoop w hw32 vs rest hv

example : rleEncode 3 [1,2,3,4,5,6,7,0,5,5,5,5,5,5,5,5,5,5] = [3, 0xD1, 0x58, 0x1F, 20, 5] := by decide +kernel

/-- Bit width 0 emits nothing at all, so nothing can be decoded: callers must not use it. -/
theorem C29_width_zero (vs : List UInt32) (h : vs ≠ []) :
    rleEncode 0 vs = [] ∧ hybrid 0 vs.length (rleEncode 0 vs) = none := by
  have : rleEncode 0 vs = [] := by simp [rleEncode]
  refine ⟨this, ?_⟩
  rw [this, hybrid, if_neg (by simpa using h)]
  simp [readVarint]

/-- The streaming encoder of hybrid_rle.cpp is WRONG when a long run starts at a position that is not
a multiple of eight: the zero padding of the first run is decoded as five extra values. -/
theorem C29_hybrid_encoder_pads_mid_stream :
    hybrid 1 11 (encodeHybridRle 1 [0, 0, 0, 1, 1, 1, 1, 1, 1, 1, 1]) =
      some [0, 0, 0, 0, 0, 0, 0, 0, 1, 1, 1] := by
  decide +kernel

/-- Decoding through what the streaming encoder has emitted so far. -/
def HybridInv (w : Nat) (pre : List UInt32) (s : HybridEnc) : Prop :=
  ∃ flushed, pre = flushed ++ s.buf ∧
    (∀ n rest, hybrid w (flushed.length + n) (s.out ++ rest) =
      (hybrid w n rest).map (flushed.map UInt32.toNat ++ ·)) ∧
    s.buf.length < 64 ∧
    (s.buf = [] ∨ (0 < s.rep ∧ s.rep ≤ s.buf.length ∧
      s.buf.drop (s.buf.length - s.rep) = List.replicate s.rep s.cur))

theorem rep_lt_eight {pre : List UInt32} (hno : ∀ v, ¬ List.replicate 8 v <:+: pre)
    {rep : Nat} {cur : UInt32} (h : List.replicate rep cur <:+ pre) : rep < 8 := by
  by_contra hc
  apply hno cur
  have : List.replicate 8 cur <:+: List.replicate rep cur := by
    have : List.replicate rep cur = List.replicate 8 cur ++ List.replicate (rep - 8) cur := by
      rw [List.replicate_append_replicate]; congr 1; omega
    rw [this]; exact (List.prefix_append _ _).isInfix
  exact this.trans h.isInfix

/-- After appending to the buffer: flush if it is full. -/
theorem hybridInv_tail (w : Nat) (hw : w ≤ 32) (pre : List UInt32) (s : HybridEnc)
    (hv : ∀ v ∈ pre, v.toNat < 2 ^ w) (flushed : List UInt32)
    (h1 : pre = flushed ++ s.buf)
    (h2 : ∀ n rest, hybrid w (flushed.length + n) (s.out ++ rest) =
      (hybrid w n rest).map (flushed.map UInt32.toNat ++ ·))
    (h3 : s.buf.length ≤ 64) (h4 : 0 < s.rep) (h5 : s.rep ≤ s.buf.length) (h8 : s.rep < 8)
    (h6 : s.buf.drop (s.buf.length - s.rep) = List.replicate s.rep s.cur) :
    HybridInv w pre (if 64 ≤ s.buf.length then s.flushBuffered w else s) := by
  by_cases h : 64 ≤ s.buf.length
  · rw [if_pos h]
    have hne : s.buf ≠ [] := by intro hn; rw [hn] at h; simp at h
    have hf : s.flushBuffered w = { s with out := s.out ++ packedRun w s.buf, buf := [], rep := 0 } := by
      rw [HybridEnc.flushBuffered, if_neg hne]
      dsimp only
      rw [if_neg (by omega), if_neg (by omega), HybridEnc.flushPacked, if_neg (by omega), List.take_length]
    rw [hf]
    refine ⟨flushed ++ s.buf, by simp [h1], ?_, by simp, Or.inl rfl⟩
    intro n rest
    have hl : s.buf.length = 64 := by omega
    dsimp only
    rw [List.append_assoc, List.length_append, Nat.add_assoc, h2,
      hybrid_packedRun' w s.buf _ rest hw (fun v hm => hv v (by rw [h1]; simp [hm])) (by omega) (by omega)
        (by omega)]
    rw [show s.buf.length + n - s.buf.length = n by omega]
    cases hybrid w n rest <;> simp
  · rw [if_neg h]
    exact ⟨flushed, h1, h2, by omega, Or.inr ⟨h4, h5, h6⟩⟩

theorem hybridInv_put (w : Nat) (hw : w ≤ 32) (pre : List UInt32) (s : HybridEnc) (v : UInt32)
    (hv : ∀ x ∈ pre ++ [v], x.toNat < 2 ^ w) (hno : ∀ x, ¬ List.replicate 8 x <:+: pre ++ [v])
    (hi : HybridInv w pre s) : HybridInv w (pre ++ [v]) (s.put w v) := by
  obtain ⟨fl, h1, h2, h3, h4⟩ := hi
  rw [HybridEnc.put]
  by_cases hb : s.buf = []
  · rw [if_pos hb]
    exact ⟨fl, by simp [h1, hb], h2, by simp, Or.inr (by simp)⟩
  · rw [if_neg hb]
    obtain ⟨p1, p2, p3⟩ := h4.resolve_left hb
    have hsuf : List.replicate s.rep s.cur <:+ pre := by
      rw [h1, ← p3]; exact (List.drop_suffix _ _).trans (List.suffix_append _ _)
    have hno' : ∀ x, ¬ List.replicate 8 x <:+: pre :=
      fun x hx => hno x (hx.trans (List.prefix_append _ _).isInfix)
    have hr8 := rep_lt_eight hno' hsuf
    dsimp only
    by_cases hc : v = s.cur
    · rw [if_pos hc]
      have hsuf' : List.replicate (s.rep + 1) s.cur <:+ pre ++ [v] := by
        rw [List.replicate_succ', hc]
        obtain ⟨t, ht⟩ := hsuf
        exact ⟨t, by rw [← ht]; simp⟩
      have hr9 := rep_lt_eight hno hsuf'
      rw [if_neg (show ¬ 8 ≤ s.rep + 1 by omega)]
      refine hybridInv_tail w hw _ _ hv fl (by simp [h1]) h2 (by simp; omega) (by simp) (by simp; omega) hr9 ?_
      dsimp only
      rw [List.length_append, List.length_singleton,
        show s.buf.length + 1 - (s.rep + 1) = s.buf.length - s.rep by omega,
        List.drop_append_of_le_length (by omega), p3, hc, List.replicate_succ']
    · rw [if_neg hc, if_neg (show ¬ 8 ≤ s.rep by omega)]
      exact hybridInv_tail w hw _ _ hv fl (by simp [h1]) h2 (by simp; omega) (by simp) (by simp) (by simp) (by simp)

/-- The streaming encoder is right on inputs in which no value occurs eight times in a row (the bug
above needs a long run). -/
theorem C29_hybrid_encoder_partial (w : Nat) (hw : w ≤ 32) (vs : List UInt32)
    (hv : ∀ v ∈ vs, v.toNat < 2 ^ w) (hno : ∀ v, ¬ List.replicate 8 v <:+: vs) (rest : List UInt8) :
    hybrid w vs.length (encodeHybridRle w vs ++ rest) = some (vs.map UInt32.toNat) := by
  rw [encodeHybridRle]
  by_cases h : vs.length = 0
  · rw [h, hybrid_zero, List.length_eq_zero_iff.1 h]; rfl
  · rw [if_neg h]
    have key : ∀ (todo pre : List UInt32) (s : HybridEnc), (∀ v ∈ pre ++ todo, v.toNat < 2 ^ w) →
        (∀ v, ¬ List.replicate 8 v <:+: pre ++ todo) → HybridInv w pre s →
        HybridInv w (pre ++ todo) (todo.foldl (fun s v => s.put w v) s) := by
      intro todo
      induction todo with
      | nil => intro pre s _ _ hi; simpa using hi
      | cons v t ih =>
        intro pre s a b hi
        have := ih (pre ++ [v]) (s.put w v) (by simpa using a) (by simpa using b)
          (hybridInv_put w hw pre s v (fun x hx => a x (by simp at hx ⊢; tauto))
            (fun x hx => b x (hx.trans (by
              have : pre ++ v :: t = (pre ++ [v]) ++ t := by simp
              rw [this]; exact (List.prefix_append _ _).isInfix))) hi)
        simpa using this
    have hi := key vs [] {} (by simpa using hv) (by simpa using hno)
      ⟨[], rfl, by intro n rest; simp, by simp, Or.inl rfl⟩
    rw [List.nil_append] at hi
    generalize hs : vs.foldl (fun s v => s.put w v) ({} : HybridEnc) = s at hi
    obtain ⟨fl, h1, h2, h3, h4⟩ := hi
    rw [HybridEnc.flushBuffered]
    by_cases hb : s.buf = []
    · rw [if_pos hb]
      have e : vs = fl := by rw [h1, hb]; simp
      have := h2 0 rest
      rw [Nat.add_zero, hybrid_zero] at this
      rw [e, this]; simp
    · rw [if_neg hb]
      obtain ⟨p1, p2, p3⟩ := h4.resolve_left hb
      have hsuf : List.replicate s.rep s.cur <:+ vs := by
        rw [h1, ← p3]; exact (List.drop_suffix _ _).trans (List.suffix_append _ _)
      have hr8 := rep_lt_eight hno hsuf
      dsimp only
      have hbl : 0 < s.buf.length := List.length_pos_iff.2 hb
      rw [if_neg (by omega), if_neg (by omega), HybridEnc.flushPacked, if_neg (by omega), List.take_length]
      dsimp only
      have := h2 s.buf.length (packedRun w s.buf ++ rest)
      rw [hybrid_packedRun' w s.buf _ rest hw (fun v hm => hv v (by rw [h1]; simp [hm])) hbl (by omega)
        (by omega), Nat.sub_self, hybrid_zero] at this
      rw [List.append_assoc, h1, List.length_append, this]
      simp

example : (∀ v, ¬ List.replicate 8 v <:+: ([1, 0, 1, 1, 0, 2, 3] : List UInt32)) := by
  intro v h; have := h.length_le; simp at this

/-! ## C28 -/

theorem bitsRequired_spec (v : UInt32) (k : Nat) : bitsRequired v ≤ k ↔ v.toNat < 2 ^ k := by
  induction v using bitsRequired.induct generalizing k with
  | case1 => rw [bitsRequired, dif_pos rfl]; simp [Nat.two_pow_pos]
  | case2 v h ih =>
    rw [bitsRequired, dif_neg h]
    have e : (v >>> 1).toNat = v.toNat / 2 := by
      rw [UInt32.toNat_shiftRight]; show v.toNat >>> 1 = _; rw [Nat.shiftRight_eq_div_pow]
    have h0 : v.toNat ≠ 0 := fun h0 => h (UInt32.toNat_inj.1 (by simpa using h0))
    cases k with
    | zero => simp; omega
    | succ k =>
      have := ih k
      rw [e, Nat.div_lt_iff_lt_mul (by decide), ← Nat.pow_succ] at this
      rw [← this]; omega

/-- `bits_required` is the least width that holds the value. -/
theorem C29_bits_required (v : UInt32) :
    v.toNat < 2 ^ bitsRequired v ∧ ∀ k, v.toNat < 2 ^ k → bitsRequired v ≤ k :=
  ⟨(bitsRequired_spec v _).1 (Nat.le_refl _), fun k h => (bitsRequired_spec v k).2 h⟩

theorem leNat_le4 (v : UInt32) : leNat (le4 v) = v.toNat := by
  have h := leNat_valueBytes v 4 (by decide)
  have e : valueBytes v 4 = le4 v := by
    have r4 : List.range 4 = [0, 1, 2, 3] := rfl
    simp only [valueBytes, r4, le4, List.map_cons, List.map_nil]
    have : v >>> (0 * 8).toUInt32 = v := by simp
    rw [this]; rfl
  rw [e] at h
  rw [h.1]; exact Nat.mod_eq_of_lt v.toNat_lt

theorem readFixed_le4 (n : Nat) (h : n < 2 ^ 32) (rest : List UInt8) :
    readFixed 4 (le4 (UInt32.ofNat n) ++ rest) = some (n, rest) := by
  have hl : (le4 (UInt32.ofNat n)).length = 4 := rfl
  rw [readFixed, if_neg (by rw [List.length_append, hl]; omega), List.take_left' hl, List.drop_left' hl, leNat_le4]
  congr 2
  show n % 2 ^ 32 = n
  omega

theorem writeVarint32_length (v : UInt32) : (writeVarint v.toUInt64).length ≤ 5 := by
  refine (C26_varint_size v.toUInt64 5 (by decide)).2 ?_
  rw [UInt32.toNat_toUInt64]
  have := v.toNat_lt
  omega

theorem rleRun_length (w : Nat) (v : UInt32) (c : Nat) (hw : w ≤ 8) : (rleRun w v c).length ≤ 6 := by
  rw [rleRun, List.length_append]
  have := writeVarint32_length ((UInt32.ofNat c) <<< 1)
  simp only [valueBytes, List.length_map, List.length_range]
  omega

theorem packedRun_length (w : Nat) (vs : List UInt32) (hw : w ≤ 32) (h0 : 0 < vs.length) (h8 : vs.length ≤ 8)
    (hv : ∀ v ∈ vs, v.toNat < 2 ^ w) : (packedRun w vs).length = 1 + w := by
  have hg : (vs.length + 7) / 8 = 1 := by omega
  rw [packedRun, hg]
  rw [List.length_append]
  have h := (packLoop_eq w ((vs ++ List.replicate (1 * 8 - vs.length) (0 : UInt32)).map UInt32.toUInt64) 0 0
    (by decide) (by omega) (by decide)
    (by
      intro v hm
      obtain ⟨x, hx, rfl⟩ := List.mem_map.1 hm
      rw [List.mem_append] at hx
      rw [UInt32.toNat_toUInt64]
      rcases hx with hx | hx
      · exact hv x hx
      · rw [(List.mem_replicate.1 hx).2]; exact Nat.two_pow_pos w)).2
  rw [h]
  have : (writeVarint (((UInt32.ofNat 1) <<< 1) ||| 1).toUInt64).length = 1 := by decide +kernel
  rw [this, List.length_map, List.length_append, List.length_replicate, show vs.length + (1 * 8 - vs.length) = 8 by omega]
  omega

/-- The encoded section is short, so its length fits the four-byte prefix. -/
theorem rleLoop_length (w : Nat) (hw : w ≤ 8) (vs : List UInt32) (hv : ∀ v ∈ vs, v.toNat < 2 ^ w) :
    8 * (rleLoop w vs).length ≤ 9 * vs.length + 72 := by
  have key : ∀ m (vs : List UInt32), vs.length = m → (∀ v ∈ vs, v.toNat < 2 ^ w) →
      8 * (rleLoop w vs).length ≤ 9 * ((vs.length + 7) / 8 * 8) := by
    intro m
    induction m using Nat.strongRecOn with
    | _ m ih =>
    intro vs hm hv
    subst hm
    match hvs : vs with
    | [] => simp [rleLoop]
    | x :: t =>
      rw [rleLoop]
      rw [← hvs]
      rw [← hvs] at ih hv
      obtain ⟨r1, r2, r3⟩ := runLength_le x maxRun vs
      generalize hrun : runLength x maxRun vs = run at *
      have hlen : 0 < vs.length := by rw [hvs]; simp
      by_cases h8 : 8 ≤ run
      · rw [if_pos h8, List.length_append]
        have h1 := rleRun_length w x run hw
        have h2 := ih (vs.drop run).length (by simp; omega) (vs.drop run) rfl
          (fun v h => hv v (List.mem_of_mem_drop h))
        rw [List.length_drop] at h2
        omega
      · rw [if_neg h8, List.length_append]
        have h1 := packedRun_length w (vs.take (min 8 vs.length)) (by omega) (by simp; omega) (by simp)
          (fun v h => hv v (List.mem_of_mem_take h))
        have h2 := ih (vs.drop (min 8 vs.length)).length (by simp; omega) (vs.drop (min 8 vs.length)) rfl
          (fun v h => hv v (List.mem_of_mem_drop h))
        rw [List.length_drop] at h2
        omega
  have := key _ vs rfl hv
  omega

theorem bitsRequired_u8 (m : UInt8) : bitsRequired m.toUInt32 ≤ 8 := by
  rw [bitsRequired_spec]
  have := m.toNat_lt
  simpa using this

theorem defLevels_body (w n : Nat) (body rest : List UInt8) (h : body.length < 2 ^ 32) :
    defLevels w n (le4 (UInt32.ofNat body.length) ++ body ++ rest) =
      (hybrid w n body).map (fun vs => (vs, rest)) := by
  rw [List.append_assoc, defLevels, readFixed_le4 _ h]
  dsimp only
  rw [if_neg (by simp), List.take_left' rfl, List.drop_left' rfl]
  cases hybrid w n body <;> rfl

/-- For every column history and every maximum level: the section has a right length prefix and
decodes to one level per row, the maximum for values and 0 for nulls.  (Data pages count their rows
in a signed 32-bit number, hence the bound.) -/
theorem C28_def_levels {b : NullBitmap} {fs : List Bool} (h : BitmapHist b fs) (hne : fs ≠ [])
    (hlen : fs.length < 2 ^ 31) (maxDef : UInt8) (hm : maxDef ≠ 0) (rest : List UInt8) :
    defLevels (bitsRequired maxDef.toUInt32) fs.length (encodeDefLevelsArrow b maxDef b.nullCountFast ++ rest) =
      some (fs.map (fun v => if v then maxDef.toNat else 0), rest) := by
  obtain ⟨hsz, hnc, hval⟩ : b.size = fs.length ∧ b.nullCountFast = fs.count false ∧
      (∀ i, i < fs.length → b.isValid i = fs.getD i false) := by
    have := C23_bitmap_is_list h
    have hr := bitmap_rep h
    exact ⟨this.1, this.2.1, fun i hi => rep_isValid hr i hi⟩
  have hpos : 0 < fs.length := List.length_pos_iff.2 hne
  have hw8 := bitsRequired_u8 maxDef
  have hmax : maxDef.toUInt32.toNat < 2 ^ bitsRequired maxDef.toUInt32 := (C29_bits_required _).1
  have hall : (b.nullCountFast = 0 ∨ b.hasNulls = false) →
      fs.map (fun v => if v then maxDef.toNat else 0) = List.replicate fs.length maxDef.toNat := by
    intro hh
    have h0 : fs.count false = 0 := by
      rcases hh with h0 | h0
      · omega
      · rw [← hnc, NullBitmap.nullCountFast, if_pos h0]
    apply List.eq_replicate_iff.2
    refine ⟨by simp, fun x hx => ?_⟩
    obtain ⟨v, hv, rfl⟩ := List.mem_map.1 hx
    cases v with
    | true => rfl
    | false => exact absurd hv (List.count_eq_zero.1 h0)
  have hrun : hybrid (bitsRequired maxDef.toUInt32) fs.length
      (rleRun (bitsRequired maxDef.toUInt32) maxDef.toUInt32 fs.length) =
      some (List.replicate fs.length maxDef.toNat) := by
    have := hybrid_rleRun (bitsRequired maxDef.toUInt32) maxDef.toUInt32 fs.length fs.length []
      (by omega) hmax hpos (Nat.le_refl _) hlen
    rw [List.append_nil, Nat.sub_self, hybrid_zero] at this
    simpa using this
  rw [encodeDefLevelsArrow, if_neg (by omega)]
  by_cases hu : (b.nullCountFast = 0 ∨ b.hasNulls = false) ∧ maxDef = 1
  · rw [if_pos hu, hall hu.1]
    dsimp only
    rw [hsz]
    have h1 := hu.2
    subst h1
    have hw : bitsRequired (1 : UInt8).toUInt32 = 1 := by decide +kernel
    rw [hw] at hrun ⊢
    have hr1 : rleRun 1 (1 : UInt8).toUInt32 fs.length = writeVarint ((UInt32.ofNat fs.length) <<< 1).toUInt64 ++ [1] := rfl
    rw [hr1] at hrun
    generalize (UInt32.ofNat fs.length) <<< 1 = hd at hrun ⊢
    have hvl : (writeVarint hd.toUInt64).length =
        (if hd < 0x80 then 1 else if hd < 0x4000 then 2 else if hd < 0x200000 then 3
          else if hd < 0x10000000 then 4 else 5) := by
      have c1 := C26_varint_size hd.toUInt64 1 (by decide)
      have c2 := C26_varint_size hd.toUInt64 2 (by decide)
      have c3 := C26_varint_size hd.toUInt64 3 (by decide)
      have c4 := C26_varint_size hd.toUInt64 4 (by decide)
      have c5 := writeVarint32_length hd
      have c0 := List.length_pos_iff.2 (writeVarint_ne_nil hd.toUInt64)
      rw [UInt32.toNat_toUInt64] at c1 c2 c3 c4
      have d1 : hd < 0x80 ↔ hd.toNat < 128 := UInt32.lt_iff_toNat_lt
      have d2 : hd < 0x4000 ↔ hd.toNat < 16384 := UInt32.lt_iff_toNat_lt
      have d3 : hd < 0x200000 ↔ hd.toNat < 2097152 := UInt32.lt_iff_toNat_lt
      have d4 : hd < 0x10000000 ↔ hd.toNat < 268435456 := UInt32.lt_iff_toNat_lt
      simp only [d1, d2, d3, d4]
      split
      · omega
      · split
        · omega
        · split
          · omega
          · split <;> omega
    rw [← hvl]
    have hl : (writeVarint hd.toUInt64 ++ [1]).length = (writeVarint hd.toUInt64).length + 1 := by simp
    have hvr : vresize (writeVarint hd.toUInt64 ++ [1]) ((writeVarint hd.toUInt64).length + 1) 0
        = writeVarint hd.toUInt64 ++ [1] := by
      rw [vresize, ← hl, List.take_length]; simp
    rw [hvr, ← hl, defLevels_body _ _ _ _ (by rw [hl]; have := writeVarint32_length hd; omega), hrun]
    rfl
  · rw [if_neg hu]
    dsimp only
    by_cases hh : b.nullCountFast = 0 ∨ b.hasNulls = false
    · rw [if_pos hh, hsz, defLevels_body _ _ _ _ (by
        have := rleRun_length (bitsRequired maxDef.toUInt32) maxDef.toUInt32 fs.length hw8; omega), hrun, hall hh]
      rfl
    · rw [if_neg hh, hsz]
      have hm' : (List.range fs.length).map (fun i => if b.isValid i then maxDef.toUInt32 else 0)
          = fs.map (fun v => if v then maxDef.toUInt32 else 0) := by
        conv_rhs => rw [← range_map_getD fs, List.map_map]
        apply List.map_congr_left
        intro i hi
        rw [hval i (List.mem_range.1 hi)]; rfl
      rw [hm']
      have hv : ∀ x ∈ fs.map (fun v => if v then maxDef.toUInt32 else 0), x.toNat < 2 ^ bitsRequired maxDef.toUInt32 := by
        intro x hx
        obtain ⟨v, _, rfl⟩ := List.mem_map.1 hx
        cases v
        · exact Nat.two_pow_pos _
        · exact hmax
      have hL := rleLoop_length _ hw8 _ hv
      rw [List.length_map] at hL
      rw [defLevels_body _ _ _ _ (by omega)]
      have hD := hybrid_rleLoop _ (by omega) _ [] hv
      rw [List.length_map, List.append_nil] at hD
      rw [hD]
      simp only [Option.map_some, List.map_map]
      congr 2
      apply List.map_congr_left
      intro v _
      cases v <;> simp

example : BitmapHist (((({} : NullBitmap).push true).push false).push true) [true, false, true] :=
  .push true (.push false (.push true .new))

/-- At 2^31 rows the run header wraps to zero and the section no longer decodes. -/
theorem C28_wraps_at_2_31 : encodeDefLevelsArrow { size := 2 ^ 31 } 1 0 = [2, 0, 0, 0, 0, 1] := by decide +kernel

/-- The definition-level encoder of the legacy (`std::vector<bool>`) path is WRONG on a column with
nulls whose long run starts off a multiple of eight: three nulls followed by eight values decode as
eight nulls and three values. -/
theorem C28_legacy_encoder_wrong :
    defLevels 1 11 (encodeDefLevelsHybrid ([true, true, true] ++ List.replicate 8 false) 1 3) =
      some (List.replicate 8 0 ++ List.replicate 3 1, []) := by decide +kernel

/-- Without nulls the legacy encoder is right. -/
theorem C28_legacy_no_nulls (n : Nat) (h0 : 0 < n) (hn : n < 2 ^ 31) (rest : List UInt8) :
    defLevels 1 n (encodeDefLevelsHybrid (List.replicate n false) 1 0 ++ rest) = some (List.replicate n 1, rest) := by
  rw [encodeDefLevelsHybrid, if_neg (by simp; omega)]
  have hw : bitsRequired (1 : UInt8).toUInt32 = 1 := by decide +kernel
  dsimp only
  rw [if_pos rfl, hw, List.length_replicate, defLevels_body _ _ _ _ (by
    have := rleRun_length 1 (1 : UInt8).toUInt32 n (by decide); omega)]
  have := hybrid_rleRun 1 (1 : UInt8).toUInt32 n n [] (by decide) (by decide) h0 (Nat.le_refl _) hn
  rw [List.append_nil, Nat.sub_self, hybrid_zero] at this
  rw [this]; simp

end Vroom
