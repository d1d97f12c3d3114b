import Verif.Model.Delta
import Verif.Props.Plain
/-
C31: delta encodings.
-/
namespace Vroom
open Parquet

/-- Widths for which the 64-bit accumulator of `bit_pack` never loses bits. -/
def GoodWidth (w : Nat) : Prop := w ≤ 58 ∨ w = 60

theorem bitPack_spec (vs : List UInt64) (w : Nat) (hw : GoodWidth w) (hv : ∀ v ∈ vs, v.toNat < 2 ^ w) :
    leNat (bitPack vs w) = packNat w (vs.map UInt64.toNat) ∧ (bitPack vs w).length = (vs.length * w + 7) / 8 := by
  rw [bitPack]
  by_cases h0 : w = 0
  · rw [if_pos h0]
    subst h0
    have := packNat_lt 0 (vs.map UInt64.toNat) (by
      intro x hx; obtain ⟨y, hy, rfl⟩ := List.mem_map.1 hx; exact hv y hy)
    simp at this
    simp [leNat, this]
  · rw [if_neg h0]
    have key : ∀ g, g ∣ 8 → g ∣ w → w + 8 ≤ 64 + g →
        leNat (packLoop w 0 0 vs) = packNat w (vs.map UInt64.toNat) ∧ (packLoop w 0 0 vs).length = (vs.length * w + 7) / 8 := by
      intro g h1 h2 h3
      have := packLoop_eq' w g h1 h2 h3 vs 0 0 (by decide) (Nat.dvd_zero g) (by decide) hv
      rw [Nat.mul_comm w] at this
      simpa using this
    rcases hw with h | h
    · by_cases h57 : w ≤ 57
      · exact key 1 (by decide) (Nat.one_dvd _) (by omega)
      · have : w = 58 := by omega
        subst this; exact key 2 (by decide) (by decide) (by decide)
    · subst h; exact key 4 (by decide) (by decide) (by decide)

theorem foldl_max_ge (l : List UInt64) (a : UInt64) :
    a ≤ l.foldl max a ∧ ∀ v ∈ l, v ≤ l.foldl max a := by
  induction l generalizing a with
  | nil => exact ⟨UInt64.le_refl a, by simp⟩
  | cons x t ih =>
    obtain ⟨h1, h2⟩ := ih (max a x)
    have hm : a ≤ max a x ∧ x ≤ max a x := by
      simp only [UInt64.le_iff_toNat_le]
      have : (max a x) = if a ≤ x then x else a := rfl
      rw [this]
      split
      · rename_i h; rw [UInt64.le_iff_toNat_le] at h; omega
      · rename_i h; rw [UInt64.le_iff_toNat_le] at h; omega
    simp only [List.foldl_cons]
    refine ⟨UInt64.le_trans hm.1 h1, ?_⟩
    intro v hv
    rcases List.mem_cons.1 hv with rfl | hv
    · exact UInt64.le_trans hm.2 h1
    · exact h2 v hv

theorem foldl_max_mem (l : List UInt64) (a : UInt64) : l.foldl max a = a ∨ l.foldl max a ∈ l := by
  induction l generalizing a with
  | nil => exact Or.inl rfl
  | cons x t ih =>
    simp only [List.foldl_cons]
    have hm : max a x = a ∨ max a x = x := by
      have : (max a x) = if a ≤ x then x else a := rfl
      rw [this]; split <;> simp
    rcases ih (max a x) with h | h
    · rw [h]; rcases hm with e | e
      · exact Or.inl e
      · rw [e]; exact Or.inr (by simp)
    · exact Or.inr (by simp [h])

theorem bitWidthForValue_spec (v : UInt64) :
    v.toNat < 2 ^ bitWidthForValue v ∧ ∀ k, v.toNat < 2 ^ k → bitWidthForValue v ≤ k := by
  rw [bitWidthForValue]
  by_cases h : v = 0
  · rw [if_pos h]; subst h; exact ⟨by decide, fun _ _ => Nat.zero_le _⟩
  · rw [if_neg h]
    have h0 : v.toNat ≠ 0 := fun h0 => h (UInt64.toNat_inj.1 (by simpa using h0))
    refine ⟨Nat.lt_log2_self, fun k hk => ?_⟩
    have := (Nat.log2_lt h0).2 hk
    omega

theorem mbWidth_spec (mb : List UInt64) :
    (∀ v ∈ mb, v.toNat < 2 ^ mbWidth mb) ∧ ∀ k, (∀ v ∈ mb, v.toNat < 2 ^ k) → mbWidth mb ≤ k := by
  obtain ⟨h1, h2⟩ := bitWidthForValue_spec (mb.foldl max 0)
  refine ⟨fun v hv => ?_, fun k hk => ?_⟩
  · have := UInt64.le_iff_toNat_le.1 ((foldl_max_ge mb 0).2 v hv)
    exact Nat.lt_of_le_of_lt this h1
  · apply h2
    rcases foldl_max_mem mb 0 with h | h
    · rw [h]; exact Nat.two_pow_pos k
    · exact hk _ h

theorem miniblock_zero (adj : List UInt64) : miniblock adj 0 = adj.take 32 := by
  simp [miniblock, miniblockSize, blockSize, miniblockCount]

theorem miniblock_succ (adj : List UInt64) (i : Nat) : miniblock adj (i + 1) = miniblock (adj.drop 32) i := by
  simp only [miniblock, miniblockSize, blockSize, miniblockCount, List.drop_drop]
  congr 2; omega

theorem miniblocks_decode (padded : Bool) (k : Nat) (adj : List UInt64) (rest : List UInt8) (hk : adj.length ≤ k * 32)
    (hp : padded = false ∨ adj.length % 32 = 0)
    (hg : ∀ i, i < k → GoodWidth (mbWidth (miniblock adj i))) :
    miniblocks padded 32 (((List.range k).map (miniblock adj)).map (fun b => UInt8.ofNat (mbWidth b))) adj.length
      (((List.range k).map (miniblock adj)).flatMap (fun b => if b.length = 0 then [] else bitPack b (mbWidth b)) ++ rest)
      = some (adj.map UInt64.toNat, rest) := by
  induction k generalizing adj with
  | zero =>
    have : adj = [] := List.length_eq_zero_iff.1 (by omega)
    subst this; simp [miniblocks]
  | succ k ih =>
    have hr : (List.range (k + 1)).map (miniblock adj) = adj.take 32 :: (List.range k).map (miniblock (adj.drop 32)) := by
      rw [List.range_succ_eq_map, List.map_cons, miniblock_zero, List.map_map]
      congr 1
      apply List.map_congr_left
      intro i _
      exact miniblock_succ adj i
    rw [hr]
    simp only [List.map_cons, List.flatMap_cons, List.append_assoc]
    by_cases h0 : adj.length = 0
    · have : adj = [] := List.length_eq_zero_iff.1 h0
      subst this
      have hb : ∀ m : List Nat, (m.map (miniblock [])).flatMap (fun b => if b.length = 0 then [] else bitPack b (mbWidth b)) = [] := by
        intro m; induction m with
        | nil => rfl
        | cons a t ih => rw [List.map_cons, List.flatMap_cons, ih]; simp [miniblock]
      simp only [miniblocks, List.length_nil, if_true, List.take_nil, List.drop_nil, hb, List.map_nil, List.nil_append]
    · rw [miniblocks, if_neg h0]
      dsimp only
      have hg0 := hg 0 (by omega)
      rw [miniblock_zero] at hg0
      have hw64 : mbWidth (adj.take 32) < 256 := by rcases hg0 with h | h <;> omega
      have hwn : (UInt8.ofNat (mbWidth (adj.take 32))).toNat = mbWidth (adj.take 32) := Nat.mod_eq_of_lt hw64
      rw [hwn]
      have hne : (adj.take 32).length ≠ 0 := by rw [List.length_take]; omega
      obtain ⟨p1, p2⟩ := bitPack_spec (adj.take 32) _ hg0 (mbWidth_spec (adj.take 32)).1
      rw [if_neg hne]
      have hsz : ((if padded then 32 else min adj.length 32) * mbWidth (adj.take 32) + 7) / 8
          = (bitPack (adj.take 32) (mbWidth (adj.take 32))).length := by
        rw [p2, List.length_take]
        rcases hp with hp | hp
        · rw [hp]
          rw [if_neg (by simp), Nat.min_comm]
        · have : min 32 adj.length = 32 := by omega
          rw [this, Nat.min_comm, this]
          split <;> rfl
      rw [hsz, if_neg (by simp), List.drop_left' rfl, List.take_left' rfl]
      have hih := ih (adj.drop 32) (by rw [List.length_drop]; omega)
        (by rcases hp with hp | hp
            · exact Or.inl hp
            · right; rw [List.length_drop]; omega)
        (fun i hi => by rw [← miniblock_succ]; exact hg (i + 1) (by omega))
      rw [List.length_drop] at hih
      rw [show adj.length - min adj.length 32 = adj.length - 32 by omega, hih]
      dsimp only
      have hu := unpack_packNat (mbWidth (adj.take 32)) ((adj.take 32).map UInt64.toNat)
        (by intro x hx; obtain ⟨y, hy, rfl⟩ := List.mem_map.1 hx; exact (mbWidth_spec _).1 y hy) _ p1
      rw [List.length_map, List.length_take, Nat.min_comm] at hu
      rw [hu, ← List.map_append, List.take_append_drop]

theorem minDelta_spec (ds : List Int) (h : ds ≠ []) : minDelta ds ∈ ds ∧ ∀ d ∈ ds, minDelta ds ≤ d := by
  have key : ∀ (t : List Int) (a : Int), (t.foldl min a = a ∨ t.foldl min a ∈ t) ∧ t.foldl min a ≤ a ∧ ∀ d ∈ t, t.foldl min a ≤ d := by
    intro t
    induction t with
    | nil => intro a; simp
    | cons x t ih =>
      intro a
      obtain ⟨h1, h2, h3⟩ := ih (min a x)
      simp only [List.foldl_cons]
      refine ⟨?_, by omega, ?_⟩
      · rcases h1 with h1 | h1
        · rw [h1]
          rcases (show min a x = a ∨ min a x = x by omega) with e | e
          · exact Or.inl e
          · rw [e]; exact Or.inr (by simp)
        · exact Or.inr (by simp [h1])
      · intro d hd
        rcases List.mem_cons.1 hd with rfl | hd
        · omega
        · exact h3 d hd
  cases ds with
  | nil => exact absurd rfl h
  | cons d t =>
    obtain ⟨h1, h2, h3⟩ := key t d
    simp only [minDelta]
    refine ⟨?_, ?_⟩
    · rcases h1 with h1 | h1
      · rw [h1]; simp
      · simp [h1]
    · intro x hx
      rcases List.mem_cons.1 hx with rfl | hx
      · exact h2
      · exact h3 x hx

theorem mapM_adjust (m : Int) (ds : List Int) (adj : List UInt64) (hm : ∀ d ∈ ds, m ≤ d)
    (h : ds.mapM (adjust m) = some adj) :
    adj.map (fun a => m + (a.toNat : Int)) = ds ∧ ∀ a ∈ adj, ∃ d ∈ ds, (a.toNat : Int) = d - m := by
  induction ds generalizing adj with
  | nil => simp at h; subst h; simp
  | cons d t ih =>
    rw [List.mapM_cons] at h
    cases ha : adjust m d with
    | none => rw [ha] at h; simp at h
    | some a =>
      cases ht : t.mapM (adjust m) with
      | none => rw [ha, ht] at h; simp at h
      | some at' =>
        rw [ha, ht] at h
        simp at h
        subst h
        obtain ⟨i1, i2⟩ := ih at' (fun x hx => hm x (by simp [hx])) ht
        have hd := hm d (by simp)
        have hval : (a.toNat : Int) = d - m := by
          simp only [adjust, int64?] at ha
          split at ha
          · rename_i hr
            simp at ha
            rw [← ha]
            have : (UInt64.ofNat (d - m).toNat).toNat = (d - m).toNat := Nat.mod_eq_of_lt (by omega)
            rw [this]; omega
          · simp at ha
        refine ⟨?_, ?_⟩
        · simp only [List.map_cons, i1, hval]
          congr 1; omega
        · intro x hx
          rcases List.mem_cons.1 hx with rfl | hx
          · exact ⟨d, by simp, hval⟩
          · obtain ⟨y, hy, e⟩ := i2 x hx; exact ⟨y, by simp [hy], e⟩

/-- A bound on how far apart the neighbour differences of one column may lie. -/
def SpreadLt (ds : List Int) (b : Int) : Prop := ∀ d ∈ ds, ∀ d' ∈ ds, d - d' < b

theorem deltaBlock_decode (padded : Bool) (ds : List Int) (bs rest : List UInt8) (hne : ds ≠ []) (hl : ds.length ≤ 128)
    (hr : ∀ d ∈ ds, -(2 ^ 63) ≤ d ∧ d < 2 ^ 63) (hsp : SpreadLt ds (2 ^ 58))
    (hp : padded = false ∨ ds.length % 32 = 0) (h : deltaBlock ds = some bs) (m : Nat) (hmn : ds.length ≤ m)
    (hm : ds.length = 128 ∨ ds.length = m) :
    deltaBlocks padded 4 32 m (bs ++ rest) =
      (deltaBlocks padded 4 32 (m - ds.length) rest).map (fun p => (ds ++ p.1, p.2)) := by
  obtain ⟨hmem, hmin⟩ := minDelta_spec ds hne
  have hpos : 0 < ds.length := List.length_pos_iff.2 hne
  rw [deltaBlock] at h
  simp only [Option.bind_eq_bind, Option.pure_def] at h
  cases ha : ds.mapM (adjust (minDelta ds)) with
  | none => rw [ha] at h; simp at h
  | some adj =>
    rw [ha] at h
    simp only [Option.bind_some, Option.some.injEq] at h
    subst h
    obtain ⟨e1, e2⟩ := mapM_adjust _ _ _ hmin ha
    have hal : adj.length = ds.length := by rw [← e1]; simp
    have hbound : ∀ a ∈ adj, a.toNat < 2 ^ 58 := by
      intro a haa
      obtain ⟨d, hd, e⟩ := e2 a haa
      have := hsp d hd _ hmem
      omega
    have hgood : ∀ i, i < 4 → GoodWidth (mbWidth (miniblock adj i)) := by
      intro i _
      left
      apply (mbWidth_spec _).2
      intro v hv
      exact hbound v (List.mem_of_mem_drop (List.mem_of_mem_take hv))
    have hmb := miniblocks_decode padded 4 adj rest (by omega) (by rw [hal]; exact hp) hgood
    have hrange := hr _ hmem
    have hm64 : (Int64.ofInt (minDelta ds)).toInt = minDelta ds := Int64.toInt_ofInt_of_le (by omega) (by omega)
    rw [deltaBlocks.eq_def, dif_neg (by omega), dif_neg (by decide), writeSignedVarint]
    rw [List.append_assoc, List.append_assoc, C26_varint_roundtrip]
    dsimp only
    have hwl : (((List.range miniblockCount).map (miniblock adj)).map (fun b => UInt8.ofNat (mbWidth b))).length = 4 := by
      simp [miniblockCount]
    rw [if_neg (by rw [List.length_append, hwl]; omega), List.take_left' hwl, List.drop_left' hwl]
    rw [show min m (4 * 32) = adj.length by omega]
    rw [show List.range miniblockCount = List.range 4 from rfl, hmb]
    dsimp only
    rw [C26_zigzag_roundtrip, hm64, List.map_map]
    have e1' : adj.map ((fun (a : Nat) => minDelta ds + (a : Int)) ∘ UInt64.toNat) = ds := e1
    rw [e1']
    have hm0 : deltaBlocks padded 4 32 (m - 4 * 32) rest = deltaBlocks padded 4 32 (m - ds.length) rest := by
      have hq : m - 4 * 32 = m - ds.length := by omega
      rw [hq]
    rw [hm0]
    cases deltaBlocks padded 4 32 (m - ds.length) rest with
    | none => rfl
    | some p => rfl

theorem deltaBlocks_decode (padded : Bool) (ds : List Int) (bs rest : List UInt8)
    (hr : ∀ d ∈ ds, -(2 ^ 63) ≤ d ∧ d < 2 ^ 63) (hsp : SpreadLt ds (2 ^ 58))
    (hp : padded = false ∨ ds.length % 32 = 0) (h : deltaBlocksEnc ds = some bs) :
    deltaBlocks padded 4 32 ds.length (bs ++ rest) = some (ds, rest) := by
  generalize hn : ds.length = n
  induction n using Nat.strongRecOn generalizing ds bs with
  | _ n ih =>
  subst hn
  match hds : ds with
  | [] =>
    simp [deltaBlocksEnc] at h; subst h
    rw [deltaBlocks.eq_def]; simp
  | d :: t =>
    rw [deltaBlocksEnc] at h
    rw [← hds] at h hr hsp hp ih ⊢
    simp only [Option.bind_eq_bind, Option.pure_def] at h
    cases hb : deltaBlock (ds.take blockSize) with
    | none => rw [hb] at h; simp at h
    | some b =>
      cases hr' : deltaBlocksEnc (ds.drop blockSize) with
      | none => rw [hb, hr'] at h; simp at h
      | some r =>
        rw [hb, hr'] at h
        simp only [Option.bind_some, Option.some.injEq] at h
        subst h
        have hlen : 0 < ds.length := by rw [hds]; simp
        have htl : (ds.take blockSize).length = min 128 ds.length := by simp [blockSize]
        rw [List.append_assoc, deltaBlock_decode padded (ds.take blockSize) b (r ++ rest)
          (by intro hn; rw [hn] at htl; simp at htl; omega) (by omega)
          (fun x hx => hr x (List.mem_of_mem_take hx))
          (fun x hx y hy => hsp x (List.mem_of_mem_take hx) y (List.mem_of_mem_take hy))
          (by rw [htl]; rcases hp with hp | hp
              · exact Or.inl hp
              · right; omega) hb ds.length (by omega) (by omega)]
        have hdl : ds.length - (ds.take blockSize).length = (ds.drop blockSize).length := by
          rw [htl, List.length_drop]; simp only [blockSize]; omega
        rw [hdl]
        have hdl2 : (ds.drop blockSize).length = ds.length - 128 := by rw [List.length_drop]; rfl
        rw [ih (ds.drop blockSize).length (by omega) (ds.drop blockSize) r
          (fun x hx => hr x (List.mem_of_mem_drop hx))
          (fun x hx y hy => hsp x (List.mem_of_mem_drop hx) y (List.mem_of_mem_drop hy))
          (by rcases hp with hp | hp
              · exact Or.inl hp
              · right; omega) hr' rfl]
        simp only [Option.map_some, List.take_append_drop]

/-- The differences of neighbours. -/
def diffs : List Int → List Int
  | a :: b :: t => (b - a) :: diffs (b :: t)
  | _ => []

theorem deltasOf_spec (vs ds : List Int) (h : deltasOf vs = some ds) :
    ds = diffs vs ∧ ∀ d ∈ ds, -(2 ^ 63) ≤ d ∧ d < 2 ^ 63 := by
  induction vs generalizing ds with
  | nil => simp [deltasOf] at h; subst h; simp [diffs]
  | cons a t ih =>
    cases t with
    | nil => simp [deltasOf] at h; subst h; simp [diffs]
    | cons b t =>
      rw [deltasOf] at h
      simp only [Option.bind_eq_bind, Option.pure_def] at h
      cases hd : int64? (b - a) with
      | none => rw [hd] at h; simp at h
      | some d =>
        cases ht : deltasOf (b :: t) with
        | none => rw [hd, ht] at h; simp at h
        | some dt =>
          rw [hd, ht] at h
          simp only [Option.bind_some, Option.some.injEq] at h
          subst h
          obtain ⟨i1, i2⟩ := ih dt ht
          rw [int64?] at hd
          split at hd
          · rename_i hr
            simp at hd; subst hd
            refine ⟨by rw [diffs, i1], ?_⟩
            intro x hx
            rcases List.mem_cons.1 hx with rfl | hx
            · omega
            · exact i2 x hx
          · simp at hd

theorem cumulate_diffs (a : Int) (t : List Int) : cumulate a (diffs (a :: t)) = a :: t := by
  induction t generalizing a with
  | nil => rfl
  | cons b t ih =>
    rw [diffs, cumulate, show a + (b - a) = b by omega, ih]

theorem diffs_length (vs : List Int) : (diffs vs).length = vs.length - 1 := by
  induction vs with
  | nil => rfl
  | cons a t ih => cases t with
    | nil => rfl
    | cons b t => simp only [diffs, List.length_cons] at ih ⊢; omega

/-- Decoding what the encoder produced: with `padded = true` (the Parquet rule) when the last
miniblock is full, with `padded = false` always. -/
theorem delta_decode (padded : Bool) (vs : List Int64) (bs rest : List UInt8) (hne : vs ≠ []) (hlen : vs.length < 2 ^ 64)
    (hp : padded = false ∨ (vs.length - 1) % 32 = 0) (hsp : SpreadLt (diffs (vs.map Int64.toInt)) (2 ^ 58))
    (h : encodeDelta vs = some bs) :
    deltaDecode padded (bs ++ rest) = some (vs.map Int64.toInt, rest) := by
  cases vs with
  | nil => exact absurd rfl hne
  | cons v t =>
    rw [encodeDelta] at h
    simp only [Option.bind_eq_bind, Option.pure_def] at h
    cases hd : deltasOf ((v :: t).map Int64.toInt) with
    | none => rw [hd] at h; simp at h
    | some ds =>
      cases hb : deltaBlocksEnc ds with
      | none => rw [hd] at h; simp [hb] at h
      | some body =>
        rw [hd] at h
        simp only [Option.bind_some, hb, Option.some.injEq] at h
        subst h
        obtain ⟨d1, d2⟩ := deltasOf_spec _ _ hd
        have hdl : ds.length = (v :: t).length - 1 := by rw [d1, diffs_length]; simp
        have hmain := deltaBlocks_decode padded ds body rest d2 (by rw [d1]; exact hsp) (by rw [hdl]; exact hp) hb
        simp only [List.append_assoc]
        rw [deltaDecode, C26_varint_roundtrip]
        dsimp only
        rw [C26_varint_roundtrip]
        dsimp only
        rw [C26_varint_roundtrip]
        dsimp only
        rw [writeSignedVarint, C26_varint_roundtrip]
        dsimp only
        have hc : (UInt64.ofNat (v :: t).length).toNat = (v :: t).length := Nat.mod_eq_of_lt hlen
        have hbk : (UInt64.ofNat blockSize).toNat / (UInt64.ofNat miniblockCount).toNat = 32 := by decide
        have hmk : (UInt64.ofNat miniblockCount).toNat = 4 := by decide
        rw [hbk, hmk, hc, if_neg (by simp), ← hdl, hmain]
        dsimp only
        rw [C26_zigzag_roundtrip, d1, List.map_cons, cumulate_diffs]

/-- **C31** (int64) When the number of differences is a multiple of 32 (every miniblock full) and they
lie within 2^58 of each other, the section is valid Parquet and decodes to the values. -/
theorem C31_int64_delta_partial (vs : List Int64) (bs rest : List UInt8) (hne : vs ≠ []) (hlen : vs.length < 2 ^ 64)
    (hfull : (vs.length - 1) % 32 = 0) (hsp : SpreadLt (diffs (vs.map Int64.toInt)) (2 ^ 58))
    (h : encodeDelta vs = some bs) : deltaDecode true (bs ++ rest) = some (vs.map Int64.toInt, rest) :=
  delta_decode true vs bs rest hne hlen (Or.inr hfull) hsp h

/-- **C31** (int64) For every length, a reader that does not expect the final miniblock to be padded
gets the values back. -/
theorem C31_int64_delta_unpadded_partial (vs : List Int64) (bs rest : List UInt8) (hne : vs ≠ []) (hlen : vs.length < 2 ^ 64)
    (hsp : SpreadLt (diffs (vs.map Int64.toInt)) (2 ^ 58))
    (h : encodeDelta vs = some bs) : deltaDecode false (bs ++ rest) = some (vs.map Int64.toInt, rest) :=
  delta_decode false vs bs rest hne hlen (Or.inl rfl) hsp h

/-! 32-bit values: no overflow, widths at most 33. -/

theorem deltasOf_int32 (vs : List Int) (hv : ∀ v ∈ vs, -(2 ^ 31) ≤ v ∧ v < 2 ^ 31) : deltasOf vs = some (diffs vs) := by
  induction vs with
  | nil => rfl
  | cons a t ih => cases t with
    | nil => rfl
    | cons b t =>
      have ha := hv a (by simp)
      have hb := hv b (by simp)
      rw [deltasOf, ih (fun x hx => hv x (by simp at hx ⊢; tauto)), int64?, if_pos (by omega)]
      rfl

theorem diffs_int32 (vs : List Int) (hv : ∀ v ∈ vs, -(2 ^ 31) ≤ v ∧ v < 2 ^ 31) :
    ∀ d ∈ diffs vs, -(2 ^ 32) < d ∧ d < 2 ^ 32 := by
  induction vs with
  | nil => simp [diffs]
  | cons a t ih => cases t with
    | nil => simp [diffs]
    | cons b t =>
      have ha := hv a (by simp)
      have hb := hv b (by simp)
      intro d hd
      rw [diffs] at hd
      rcases List.mem_cons.1 hd with rfl | hd
      · omega
      · exact ih (fun x hx => hv x (by simp at hx ⊢; tauto)) d hd

theorem mapM_adjust_some (m : Int) (ds : List Int) (h : ∀ d ∈ ds, 0 ≤ d - m ∧ d - m < 2 ^ 63) :
    ∃ adj, ds.mapM (adjust m) = some adj := by
  induction ds with
  | nil => exact ⟨[], by simp⟩
  | cons d t ih =>
    obtain ⟨at', ht⟩ := ih (fun x hx => h x (by simp [hx]))
    have := h d (by simp)
    refine ⟨UInt64.ofNat (d - m).toNat :: at', ?_⟩
    rw [List.mapM_cons, ht, adjust, int64?, if_pos (by omega)]; rfl

theorem deltaBlocksEnc_some (ds : List Int) (h : ∀ d ∈ ds, -(2 ^ 32) < d ∧ d < 2 ^ 32) : ∃ bs, deltaBlocksEnc ds = some bs := by
  generalize hn : ds.length = n
  induction n using Nat.strongRecOn generalizing ds with
  | _ n ih =>
  subst hn
  match hds : ds with
  | [] => exact ⟨[], by simp [deltaBlocksEnc]⟩
  | d :: t =>
    rw [deltaBlocksEnc]
    rw [← hds] at ih h ⊢
    obtain ⟨r, hr⟩ := ih (ds.drop blockSize).length (by rw [hds]; simp [blockSize]; omega) (ds.drop blockSize)
      (fun x hx => h x (List.mem_of_mem_drop hx)) rfl
    have hne : ds.take blockSize ≠ [] := by rw [hds]; simp [blockSize]
    obtain ⟨hm1, hm2⟩ := minDelta_spec _ hne
    have hmr := h _ (List.mem_of_mem_take hm1)
    obtain ⟨adj, ha⟩ := mapM_adjust_some (minDelta (ds.take blockSize)) (ds.take blockSize) (by
      intro x hx
      have := hm2 x hx
      have := h x (List.mem_of_mem_take hx)
      omega)
    rw [hr, deltaBlock, ha]
    exact ⟨_, rfl⟩

theorem int32_toInt64_range (vs : List Int32) :
    ∀ v ∈ (vs.map Int32.toInt64).map Int64.toInt, -(2 ^ 31) ≤ v ∧ v < 2 ^ 31 := by
  intro v hv
  simp only [List.map_map, List.mem_map, Function.comp_apply] at hv
  obtain ⟨x, _, rfl⟩ := hv
  rw [Int32.toInt_toInt64]
  exact ⟨Int32.le_toInt x, Int32.toInt_lt x⟩

/-- **C31** (int32) Encoding never overflows; with `padded = false` every input decodes, with the Parquet
rule every input whose number of differences is a multiple of 32. -/
theorem C31_int32_delta_partial (vs : List Int32) (hne : vs ≠ []) (hlen : vs.length < 2 ^ 64) :
    ∃ bs, encodeInt32Delta vs = some bs ∧
      (∀ rest, deltaDecode false (bs ++ rest) = some (vs.map Int32.toInt, rest)) ∧
      ((vs.length - 1) % 32 = 0 → ∀ rest, deltaDecode true (bs ++ rest) = some (vs.map Int32.toInt, rest)) := by
  have hr := int32_toInt64_range vs
  have hd := deltasOf_int32 _ hr
  have hdr := diffs_int32 _ hr
  obtain ⟨body, hb⟩ := deltaBlocksEnc_some _ hdr
  have hsp : SpreadLt (diffs ((vs.map Int32.toInt64).map Int64.toInt)) (2 ^ 58) := by
    intro d hd d' hd'
    have := hdr d hd
    have := hdr d' hd'
    omega
  have hex : ∃ bs, encodeDelta (vs.map Int32.toInt64) = some bs := by
    cases vs with
    | nil => exact absurd rfl hne
    | cons v t =>
      rw [List.map_cons, encodeDelta]
      rw [List.map_cons] at hd hb
      rw [hd]
      simp only [Option.bind_eq_bind, Option.bind_some, Option.pure_def]
      rw [hb]; exact ⟨_, rfl⟩
  obtain ⟨bs, hbs⟩ := hex
  have hmap : (vs.map Int32.toInt64).map Int64.toInt = vs.map Int32.toInt := by
    rw [List.map_map]; apply List.map_congr_left; intro x _; simp [Int32.toInt_toInt64]
  refine ⟨bs, hbs, fun rest => ?_, fun hf rest => ?_⟩
  · rw [← hmap]
    exact delta_decode false _ bs rest (by simpa using hne) (by simpa using hlen) (Or.inl rfl) hsp hbs
  · rw [← hmap]
    exact delta_decode true _ bs rest (by simpa using hne) (by simpa using hlen) (Or.inr (by simpa using hf)) hsp hbs

theorem cutAt_flatten (l : List (List UInt8)) (rest : List UInt8) :
    cutAt (l.map (fun s => (s.length : Int))) (l.flatten ++ rest) = some (l, rest) := by
  induction l with
  | nil => rfl
  | cons s t ih =>
    simp only [List.map_cons, cutAt, List.flatten_cons, List.append_assoc]
    rw [if_neg (by simp), Int.toNat_natCast, List.drop_left' rfl, ih, List.take_left' rfl]

/-- **C31** (strings) The non-null strings come back with an unpadded reader; by the Parquet rule when
the number of strings is one more than a multiple of 32. -/
theorem C31_delta_length_partial (xs : List (Option (List UInt8))) (hne : xs.filterMap id ≠ []) (hlen : xs.length < 2 ^ 64)
    (hl : ∀ s, some s ∈ xs → s.length < 2 ^ 31) :
    ∃ bs, encodeDeltaLength (xs.map (·.getD [])) (xs.map Option.isNone) = some bs ∧
      (∀ rest, deltaLengthDecode false (bs ++ rest) = some (xs.filterMap id, rest)) ∧
      (((xs.filterMap id).length - 1) % 32 = 0 →
        ∀ rest, deltaLengthDecode true (bs ++ rest) = some (xs.filterMap id, rest)) := by
  have hx : xs ≠ [] := by rintro rfl; simp at hne
  have hfl := List.length_filterMap_le id xs
  obtain ⟨bs, h1, h2, h3⟩ := C31_int32_delta_partial ((xs.filterMap id).map (fun s => Int32.ofNat s.length))
    (by simpa using hne) (by rw [List.length_map]; omega)
  have hmap : ((xs.filterMap id).map (fun s => Int32.ofNat s.length)).map Int32.toInt
      = (xs.filterMap id).map (fun s => (s.length : Int)) := by
    rw [List.map_map]
    apply List.map_congr_left
    intro s hs
    have hs' : some s ∈ xs := by
      obtain ⟨o, ho, he⟩ := List.mem_filterMap.1 hs
      simp only [id] at he; rw [he] at ho; exact ho
    have := hl s hs'
    simp only [Function.comp_apply]
    rw [Int32.toInt_ofNat_of_lt (by omega)]
  rw [hmap] at h2 h3
  refine ⟨bs ++ (xs.filterMap id).flatten, ?_, fun rest => ?_, fun hf rest => ?_⟩
  · rw [encodeDeltaLength, if_neg (by simpa using hx), legacy_rows xs [] hx]
    dsimp only
    rw [h1]; rfl
  · rw [deltaLengthDecode, List.append_assoc, h2]; exact cutAt_flatten _ rest
  · rw [deltaLengthDecode, List.append_assoc, h3 (by simpa using hf)]; exact cutAt_flatten _ rest

/-- **C31** REFUTED in general: the last miniblock is not padded, so by the Parquet rule the section for
`0, 1, 3` is truncated. -/
theorem C31_last_miniblock_not_padded :
    encodeInt32Delta [0, 1, 3] = some [128, 1, 4, 3, 0, 2, 1, 0, 0, 0, 2] ∧
    deltaDecode true [128, 1, 4, 3, 0, 2, 1, 0, 0, 0, 2] = none := by
  constructor
  · decide +kernel
  · decide +kernel

/-- **C31** REFUTED for widely spread int64 differences: four differences `0, d, d, d` with
`d = 2^59 - 1` need 59-bit slots, for which `bit_pack`'s 64-bit accumulator drops bits; even the reader
that expects no padding gets other values back. -/
theorem C31_wide_deltas_lose_bits :
    ∃ bs, encodeDelta [0, 0, 2 ^ 59 - 1, 2 * (2 ^ 59 - 1), 3 * (2 ^ 59 - 1)] = some bs ∧
      deltaDecode false bs ≠ some ([0, 0, 2 ^ 59 - 1, 2 * (2 ^ 59 - 1), 3 * (2 ^ 59 - 1)], []) := by
  refine ⟨[128, 1, 4, 5, 0, 0, 59, 0, 0, 0, 0, 0, 0, 0, 0, 0, 0, 248, 255, 255, 255, 255, 255, 255, 255, 255, 255,
    255, 255, 255, 255, 255, 254, 255, 255, 255, 255, 255, 255, 15], ?_, ?_⟩
  · decide +kernel
  · decide +kernel

/-- **C31** REFUTED for strings: by the Parquet rule the section for `"a", "ab", "a"` is not readable. -/
theorem C31_delta_length_not_padded :
    encodeDeltaLength [[97], [97, 98], [97]] [false, false, false]
      = some [128, 1, 4, 3, 2, 1, 2, 0, 0, 0, 2, 97, 97, 98, 97] ∧
    deltaLengthDecode true [128, 1, 4, 3, 2, 1, 2, 0, 0, 0, 2, 97, 97, 98, 97] = none := by
  constructor
  · decide +kernel
  · decide +kernel

/-- The hypotheses of the int64 theorems are met by a concrete column with negative differences. -/
example : SpreadLt (diffs (([5, -3, 1000000, 7] : List Int64).map Int64.toInt)) (2 ^ 58) ∧
    (encodeDelta [5, -3, 1000000, 7]).isSome = true := by
  constructor
  · intro d hd d' hd'
    simp only [List.map_cons, List.map_nil, diffs, List.mem_cons, List.not_mem_nil, or_false] at hd hd'
    have e1 : Int64.toInt 5 = 5 := by decide +kernel
    have e2 : Int64.toInt (-3) = -3 := by decide +kernel
    have e3 : Int64.toInt 1000000 = 1000000 := by decide +kernel
    have e4 : Int64.toInt 7 = 7 := by decide +kernel
    rw [e1, e2, e3, e4] at hd hd'
    omega
  · decide +kernel

end Vroom
