import Verif.Props.Delta
import Verif.Spec.DeltaGap
/- C31: exactly what a Parquet reader finds in a delta-encoded section, for every number of values. -/
namespace Vroom
open Parquet

/-- Slots in use do not depend on the bytes after them. -/
theorem unpack_append (w k : Nat) (a b : List UInt8) (h : k * w ≤ 8 * a.length) : unpack w k (a ++ b) = unpack w k a := by
  unfold unpack
  apply List.map_congr_left
  intro i hi
  have hik : i < k := List.mem_range.1 hi
  have hle : i * w + w ≤ 8 * a.length := by
    have : (i + 1) * w ≤ k * w := Nat.mul_le_mul_right _ hik
    rw [Nat.add_mul] at this; omega
  obtain ⟨e, he⟩ := Nat.exists_eq_add_of_le hle
  rw [leNat_append]
  have hp : (256 : Nat) ^ a.length * leNat b = 2 ^ (i * w) * (2 ^ w * (2 ^ e * leNat b)) := by
    rw [show (256 : Nat) = 2 ^ 8 from rfl, ← Nat.pow_mul, he, Nat.pow_add, Nat.pow_add]
    simp only [Nat.mul_assoc]
  rw [hp, Nat.add_mul_div_left _ _ (Nat.two_pow_pos _), Nat.add_mul_mod_self_left]

/-- `missingPadding` of adjusted differences. -/
def gapOf (adj : List UInt64) : Nat :=
  let w := mbWidth (adj.drop (adj.length / 32 * 32))
  if adj.length % 32 = 0 then 0 else 4 * w - (adj.length % 32 * w + 7) / 8

theorem gapOf_drop (adj : List UInt64) (h : 32 ≤ adj.length) : gapOf (adj.drop 32) = gapOf adj := by
  unfold gapOf
  simp only [List.length_drop, List.drop_drop]
  have h1 : (adj.length - 32) % 32 = adj.length % 32 := by omega
  have h2 : 32 + (adj.length - 32) / 32 * 32 = adj.length / 32 * 32 := by omega
  rw [h1, h2]

theorem miniblocks_padded (k : Nat) (adj : List UInt64) (rest : List UInt8) (hk : adj.length ≤ k * 32)
    (hg : ∀ i, i < k → GoodWidth (mbWidth (miniblock adj i))) :
    miniblocks true 32 (((List.range k).map (miniblock adj)).map (fun b => UInt8.ofNat (mbWidth b))) adj.length
      (((List.range k).map (miniblock adj)).flatMap (fun b => if b.length = 0 then [] else bitPack b (mbWidth b)) ++ rest)
      = if rest.length < gapOf adj then none else some (adj.map UInt64.toNat, rest.drop (gapOf adj)) := by
  induction k generalizing adj with
  | zero =>
    have : adj = [] := List.length_eq_zero_iff.1 (by omega)
    subst this; simp [miniblocks, gapOf]
  | succ k ih =>
    by_cases hfull : adj.length % 32 = 0
    · have hgap : gapOf adj = 0 := by unfold gapOf; rw [if_pos hfull]
      rw [hgap, if_neg (by omega), List.drop_zero]
      exact miniblocks_decode true (k + 1) adj rest hk (Or.inr hfull) hg
    have hr : (List.range (k + 1)).map (miniblock adj) = adj.take 32 :: (List.range k).map (miniblock (adj.drop 32)) := by
      rw [List.range_succ_eq_map, List.map_cons, miniblock_zero, List.map_map]
      congr 1
      apply List.map_congr_left
      intro i _
      exact miniblock_succ adj i
    rw [hr]
    simp only [List.map_cons, List.flatMap_cons, List.append_assoc]
    have h0 : adj.length ≠ 0 := by intro h; rw [h] at hfull; simp at hfull
    rw [miniblocks, if_neg h0]
    dsimp only
    have hg0 := hg 0 (by omega)
    rw [miniblock_zero] at hg0
    have hw64 : mbWidth (adj.take 32) < 256 := by rcases hg0 with h | h <;> omega
    have hwn : (UInt8.ofNat (mbWidth (adj.take 32))).toNat = mbWidth (adj.take 32) := Nat.mod_eq_of_lt hw64
    rw [hwn]
    have hne : (adj.take 32).length ≠ 0 := by rw [List.length_take]; omega
    obtain ⟨p1, p2⟩ := bitPack_spec (adj.take 32) _ hg0 (mbWidth_spec (adj.take 32)).1
    rw [if_neg hne, if_pos rfl]
    have hu := unpack_packNat (mbWidth (adj.take 32)) ((adj.take 32).map UInt64.toNat)
      (by intro x hx; obtain ⟨y, hy, rfl⟩ := List.mem_map.1 hx; exact (mbWidth_spec _).1 y hy) _ p1
    rw [List.length_map, List.length_take, Nat.min_comm] at hu
    by_cases h32 : 32 ≤ adj.length
    · have hsz : (32 * mbWidth (adj.take 32) + 7) / 8 = (bitPack (adj.take 32) (mbWidth (adj.take 32))).length := by
        rw [p2, List.length_take, Nat.min_eq_left h32]
      rw [hsz, if_neg (by simp), List.drop_left' rfl, List.take_left' rfl]
      have hih := ih (adj.drop 32) (by rw [List.length_drop]; omega)
        (fun i hi => by rw [← miniblock_succ]; exact hg (i + 1) (by omega))
      rw [List.length_drop, gapOf_drop adj h32] at hih
      rw [show adj.length - min adj.length 32 = adj.length - 32 by omega, hih]
      by_cases hgap : rest.length < gapOf adj
      · rw [if_pos hgap, if_pos hgap]
      · rw [if_neg hgap, if_neg hgap]
        dsimp only
        rw [hu, ← List.map_append, List.take_append_drop]
    · have hdrop : adj.drop 32 = [] := List.drop_eq_nil_of_le (by omega)
      have htake : adj.take 32 = adj := List.take_of_length_le (by omega)
      have hb : ∀ m : List Nat, (m.map (miniblock [])).flatMap (fun b => if b.length = 0 then [] else bitPack b (mbWidth b)) = [] := by
        intro m; induction m with
        | nil => rfl
        | cons a t ih => rw [List.map_cons, List.flatMap_cons, ih]; simp [miniblock]
      rw [hdrop, hb, List.nil_append]
      rw [htake] at p1 p2 hu ⊢
      rw [show min adj.length 32 = adj.length by omega] at hu ⊢
      generalize hw : mbWidth adj = w at *
      generalize hB : bitPack adj w = B at *
      have hgap : gapOf adj = 4 * w - B.length := by
        unfold gapOf
        rw [if_neg hfull, show adj.length / 32 * 32 = 0 by omega, List.drop_zero, hw, p2, show adj.length % 32 = adj.length by omega]
      have h4 : (32 * w + 7) / 8 = 4 * w := by omega
      have hBle : B.length ≤ 4 * w := by
        rw [p2]
        have : adj.length * w ≤ 32 * w := Nat.mul_le_mul_right _ (by omega)
        omega
      rw [h4, hgap, List.length_append]
      by_cases hlt : rest.length < 4 * w - B.length
      · rw [if_pos hlt, if_pos (by omega)]
      · rw [if_neg hlt, if_neg (by omega), Nat.sub_self]
        have hz : ∀ (ws : List UInt8) (bs : List UInt8), miniblocks true 32 ws 0 bs = some ([], bs) := by
          intro ws bs; cases ws <;> simp [miniblocks]
        rw [hz]
        dsimp only
        rw [List.append_nil, List.take_append, List.take_of_length_le hBle, List.drop_append, List.drop_eq_nil_of_le hBle, List.nil_append,
          unpack_append _ _ _ _ (by rw [p2]; omega), hu]

theorem binDigits_width (v : UInt64) : bitWidthForValue v = Spec.binDigits v.toNat := by
  unfold bitWidthForValue Spec.binDigits
  by_cases h : v = 0
  · subst h; rfl
  · rw [if_neg h, if_neg (fun h0 => h (UInt64.toNat_inj.1 (by simpa using h0)))]

theorem foldl_max_toNat (l : List UInt64) (a : UInt64) : (l.foldl max a).toNat = (l.map UInt64.toNat).foldl max a.toNat := by
  induction l generalizing a with
  | nil => rfl
  | cons x t ih =>
    rw [List.foldl_cons, ih, List.map_cons, List.foldl_cons]
    congr 1
    have : (max a x) = if a ≤ x then x else a := rfl
    rw [this]
    split
    · rename_i h; have := UInt64.le_iff_toNat_le.1 h; omega
    · rename_i h
      have hn : ¬ a.toNat ≤ x.toNat := fun h' => h (UInt64.le_iff_toNat_le.2 h')
      omega

/-- In the last block the adjusted differences lack exactly the specified padding. -/
theorem gapOf_last (ds : List Int) (adj : List UInt64) (h128 : ds.length ≤ 128) (hne : ds.length % 32 ≠ 0)
    (h : ∀ i : Nat, adj[i]?.map (fun (a : UInt64) => (a.toNat : Int)) = ds[i]?.map (fun (d : Int) => d - minDelta ds)) :
    gapOf adj = Spec.missingPadding ds := by
  have hmap : adj.map UInt64.toNat = ds.map (fun d => (d - minDelta ds).toNat) := by
    apply List.ext_getElem?
    intro i
    have hi := h i
    rw [List.getElem?_map, List.getElem?_map]
    cases ha : adj[i]? <;> cases hd : ds[i]? <;> rw [ha, hd] at hi <;> simp only [Option.map_some, Option.map_none] at hi ⊢
    · cases hi
    · cases hi
    · rw [Option.some.injEq] at hi ⊢
      rw [← hi]; simp
  have hlen : adj.length = ds.length := by simpa using congrArg List.length hmap
  have hw : mbWidth (adj.drop (adj.length / 32 * 32)) = Spec.lastWidth ds := by
    unfold mbWidth Spec.lastWidth
    rw [binDigits_width, foldl_max_toNat, List.map_drop, hmap, hlen, ← List.map_drop]
    have hb : ds.drop (ds.length / 128 * 128) = ds := by
      rw [show ds.length / 128 * 128 = 0 by omega, List.drop_zero]
    have hl : ∀ l, Spec.least l = minDelta l := by intro l; cases l <;> rfl
    simp only [hb, hl]
    rfl
  unfold gapOf Spec.missingPadding
  rw [hlen]
  dsimp only
  rw [if_neg hne, if_neg hne, ← hlen, hw]

/-- A block followed by others is full. -/
theorem missingPadding_drop (ds : List Int) (h : 128 ≤ ds.length) : Spec.missingPadding (ds.drop 128) = Spec.missingPadding ds := by
  unfold Spec.missingPadding Spec.lastWidth
  simp only [List.length_drop, List.drop_drop]
  have h1 : (ds.length - 128) % 32 = ds.length % 32 := by omega
  have h2 : 128 + (ds.length - 128) / 32 * 32 = ds.length / 32 * 32 := by omega
  have h3 : 128 + (ds.length - 128) / 128 * 128 = ds.length / 128 * 128 := by omega
  rw [h1, h2, h3]

/-- The last block, whatever its length. -/
theorem deltaBlock_padded (ds : List Int) (bs rest : List UInt8) (hne : ds ≠ []) (hl : ds.length ≤ 128)
    (hr : ∀ d ∈ ds, -(2 ^ 63) ≤ d ∧ d < 2 ^ 63) (hsp : SpreadLt ds (2 ^ 58)) (h : deltaBlock ds = some bs) :
    deltaBlocks true 4 32 ds.length (bs ++ rest) =
      if rest.length < Spec.missingPadding ds then none else some (ds, rest.drop (Spec.missingPadding ds)) := by
  obtain ⟨hmem, hmin⟩ := minDelta_spec ds hne
  have hpos : 0 < ds.length := List.length_pos_iff.2 hne
  rw [deltaBlock] at h
  simp only [Option.bind_eq_bind, Option.pure_def] at h
  cases ha : ds.mapM (adjust (minDelta ds)) with
  | none => rw [ha] at h; simp at h
  | some adj =>
    rw [ha] at h
    simp only [Option.bind_some, Option.some.injEq] at h
    subst h
    obtain ⟨e1, e2⟩ := mapM_adjust _ _ _ hmin ha
    have hal : adj.length = ds.length := by rw [← e1]; simp
    have hbound : ∀ a ∈ adj, a.toNat < 2 ^ 58 := by
      intro a haa
      obtain ⟨d, hd, e⟩ := e2 a haa
      have := hsp d hd _ hmem
      omega
    have hgood : ∀ i, i < 4 → GoodWidth (mbWidth (miniblock adj i)) := by
      intro i _
      left
      apply (mbWidth_spec _).2
      intro v hv
      exact hbound v (List.mem_of_mem_drop (List.mem_of_mem_take hv))
    have hmb := miniblocks_padded 4 adj rest (by omega) hgood
    have hgapeq : gapOf adj = Spec.missingPadding ds := by
      by_cases hz : ds.length % 32 = 0
      · unfold gapOf Spec.missingPadding; rw [hal]; simp only [hz, if_true]
      · apply gapOf_last ds adj hl hz
        intro i
        have e1' : ds[i]? = adj[i]?.map (fun a => minDelta ds + (a.toNat : Int)) := by
          conv_lhs => rw [← e1]
          rw [List.getElem?_map]
        rw [e1', Option.map_map]
        congr 1
        funext a
        simp only [Function.comp_apply]; omega
    rw [hgapeq] at hmb
    have hrange := hr _ hmem
    have hm64 : (Int64.ofInt (minDelta ds)).toInt = minDelta ds := Int64.toInt_ofInt_of_le (by omega) (by omega)
    rw [deltaBlocks.eq_def, dif_neg (by omega), dif_neg (by decide), writeSignedVarint]
    rw [List.append_assoc, List.append_assoc, C26_varint_roundtrip]
    dsimp only
    have hwl : (((List.range miniblockCount).map (miniblock adj)).map (fun b => UInt8.ofNat (mbWidth b))).length = 4 := by
      simp [miniblockCount]
    rw [if_neg (by rw [List.length_append, hwl]; omega), List.take_left' hwl, List.drop_left' hwl]
    rw [show min ds.length (4 * 32) = adj.length by omega]
    rw [show List.range miniblockCount = List.range 4 from rfl, hmb]
    have e1' : adj.map ((fun (a : Nat) => minDelta ds + (a : Int)) ∘ UInt64.toNat) = ds := e1
    by_cases hlt : rest.length < Spec.missingPadding ds
    · rw [if_pos hlt, if_pos hlt]
    · rw [if_neg hlt, if_neg hlt]
      dsimp only
      rw [C26_zigzag_roundtrip, hm64, List.map_map, e1', show ds.length - 4 * 32 = 0 by omega, deltaBlocks.eq_def, dif_pos rfl]
      dsimp only
      rw [List.append_nil]

theorem deltaBlocks_padded (ds : List Int) (bs rest : List UInt8)
    (hr : ∀ d ∈ ds, -(2 ^ 63) ≤ d ∧ d < 2 ^ 63) (hsp : SpreadLt ds (2 ^ 58)) (h : deltaBlocksEnc ds = some bs) :
    deltaBlocks true 4 32 ds.length (bs ++ rest) =
      if rest.length < Spec.missingPadding ds then none else some (ds, rest.drop (Spec.missingPadding ds)) := by
  generalize hn : ds.length = n
  induction n using Nat.strongRecOn generalizing ds bs with
  | _ n ih =>
  subst hn
  match hds : ds with
  | [] =>
    simp [deltaBlocksEnc] at h; subst h
    rw [deltaBlocks.eq_def]; simp [Spec.missingPadding]
  | d :: t =>
    rw [deltaBlocksEnc] at h
    rw [← hds] at h hr hsp ih ⊢
    simp only [Option.bind_eq_bind, Option.pure_def] at h
    cases hb : deltaBlock (ds.take blockSize) with
    | none => rw [hb] at h; simp at h
    | some b =>
      cases hr' : deltaBlocksEnc (ds.drop blockSize) with
      | none => rw [hb, hr'] at h; simp at h
      | some r =>
        rw [hb, hr'] at h
        simp only [Option.bind_some, Option.some.injEq] at h
        subst h
        have hlen : 0 < ds.length := by rw [hds]; simp
        have htl : (ds.take blockSize).length = min 128 ds.length := by simp [blockSize]
        have hne : ds.take blockSize ≠ [] := by intro hn; rw [hn] at htl; simp at htl; omega
        by_cases h128 : ds.length < 128
        · have ht : ds.take blockSize = ds := List.take_of_length_le (by simp only [blockSize]; omega)
          have hd : ds.drop blockSize = [] := List.drop_eq_nil_of_le (by simp only [blockSize]; omega)
          rw [hd] at hr'
          have hr0 : r = [] := by simpa [deltaBlocksEnc] using hr'.symm
          rw [ht] at hb
          rw [hr0, List.append_nil]
          exact deltaBlock_padded ds b rest (by rw [hds]; simp) (by omega) hr hsp hb
        · rw [List.append_assoc, deltaBlock_decode true (ds.take blockSize) b (r ++ rest) hne (by omega)
            (fun x hx => hr x (List.mem_of_mem_take hx))
            (fun x hx y hy => hsp x (List.mem_of_mem_take hx) y (List.mem_of_mem_take hy))
            (by right; omega) hb ds.length (by omega) (by omega)]
          have hdl : ds.length - (ds.take blockSize).length = (ds.drop blockSize).length := by
            rw [htl, List.length_drop]; simp only [blockSize]; omega
          rw [hdl]
          have hdl2 : (ds.drop blockSize).length = ds.length - 128 := by rw [List.length_drop]; rfl
          rw [ih (ds.drop blockSize).length (by omega) (ds.drop blockSize) r
            (fun x hx => hr x (List.mem_of_mem_drop hx))
            (fun x hx y hy => hsp x (List.mem_of_mem_drop hx) y (List.mem_of_mem_drop hy)) hr' rfl]
          rw [show ds.drop blockSize = ds.drop 128 from rfl, missingPadding_drop ds (by omega)]
          by_cases hlt : rest.length < Spec.missingPadding ds
          · rw [if_pos hlt, if_pos hlt]; rfl
          · rw [if_neg hlt, if_neg hlt]
            simp only [Option.map_some]
            rw [show ds.take blockSize = ds.take 128 from rfl, List.take_append_drop]

/-- **C31** (int64) What a reader following the Parquet rule finds, for every number of values whose neighbour differences
lie within 2^58 of each other: the values, but it takes the missing padding from the bytes after the section, and fails if
there are too few. -/
theorem C31_int64_delta_exact (vs : List Int64) (bs rest : List UInt8) (hne : vs ≠ []) (hlen : vs.length < 2 ^ 64)
    (hsp : SpreadLt (diffs (vs.map Int64.toInt)) (2 ^ 58)) (h : encodeDelta vs = some bs) :
    deltaDecode true (bs ++ rest) =
      if rest.length < Spec.missingPadding (diffs (vs.map Int64.toInt)) then none
      else some (vs.map Int64.toInt, rest.drop (Spec.missingPadding (diffs (vs.map Int64.toInt)))) := by
  cases vs with
  | nil => exact absurd rfl hne
  | cons v t =>
    rw [encodeDelta] at h
    simp only [Option.bind_eq_bind, Option.pure_def] at h
    cases hd : deltasOf ((v :: t).map Int64.toInt) with
    | none => rw [hd] at h; simp at h
    | some ds =>
      cases hb : deltaBlocksEnc ds with
      | none => rw [hd] at h; simp [hb] at h
      | some body =>
        rw [hd] at h
        simp only [Option.bind_some, hb, Option.some.injEq] at h
        subst h
        obtain ⟨d1, d2⟩ := deltasOf_spec _ _ hd
        have hdl : ds.length = (v :: t).length - 1 := by rw [d1, diffs_length]; simp
        have hmain := deltaBlocks_padded ds body rest d2 (by rw [d1]; exact hsp) hb
        simp only [List.append_assoc]
        rw [deltaDecode, C26_varint_roundtrip]
        dsimp only
        rw [C26_varint_roundtrip]
        dsimp only
        rw [C26_varint_roundtrip]
        dsimp only
        rw [writeSignedVarint, C26_varint_roundtrip]
        dsimp only
        have hc : (UInt64.ofNat (v :: t).length).toNat = (v :: t).length := Nat.mod_eq_of_lt hlen
        have hbk : (UInt64.ofNat blockSize).toNat / (UInt64.ofNat miniblockCount).toNat = 32 := by decide
        have hmk : (UInt64.ofNat miniblockCount).toNat = 4 := by decide
        rw [hbk, hmk, hc, if_neg (by simp), ← hdl, hmain, ← d1]
        by_cases hlt : rest.length < Spec.missingPadding ds
        · rw [if_pos hlt, if_pos hlt]
        · rw [if_neg hlt, if_neg hlt]
          dsimp only
          rw [C26_zigzag_roundtrip, d1, List.map_cons, cumulate_diffs]

theorem drop_eq_self_iff {α : Type} (l : List α) (n : Nat) (h : n ≤ l.length) : l.drop n = l ↔ n = 0 := by
  constructor
  · intro he; have := congrArg List.length he; rw [List.length_drop] at this; omega
  · rintro rfl; rfl

/-- **C31** (int32) For every non-empty column: encoding never overflows; a Parquet reader gets the values and takes the
missing padding from what follows; so the section is right exactly when no padding is missing. -/
theorem C31_int32_delta_iff (vs : List Int32) (hne : vs ≠ []) (hlen : vs.length < 2 ^ 64) :
    ∃ bs, encodeInt32Delta vs = some bs ∧
      (∀ rest, deltaDecode true (bs ++ rest) =
        if rest.length < Spec.missingPadding (diffs (vs.map Int32.toInt)) then none
        else some (vs.map Int32.toInt, rest.drop (Spec.missingPadding (diffs (vs.map Int32.toInt))))) ∧
      ∀ rest, (deltaDecode true (bs ++ rest) = some (vs.map Int32.toInt, rest) ↔ Spec.missingPadding (diffs (vs.map Int32.toInt)) = 0) := by
  obtain ⟨bs, hbs, -, -⟩ := C31_int32_delta_partial vs hne hlen
  have hmap : (vs.map Int32.toInt64).map Int64.toInt = vs.map Int32.toInt := by
    rw [List.map_map]; apply List.map_congr_left; intro x _; simp [Int32.toInt_toInt64]
  have hdr := diffs_int32 _ (int32_toInt64_range vs)
  have hsp : SpreadLt (diffs ((vs.map Int32.toInt64).map Int64.toInt)) (2 ^ 58) := by
    intro d hd d' hd'
    have := hdr d hd
    have := hdr d' hd'
    omega
  have key : ∀ rest, deltaDecode true (bs ++ rest) =
        if rest.length < Spec.missingPadding (diffs (vs.map Int32.toInt)) then none
        else some (vs.map Int32.toInt, rest.drop (Spec.missingPadding (diffs (vs.map Int32.toInt)))) := by
    intro rest
    have := C31_int64_delta_exact (vs.map Int32.toInt64) bs rest (by simpa using hne) (by simpa using hlen) hsp hbs
    rwa [hmap] at this
  refine ⟨bs, hbs, key, fun rest => ?_⟩
  rw [key rest]
  by_cases hlt : rest.length < Spec.missingPadding (diffs (vs.map Int32.toInt))
  · rw [if_pos hlt]
    constructor
    · intro h; cases h
    · intro h; omega
  · rw [if_neg hlt]
    simp only [Option.some.injEq, Prod.mk.injEq, true_and]
    exact drop_eq_self_iff _ _ (by omega)

theorem cutAt_total {lens : List Int} {bs : List UInt8} {out : List (List UInt8)} {r : List UInt8} (h : cutAt lens bs = some (out, r)) :
    bs.length = (out.map List.length).sum + r.length := by
  induction lens generalizing bs out with
  | nil => simp only [cutAt, Option.some.injEq, Prod.mk.injEq] at h; obtain ⟨rfl, rfl⟩ := h; simp
  | cons n ns ih =>
    rw [cutAt] at h
    split at h
    · cases h
    · rename_i hc
      split at h
      · cases h
      · rename_i vs r' hq
        simp only [Option.some.injEq, Prod.mk.injEq] at h
        obtain ⟨rfl, rfl⟩ := h
        have := ih hq
        rw [List.length_drop] at this
        simp only [List.map_cons, List.sum_cons, List.length_take]
        omega

/-- **C31** (strings) For every column with a value: a Parquet reader recovers the strings and what follows exactly when no
padding is missing after the lengths. -/
theorem C31_delta_length_iff (xs : List (Option (List UInt8))) (hne : xs.filterMap id ≠ []) (hlen : xs.length < 2 ^ 64)
    (hl : ∀ s, some s ∈ xs → s.length < 2 ^ 31) :
    ∃ bs, encodeDeltaLength (xs.map (·.getD [])) (xs.map Option.isNone) = some bs ∧
      ∀ rest, (deltaLengthDecode true (bs ++ rest) = some (xs.filterMap id, rest) ↔
        Spec.missingPadding (diffs ((xs.filterMap id).map (fun s => (s.length : Int)))) = 0) := by
  have hx : xs ≠ [] := by rintro rfl; simp at hne
  have hfl := List.length_filterMap_le id xs
  obtain ⟨bs, h1, h2, -⟩ := C31_int32_delta_iff ((xs.filterMap id).map (fun s => Int32.ofNat s.length))
    (by simpa using hne) (by rw [List.length_map]; omega)
  have hmap : ((xs.filterMap id).map (fun s => Int32.ofNat s.length)).map Int32.toInt
      = (xs.filterMap id).map (fun s => (s.length : Int)) := by
    rw [List.map_map]
    apply List.map_congr_left
    intro s hs
    have hs' : some s ∈ xs := by
      obtain ⟨o, ho, he⟩ := List.mem_filterMap.1 hs
      simp only [id] at he; rw [he] at ho; exact ho
    have := hl s hs'
    simp only [Function.comp_apply]
    rw [Int32.toInt_ofNat_of_lt (by omega)]
  rw [hmap] at h2
  refine ⟨bs ++ (xs.filterMap id).flatten, ?_, fun rest => ?_⟩
  · rw [encodeDeltaLength, if_neg (by simpa using hx), legacy_rows xs [] hx]
    dsimp only
    rw [h1]; rfl
  rw [deltaLengthDecode, List.append_assoc, h2]
  generalize Spec.missingPadding (diffs ((xs.filterMap id).map (fun s => (s.length : Int)))) = g
  constructor
  · intro h
    by_cases hlt : ((xs.filterMap id).flatten ++ rest).length < g
    · rw [if_pos hlt] at h; cases h
    · rw [if_neg hlt] at h
      have := cutAt_total h
      rw [List.length_drop, List.length_append, List.length_flatten] at this
      rw [List.length_append, List.length_flatten] at hlt
      omega
  · rintro rfl
    rw [if_neg (by omega), List.drop_zero]
    exact cutAt_flatten _ rest

/-- Both sides occur: `0, 1, 3` lacks three bytes; thirty-three equal values, or thirty-two with differences of one bit,
lack none. -/
example : Spec.missingPadding (diffs [0, 1, 3]) = 3 ∧ Spec.missingPadding (diffs (List.replicate 33 7)) = 0 ∧
    Spec.missingPadding (diffs (List.replicate 31 0 ++ [1])) = 0 ∧ Spec.missingPadding (diffs (List.replicate 31 0 ++ [2])) = 0 := by
  decide +kernel

end Vroom
