import Verif.Props.DeltaExact
import Verif.Spec.DeltaSlots
/- C31: int64 columns whose differences need slots of any width, including those for which the encoder loses bits.
Examples at the end of the file. -/
namespace Vroom
open Parquet

/-- What an accumulator of 64 bits keeps of values that are packed when `n` bits are pending. -/
def kept (w : Nat) : Nat → List Nat → List Nat
  | _, [] => []
  | n, v :: t => v % 2 ^ (64 - n) :: kept w ((n + w) % 8) t

theorem kept_mapIdx (w n : Nat) (vs : List Nat) (hn : n < 8) : kept w n vs = vs.mapIdx (fun i v => v % 2 ^ (64 - (n + i * w) % 8)) := by
  induction vs generalizing n with
  | nil => rfl
  | cons v t ih =>
    rw [kept, List.mapIdx_cons, ih _ (Nat.mod_lt _ (by decide))]
    congr 1
    · rw [Nat.zero_mul, Nat.add_zero, Nat.mod_eq_of_lt hn]
    · congr 1
      funext i v
      have : ((n + w) % 8 + i * w) % 8 = (n + (i + 1) * w) % 8 := by
        rw [Nat.mod_add_mod]; congr 1; rw [Nat.add_mul]; omega
      rw [this]

theorem kept_lt (w n : Nat) (vs : List Nat) (h : ∀ v ∈ vs, v < 2 ^ w) : ∀ v ∈ kept w n vs, v < 2 ^ w := by
  induction vs generalizing n with
  | nil => simp [kept]
  | cons v t ih =>
    intro x hx
    rw [kept] at hx
    rcases List.mem_cons.1 hx with rfl | hx
    · exact Nat.lt_of_le_of_lt (Nat.mod_le _ _) (h v (by simp))
    · exact ih _ (fun y hy => h y (by simp [hy])) x hx

theorem kept_length (w n : Nat) (vs : List Nat) : (kept w n vs).length = vs.length := by
  induction vs generalizing n with
  | nil => rfl
  | cons v t ih => rw [kept, List.length_cons, ih, List.length_cons]

theorem or_shift_lossy (buf v : UInt64) (n : Nat) (hb : buf.toNat < 2 ^ n) (hn : n < 64) :
    (buf ||| (v <<< n.toUInt64)).toNat = buf.toNat + 2 ^ n * (v.toNat % 2 ^ (64 - n)) := by
  have e1 : (v <<< n.toUInt64).toNat = 2 ^ n * (v.toNat % 2 ^ (64 - n)) := by
    rw [UInt64.toNat_shiftLeft]
    have : n.toUInt64.toNat % 64 = n := by
      show (n % 2 ^ 64) % 64 = n
      omega
    rw [this, Nat.shiftLeft_eq, Nat.mul_comm, show (2 : Nat) ^ 64 = 2 ^ n * 2 ^ (64 - n) by rw [← Nat.pow_add]; congr 1; omega,
      Nat.mul_mod_mul_left]
  rw [UInt64.toNat_or, e1, Nat.or_comm, ← Nat.two_pow_add_eq_or_of_lt hb, Nat.add_comm]

/-- The packing loop for every width: each value keeps the bits that fit. -/
theorem packLoop_lossy (w : Nat) (vs : List UInt64) (buf : UInt64) (n : Nat)
    (hn : n ≤ 7) (hb : buf.toNat < 2 ^ n) (hv : ∀ v ∈ vs, v.toNat < 2 ^ w) :
    leNat (packLoop w buf n vs) = buf.toNat + 2 ^ n * packNat w (kept w n (vs.map UInt64.toNat)) ∧
    (packLoop w buf n vs).length = (n + w * vs.length + 7) / 8 := by
  induction vs generalizing buf n with
  | nil =>
    simp only [packLoop, List.map_nil, kept, packNat, Nat.mul_zero, Nat.add_zero, List.length_nil]
    by_cases h : 0 < n
    · rw [if_pos h]
      have : buf.toNat < 128 := Nat.lt_of_lt_of_le hb (Nat.pow_le_pow_right (by decide) hn)
      simp only [leNat, UInt64.toNat_toUInt8, List.length_singleton]
      omega
    · rw [if_neg h]
      have : n = 0 := by omega
      subst this
      simp [leNat]; omega
  | cons v t ih =>
    simp only [packLoop]
    have hB := or_shift_lossy buf v n hb (by omega)
    have hvk : v.toNat % 2 ^ (64 - n) < 2 ^ w := Nat.lt_of_le_of_lt (Nat.mod_le _ _) (hv v (by simp))
    rw [List.map_cons, kept]
    generalize v.toNat % 2 ^ (64 - n) = x at hB hvk ⊢
    generalize hBB : buf ||| (v <<< n.toUInt64) = B at hB
    obtain ⟨h1, h2, h3⟩ := drain_eq B (n + w)
    have hBlt : B.toNat < 2 ^ (n + w) := by
      rw [hB, Nat.pow_add]
      have : 2 ^ n * (x + 1) ≤ 2 ^ n * 2 ^ w := Nat.mul_le_mul_left _ hvk
      rw [Nat.mul_add] at this
      omega
    generalize drain B (n + w) = r at h1 h2 h3
    have e2 : 256 ^ ((n + w) / 8) * 2 ^ r.2.2 = 2 ^ (n + w) := by
      rw [h2, show 256 = 2 ^ 8 by rfl, ← Nat.pow_mul, ← Nat.pow_add]; congr 1; omega
    have hr : r.2.1.toNat < 2 ^ r.2.2 := by
      have : 256 ^ ((n + w) / 8) * r.2.1.toNat < 256 ^ ((n + w) / 8) * 2 ^ r.2.2 := by rw [e2]; omega
      exact Nat.lt_of_mul_lt_mul_left this
    obtain ⟨i1, i2⟩ := ih r.2.1 r.2.2 (by omega) hr (fun x hx => hv x (by simp [hx]))
    rw [← h2]
    constructor
    · rw [leNat_append, i1, h1]
      simp only [packNat]
      calc leNat r.1 + 256 ^ ((n + w) / 8) * (r.2.1.toNat + 2 ^ r.2.2 * packNat w (kept w r.2.2 (t.map UInt64.toNat)))
          = (leNat r.1 + 256 ^ ((n + w) / 8) * r.2.1.toNat)
            + 256 ^ ((n + w) / 8) * 2 ^ r.2.2 * packNat w (kept w r.2.2 (t.map UInt64.toNat)) := by ring
        _ = buf.toNat + 2 ^ n * (x + 2 ^ w * packNat w (kept w r.2.2 (t.map UInt64.toNat))) := by
          rw [h3, e2, hB, Nat.pow_add]; ring
    · rw [List.length_append, i2, h1, h2, List.length_cons, Nat.mul_succ]
      omega

theorem bitPack_lossy (vs : List UInt64) (w : Nat) (hv : ∀ v ∈ vs, v.toNat < 2 ^ w) :
    leNat (bitPack vs w) = packNat w (kept w 0 (vs.map UInt64.toNat)) ∧ (bitPack vs w).length = (vs.length * w + 7) / 8 := by
  rw [bitPack]
  by_cases h0 : w = 0
  · rw [if_pos h0]
    subst h0
    have := packNat_lt 0 (kept 0 0 (vs.map UInt64.toNat)) (kept_lt 0 0 _ (by
      intro x hx; obtain ⟨y, hy, rfl⟩ := List.mem_map.1 hx; exact hv y hy))
    simp at this
    simp [leNat, this]
  · rw [if_neg h0]
    have := packLoop_lossy w vs 0 0 (by decide) (by decide) hv
    rw [Nat.mul_comm w] at this
    simpa using this

theorem mbWidth_le (mb : List UInt64) : mbWidth mb ≤ 64 := (mbWidth_spec mb).2 64 (fun v _ => v.toNat_lt)

/-- What is kept of the adjusted differences of a block. -/
def keptAdj (adj : List UInt64) : List Nat :=
  adj.mapIdx (fun i a => a.toNat % 2 ^ (64 - i % 32 * mbWidth (miniblock adj (i / 32)) % 8))

theorem keptAdj_step (adj : List UInt64) :
    keptAdj adj = kept (mbWidth (adj.take 32)) 0 ((adj.take 32).map UInt64.toNat) ++ keptAdj (adj.drop 32) := by
  unfold keptAdj
  conv => lhs; rw [← List.take_append_drop 32 adj]
  rw [List.mapIdx_append, kept_mapIdx _ _ _ (by decide)]
  rw [List.take_append_drop 32 adj]
  congr 1
  · apply List.ext_getElem
    · simp
    · intro i h1 h2
      have hi : i < 32 := by rw [List.length_mapIdx, List.length_take] at h1; omega
      have h0 : i / 32 = 0 := Nat.div_eq_of_lt hi
      simp only [List.getElem_mapIdx, List.getElem_map, Nat.mod_eq_of_lt hi, h0, miniblock_zero, Nat.zero_add]
  · apply List.ext_getElem
    · simp
    · intro i h1 h2
      have hi : i < (adj.drop 32).length := by rw [List.length_mapIdx] at h1; exact h1
      rw [List.length_drop] at hi
      have hl : (adj.take 32).length = 32 := by rw [List.length_take]; omega
      have h3 : (i + 32) / 32 = i / 32 + 1 := Nat.add_div_right _ (by decide)
      simp only [List.getElem_mapIdx, hl, Nat.add_mod_right, h3, miniblock_succ]

theorem keptAdj_nil : keptAdj [] = [] := rfl

theorem miniblock_rest : ∀ m : List Nat, (m.map (miniblock [])).flatMap (fun b => if b.length = 0 then [] else bitPack b (mbWidth b)) = [] := by
  intro m; induction m with
  | nil => rfl
  | cons a t ih => rw [List.map_cons, List.flatMap_cons, ih]; simp [miniblock]

theorem unpack_bitPack (mb : List UInt64) (k : Nat) (hk : k = mb.length) :
    unpack (mbWidth mb) k (bitPack mb (mbWidth mb)) = kept (mbWidth mb) 0 (mb.map UInt64.toNat) := by
  have hu := unpack_packNat (mbWidth mb) (kept (mbWidth mb) 0 (mb.map UInt64.toNat))
    (kept_lt _ _ _ (by intro x hx; obtain ⟨y, hy, rfl⟩ := List.mem_map.1 hx; exact (mbWidth_spec _).1 y hy)) _
    (bitPack_lossy mb _ (mbWidth_spec mb).1).1
  rw [kept_length, List.length_map, ← hk] at hu
  exact hu

theorem miniblocks_lossy (padded : Bool) (k : Nat) (adj : List UInt64) (rest : List UInt8) (hk : adj.length ≤ k * 32)
    (hp : padded = false ∨ adj.length % 32 = 0) :
    miniblocks padded 32 (((List.range k).map (miniblock adj)).map (fun b => UInt8.ofNat (mbWidth b))) adj.length
      (((List.range k).map (miniblock adj)).flatMap (fun b => if b.length = 0 then [] else bitPack b (mbWidth b)) ++ rest)
      = some (keptAdj adj, rest) := by
  induction k generalizing adj with
  | zero =>
    have : adj = [] := List.length_eq_zero_iff.1 (by omega)
    subst this; simp [miniblocks, keptAdj_nil]
  | succ k ih =>
    have hr : (List.range (k + 1)).map (miniblock adj) = adj.take 32 :: (List.range k).map (miniblock (adj.drop 32)) := by
      rw [List.range_succ_eq_map, List.map_cons, miniblock_zero, List.map_map]
      congr 1
      apply List.map_congr_left
      intro i _
      exact miniblock_succ adj i
    rw [hr]
    simp only [List.map_cons, List.flatMap_cons, List.append_assoc]
    by_cases h0 : adj.length = 0
    · have : adj = [] := List.length_eq_zero_iff.1 h0
      subst this
      simp only [miniblocks, List.length_nil, if_true, List.take_nil, List.drop_nil, miniblock_rest, keptAdj_nil, List.nil_append]
    · rw [miniblocks, if_neg h0]
      dsimp only
      have hw64 := mbWidth_le (adj.take 32)
      have hwn : (UInt8.ofNat (mbWidth (adj.take 32))).toNat = mbWidth (adj.take 32) := Nat.mod_eq_of_lt (by omega)
      rw [hwn]
      have hne : (adj.take 32).length ≠ 0 := by rw [List.length_take]; omega
      obtain ⟨p1, p2⟩ := bitPack_lossy (adj.take 32) _ (mbWidth_spec (adj.take 32)).1
      rw [if_neg hne]
      have hsz : ((if padded then 32 else min adj.length 32) * mbWidth (adj.take 32) + 7) / 8
          = (bitPack (adj.take 32) (mbWidth (adj.take 32))).length := by
        rw [p2, List.length_take]
        rcases hp with hp | hp
        · rw [hp]
          rw [if_neg (by simp), Nat.min_comm]
        · have : min 32 adj.length = 32 := by omega
          rw [this, Nat.min_comm, this]
          split <;> rfl
      rw [hsz, if_neg (by simp), List.drop_left' rfl, List.take_left' rfl]
      have hih := ih (adj.drop 32) (by rw [List.length_drop]; omega)
        (by rcases hp with hp | hp
            · exact Or.inl hp
            · right; rw [List.length_drop]; omega)
      rw [List.length_drop] at hih
      rw [show adj.length - min adj.length 32 = adj.length - 32 by omega, hih]
      dsimp only
      rw [unpack_bitPack _ _ (by rw [List.length_take, Nat.min_comm]), ← keptAdj_step]

theorem miniblocks_lossy_padded (k : Nat) (adj : List UInt64) (rest : List UInt8) (hk : adj.length ≤ k * 32) :
    miniblocks true 32 (((List.range k).map (miniblock adj)).map (fun b => UInt8.ofNat (mbWidth b))) adj.length
      (((List.range k).map (miniblock adj)).flatMap (fun b => if b.length = 0 then [] else bitPack b (mbWidth b)) ++ rest)
      = if rest.length < gapOf adj then none else some (keptAdj adj, rest.drop (gapOf adj)) := by
  induction k generalizing adj with
  | zero =>
    have : adj = [] := List.length_eq_zero_iff.1 (by omega)
    subst this; simp [miniblocks, gapOf, keptAdj_nil]
  | succ k ih =>
    by_cases hfull : adj.length % 32 = 0
    · have hgap : gapOf adj = 0 := by unfold gapOf; rw [if_pos hfull]
      rw [hgap, if_neg (by omega), List.drop_zero]
      exact miniblocks_lossy true (k + 1) adj rest hk (Or.inr hfull)
    have hr : (List.range (k + 1)).map (miniblock adj) = adj.take 32 :: (List.range k).map (miniblock (adj.drop 32)) := by
      rw [List.range_succ_eq_map, List.map_cons, miniblock_zero, List.map_map]
      congr 1
      apply List.map_congr_left
      intro i _
      exact miniblock_succ adj i
    rw [hr]
    simp only [List.map_cons, List.flatMap_cons, List.append_assoc]
    have h0 : adj.length ≠ 0 := by intro h; rw [h] at hfull; simp at hfull
    rw [miniblocks, if_neg h0]
    dsimp only
    have hw64 := mbWidth_le (adj.take 32)
    have hwn : (UInt8.ofNat (mbWidth (adj.take 32))).toNat = mbWidth (adj.take 32) := Nat.mod_eq_of_lt (by omega)
    rw [hwn]
    have hne : (adj.take 32).length ≠ 0 := by rw [List.length_take]; omega
    obtain ⟨p1, p2⟩ := bitPack_lossy (adj.take 32) _ (mbWidth_spec (adj.take 32)).1
    rw [if_neg hne, if_pos rfl]
    have hu := unpack_bitPack (adj.take 32) (min adj.length 32) (by rw [List.length_take, Nat.min_comm])
    by_cases h32 : 32 ≤ adj.length
    · have hsz : (32 * mbWidth (adj.take 32) + 7) / 8 = (bitPack (adj.take 32) (mbWidth (adj.take 32))).length := by
        rw [p2, List.length_take, Nat.min_eq_left h32]
      rw [hsz, if_neg (by simp), List.drop_left' rfl, List.take_left' rfl]
      have hih := ih (adj.drop 32) (by rw [List.length_drop]; omega)
      rw [List.length_drop, gapOf_drop adj h32] at hih
      rw [show adj.length - min adj.length 32 = adj.length - 32 by omega, hih]
      by_cases hgap : rest.length < gapOf adj
      · rw [if_pos hgap, if_pos hgap]
      · rw [if_neg hgap, if_neg hgap]
        dsimp only
        rw [hu, ← keptAdj_step]
    · have hdrop : adj.drop 32 = [] := List.drop_eq_nil_of_le (by omega)
      have htake : adj.take 32 = adj := List.take_of_length_le (by omega)
      have hka := keptAdj_step adj
      rw [hdrop, keptAdj_nil, List.append_nil, htake] at hka
      rw [hdrop, miniblock_rest, List.nil_append]
      rw [htake] at p1 p2 hu ⊢
      rw [show min adj.length 32 = adj.length by omega] at hu ⊢
      rw [← hka] at hu
      generalize keptAdj adj = K at *
      generalize hw : mbWidth adj = w at *
      generalize hB : bitPack adj w = B at *
      have hgap : gapOf adj = 4 * w - B.length := by
        unfold gapOf
        rw [if_neg hfull, show adj.length / 32 * 32 = 0 by omega, List.drop_zero, hw, p2, show adj.length % 32 = adj.length by omega]
      have h4 : (32 * w + 7) / 8 = 4 * w := by omega
      have hBle : B.length ≤ 4 * w := by
        rw [p2]
        have : adj.length * w ≤ 32 * w := Nat.mul_le_mul_right _ (by omega)
        omega
      rw [h4, hgap, List.length_append]
      by_cases hlt : rest.length < 4 * w - B.length
      · rw [if_pos hlt, if_pos (by omega)]
      · rw [if_neg hlt, if_neg (by omega), Nat.sub_self]
        have hz : ∀ (ws : List UInt8) (bs : List UInt8), miniblocks true 32 ws 0 bs = some ([], bs) := by
          intro ws bs; cases ws <;> simp [miniblocks]
        rw [hz]
        dsimp only
        rw [List.append_nil, List.take_append, List.take_of_length_le hBle, List.drop_append, List.drop_eq_nil_of_le hBle, List.nil_append,
          unpack_append _ _ _ _ (by rw [p2]; omega), hu]

theorem storedDiffs_length (ds : List Int) : (Spec.storedDiffs ds).length = ds.length := by simp [Spec.storedDiffs]

theorem least_eq (l : List Int) : Spec.least l = minDelta l := by cases l <;> rfl

/-- Within one block the stored differences are the kept bits above the minimum. -/
theorem storedDiffs_block (ds : List Int) (adj : List UInt64) (h128 : ds.length ≤ 128)
    (hmap : adj.map UInt64.toNat = ds.map (fun d => (d - minDelta ds).toNat)) :
    Spec.storedDiffs ds = (keptAdj adj).map (fun (a : Nat) => minDelta ds + (a : Int)) := by
  have hlen : adj.length = ds.length := by simpa using congrArg List.length hmap
  apply List.ext_getElem
  · rw [storedDiffs_length, List.length_map, keptAdj, List.length_mapIdx, hlen]
  · intro i h1 h2
    rw [storedDiffs_length] at h1
    have hmin : Spec.blockMin ds i = minDelta ds := by
      unfold Spec.blockMin
      rw [show i / 128 * 128 = 0 by omega, List.drop_zero, List.take_of_length_le (by omega), least_eq]
    have hw : Spec.slotWidth ds i = mbWidth (miniblock adj (i / 32)) := by
      unfold Spec.slotWidth mbWidth
      rw [binDigits_width, foldl_max_toNat, hmin, show ((0 : UInt64).toNat) = 0 from rfl]
      unfold miniblock miniblockSize blockSize miniblockCount
      rw [List.map_take, List.map_take, List.map_drop, List.map_drop, hmap]
    have hel : (adj[i]'(by omega)).toNat = (ds[i] - minDelta ds).toNat := by
      have := List.getElem_of_eq hmap (i := i) (by rw [List.length_map]; omega)
      simpa using this
    simp only [Spec.storedDiffs, List.getElem_mapIdx, List.getElem_map, keptAdj, Spec.slotRoom, hmin, hw, hel]

theorem blockMin_drop (ds : List Int) (i : Nat) : Spec.blockMin ds (i + 128) = Spec.blockMin (ds.drop 128) i := by
  unfold Spec.blockMin
  rw [List.drop_drop, show (i + 128) / 128 * 128 = 128 + i / 128 * 128 by omega]

theorem slotWidth_drop (ds : List Int) (i : Nat) : Spec.slotWidth ds (i + 128) = Spec.slotWidth (ds.drop 128) i := by
  unfold Spec.slotWidth
  rw [blockMin_drop, List.drop_drop, show (i + 128) / 32 * 32 = 128 + i / 32 * 32 by omega]

theorem slotRoom_drop (ds : List Int) (i : Nat) : Spec.slotRoom ds (i + 128) = Spec.slotRoom (ds.drop 128) i := by
  unfold Spec.slotRoom
  rw [slotWidth_drop, show (i + 128) % 32 = i % 32 by omega]

theorem blockMin_take (ds : List Int) (i : Nat) (h : i < 128) : Spec.blockMin ds i = Spec.blockMin (ds.take 128) i := by
  unfold Spec.blockMin
  rw [show i / 128 * 128 = 0 by omega, List.drop_zero, List.drop_zero, List.take_take, Nat.min_self]

theorem slotRoom_take (ds : List Int) (i : Nat) (h : i < 128) : Spec.slotRoom ds i = Spec.slotRoom (ds.take 128) i := by
  unfold Spec.slotRoom Spec.slotWidth
  rw [blockMin_take ds i h, List.drop_take, List.take_take, Nat.min_eq_left (by omega)]

theorem storedDiffs_step (ds : List Int) (h : 128 ≤ ds.length) :
    Spec.storedDiffs ds = Spec.storedDiffs (ds.take 128) ++ Spec.storedDiffs (ds.drop 128) := by
  have hl : (ds.take 128).length = 128 := by rw [List.length_take]; omega
  unfold Spec.storedDiffs
  conv => lhs; rw [← List.take_append_drop 128 ds]
  rw [List.mapIdx_append, List.take_append_drop 128 ds]
  congr 1
  · apply List.ext_getElem
    · simp
    · intro i h1 h2
      have hi : i < 128 := by rw [List.length_mapIdx] at h1; omega
      simp only [List.getElem_mapIdx, blockMin_take ds i hi, slotRoom_take ds i hi]
  · apply List.ext_getElem
    · simp
    · intro i h1 h2
      simp only [List.getElem_mapIdx, hl, blockMin_drop, slotRoom_drop]

theorem adjusted_toNat (ds : List Int) (adj : List UInt64) (m : Int) (e : adj.map (fun a => m + (a.toNat : Int)) = ds) :
    adj.map UInt64.toNat = ds.map (fun d => (d - m).toNat) := by
  rw [← e, List.map_map]
  apply List.map_congr_left
  intro a _
  simp only [Function.comp_apply]; omega

theorem deltaBlock_lossy (padded : Bool) (ds : List Int) (bs rest : List UInt8) (hne : ds ≠ []) (hl : ds.length ≤ 128)
    (hr : ∀ d ∈ ds, -(2 ^ 63) ≤ d ∧ d < 2 ^ 63)
    (hp : padded = false ∨ ds.length % 32 = 0) (h : deltaBlock ds = some bs) (m : Nat) (hmn : ds.length ≤ m)
    (hm : ds.length = 128 ∨ ds.length = m) :
    deltaBlocks padded 4 32 m (bs ++ rest) =
      (deltaBlocks padded 4 32 (m - ds.length) rest).map (fun p => (Spec.storedDiffs ds ++ p.1, p.2)) := by
  obtain ⟨hmem, hmin⟩ := minDelta_spec ds hne
  have hpos : 0 < ds.length := List.length_pos_iff.2 hne
  rw [deltaBlock] at h
  simp only [Option.bind_eq_bind, Option.pure_def] at h
  cases ha : ds.mapM (adjust (minDelta ds)) with
  | none => rw [ha] at h; simp at h
  | some adj =>
    rw [ha] at h
    simp only [Option.bind_some, Option.some.injEq] at h
    subst h
    obtain ⟨e1, -⟩ := mapM_adjust _ _ _ hmin ha
    have hal : adj.length = ds.length := by rw [← e1]; simp
    have hmb := miniblocks_lossy padded 4 adj rest (by omega) (by rw [hal]; exact hp)
    have hrange := hr _ hmem
    have hm64 : (Int64.ofInt (minDelta ds)).toInt = minDelta ds := Int64.toInt_ofInt_of_le (by omega) (by omega)
    rw [deltaBlocks.eq_def, dif_neg (by omega), dif_neg (by decide), writeSignedVarint]
    rw [List.append_assoc, List.append_assoc, C26_varint_roundtrip]
    dsimp only
    have hwl : (((List.range miniblockCount).map (miniblock adj)).map (fun b => UInt8.ofNat (mbWidth b))).length = 4 := by
      simp [miniblockCount]
    rw [if_neg (by rw [List.length_append, hwl]; omega), List.take_left' hwl, List.drop_left' hwl]
    rw [show min m (4 * 32) = adj.length by omega]
    rw [show List.range miniblockCount = List.range 4 from rfl, hmb]
    dsimp only
    rw [C26_zigzag_roundtrip, hm64, ← storedDiffs_block ds adj hl (adjusted_toNat ds adj _ e1)]
    have hm0 : deltaBlocks padded 4 32 (m - 4 * 32) rest = deltaBlocks padded 4 32 (m - ds.length) rest := by
      have hq : m - 4 * 32 = m - ds.length := by omega
      rw [hq]
    rw [hm0]
    cases deltaBlocks padded 4 32 (m - ds.length) rest with
    | none => rfl
    | some p => rfl

theorem deltaBlocks_lossy (ds : List Int) (bs rest : List UInt8)
    (hr : ∀ d ∈ ds, -(2 ^ 63) ≤ d ∧ d < 2 ^ 63) (h : deltaBlocksEnc ds = some bs) :
    deltaBlocks false 4 32 ds.length (bs ++ rest) = some (Spec.storedDiffs ds, rest) := by
  generalize hn : ds.length = n
  induction n using Nat.strongRecOn generalizing ds bs with
  | _ n ih =>
  subst hn
  match hds : ds with
  | [] =>
    simp [deltaBlocksEnc] at h; subst h
    rw [deltaBlocks.eq_def]; simp [Spec.storedDiffs]
  | d :: t =>
    rw [deltaBlocksEnc] at h
    rw [← hds] at h hr ih ⊢
    simp only [Option.bind_eq_bind, Option.pure_def] at h
    cases hb : deltaBlock (ds.take blockSize) with
    | none => rw [hb] at h; simp at h
    | some b =>
      cases hr' : deltaBlocksEnc (ds.drop blockSize) with
      | none => rw [hb, hr'] at h; simp at h
      | some r =>
        rw [hb, hr'] at h
        simp only [Option.bind_some, Option.some.injEq] at h
        subst h
        have hlen : 0 < ds.length := by rw [hds]; simp
        have htl : (ds.take blockSize).length = min 128 ds.length := by simp [blockSize]
        rw [List.append_assoc, deltaBlock_lossy false (ds.take blockSize) b (r ++ rest)
          (by intro hn; rw [hn] at htl; simp at htl; omega) (by omega)
          (fun x hx => hr x (List.mem_of_mem_take hx)) (Or.inl rfl) hb ds.length (by omega) (by omega)]
        have hdl : ds.length - (ds.take blockSize).length = (ds.drop blockSize).length := by
          rw [htl, List.length_drop]; simp only [blockSize]; omega
        rw [hdl]
        have hdl2 : (ds.drop blockSize).length = ds.length - 128 := by rw [List.length_drop]; rfl
        rw [ih (ds.drop blockSize).length (by omega) (ds.drop blockSize) r
          (fun x hx => hr x (List.mem_of_mem_drop hx)) hr' rfl]
        simp only [Option.map_some]
        by_cases h128 : 128 ≤ ds.length
        · rw [storedDiffs_step ds h128]; rfl
        · have ht : ds.take blockSize = ds := List.take_of_length_le (by simp only [blockSize]; omega)
          have hd : ds.drop blockSize = [] := List.drop_eq_nil_of_le (by simp only [blockSize]; omega)
          rw [ht, hd]; simp [Spec.storedDiffs]

/-- The last block, whatever its length, read by the Parquet rule. -/
theorem deltaBlock_lossy_padded (ds : List Int) (bs rest : List UInt8) (hne : ds ≠ []) (hl : ds.length ≤ 128)
    (hr : ∀ d ∈ ds, -(2 ^ 63) ≤ d ∧ d < 2 ^ 63) (h : deltaBlock ds = some bs) :
    deltaBlocks true 4 32 ds.length (bs ++ rest) =
      if rest.length < Spec.missingPadding ds then none else some (Spec.storedDiffs ds, rest.drop (Spec.missingPadding ds)) := by
  obtain ⟨hmem, hmin⟩ := minDelta_spec ds hne
  have hpos : 0 < ds.length := List.length_pos_iff.2 hne
  rw [deltaBlock] at h
  simp only [Option.bind_eq_bind, Option.pure_def] at h
  cases ha : ds.mapM (adjust (minDelta ds)) with
  | none => rw [ha] at h; simp at h
  | some adj =>
    rw [ha] at h
    simp only [Option.bind_some, Option.some.injEq] at h
    subst h
    obtain ⟨e1, e2⟩ := mapM_adjust _ _ _ hmin ha
    have hal : adj.length = ds.length := by rw [← e1]; simp
    have hmb := miniblocks_lossy_padded 4 adj rest (by omega)
    have hgapeq : gapOf adj = Spec.missingPadding ds := by
      by_cases hz : ds.length % 32 = 0
      · unfold gapOf Spec.missingPadding; rw [hal]; simp only [hz, if_true]
      · apply gapOf_last ds adj hl hz
        intro i
        have e1' : ds[i]? = adj[i]?.map (fun a => minDelta ds + (a.toNat : Int)) := by
          conv_lhs => rw [← e1]
          rw [List.getElem?_map]
        rw [e1', Option.map_map]
        congr 1
        funext a
        simp only [Function.comp_apply]; omega
    rw [hgapeq] at hmb
    have hrange := hr _ hmem
    have hm64 : (Int64.ofInt (minDelta ds)).toInt = minDelta ds := Int64.toInt_ofInt_of_le (by omega) (by omega)
    rw [deltaBlocks.eq_def, dif_neg (by omega), dif_neg (by decide), writeSignedVarint]
    rw [List.append_assoc, List.append_assoc, C26_varint_roundtrip]
    dsimp only
    have hwl : (((List.range miniblockCount).map (miniblock adj)).map (fun b => UInt8.ofNat (mbWidth b))).length = 4 := by
      simp [miniblockCount]
    rw [if_neg (by rw [List.length_append, hwl]; omega), List.take_left' hwl, List.drop_left' hwl]
    rw [show min ds.length (4 * 32) = adj.length by omega]
    rw [show List.range miniblockCount = List.range 4 from rfl, hmb]
    by_cases hlt : rest.length < Spec.missingPadding ds
    · rw [if_pos hlt, if_pos hlt]
    · rw [if_neg hlt, if_neg hlt]
      dsimp only
      rw [C26_zigzag_roundtrip, hm64, ← storedDiffs_block ds adj hl (adjusted_toNat ds adj _ e1),
        show ds.length - 4 * 32 = 0 by omega, deltaBlocks.eq_def, dif_pos rfl]
      dsimp only
      rw [List.append_nil]

theorem deltaBlocks_lossy_padded (ds : List Int) (bs rest : List UInt8)
    (hr : ∀ d ∈ ds, -(2 ^ 63) ≤ d ∧ d < 2 ^ 63) (h : deltaBlocksEnc ds = some bs) :
    deltaBlocks true 4 32 ds.length (bs ++ rest) =
      if rest.length < Spec.missingPadding ds then none else some (Spec.storedDiffs ds, rest.drop (Spec.missingPadding ds)) := by
  generalize hn : ds.length = n
  induction n using Nat.strongRecOn generalizing ds bs with
  | _ n ih =>
  subst hn
  match hds : ds with
  | [] =>
    simp [deltaBlocksEnc] at h; subst h
    rw [deltaBlocks.eq_def]; simp [Spec.missingPadding, Spec.storedDiffs]
  | d :: t =>
    rw [deltaBlocksEnc] at h
    rw [← hds] at h hr ih ⊢
    simp only [Option.bind_eq_bind, Option.pure_def] at h
    cases hb : deltaBlock (ds.take blockSize) with
    | none => rw [hb] at h; simp at h
    | some b =>
      cases hr' : deltaBlocksEnc (ds.drop blockSize) with
      | none => rw [hb, hr'] at h; simp at h
      | some r =>
        rw [hb, hr'] at h
        simp only [Option.bind_some, Option.some.injEq] at h
        subst h
        have hlen : 0 < ds.length := by rw [hds]; simp
        have htl : (ds.take blockSize).length = min 128 ds.length := by simp [blockSize]
        have hne : ds.take blockSize ≠ [] := by intro hn; rw [hn] at htl; simp at htl; omega
        by_cases h128 : ds.length < 128
        · have ht : ds.take blockSize = ds := List.take_of_length_le (by simp only [blockSize]; omega)
          have hd : ds.drop blockSize = [] := List.drop_eq_nil_of_le (by simp only [blockSize]; omega)
          rw [hd] at hr'
          have hr0 : r = [] := by simpa [deltaBlocksEnc] using hr'.symm
          rw [ht] at hb
          rw [hr0, List.append_nil]
          exact deltaBlock_lossy_padded ds b rest (by rw [hds]; simp) (by omega) hr hb
        · rw [List.append_assoc, deltaBlock_lossy true (ds.take blockSize) b (r ++ rest) hne (by omega)
            (fun x hx => hr x (List.mem_of_mem_take hx))
            (by right; omega) hb ds.length (by omega) (by omega)]
          have hdl : ds.length - (ds.take blockSize).length = (ds.drop blockSize).length := by
            rw [htl, List.length_drop]; simp only [blockSize]; omega
          rw [hdl]
          have hdl2 : (ds.drop blockSize).length = ds.length - 128 := by rw [List.length_drop]; rfl
          rw [ih (ds.drop blockSize).length (by omega) (ds.drop blockSize) r
            (fun x hx => hr x (List.mem_of_mem_drop hx)) hr' rfl]
          rw [show ds.drop blockSize = ds.drop 128 from rfl, missingPadding_drop ds (by omega)]
          by_cases hlt : rest.length < Spec.missingPadding ds
          · rw [if_pos hlt, if_pos hlt]; rfl
          · rw [if_neg hlt, if_neg hlt]
            simp only [Option.map_some]
            rw [show ds.take blockSize = ds.take 128 from rfl, ← storedDiffs_step ds (by omega)]

/-! The whole section. -/

/-- The differences the encoder is allowed to form: of neighbours, and of these from the least of their block. -/
def DeltasDefined (ds : List Int) : Prop :=
  (∀ d ∈ ds, -(2 ^ 63) ≤ d ∧ d < 2 ^ 63) ∧ ∀ (i : Nat) (d : Int), ds[i]? = some d → d - Spec.blockMin ds i < 2 ^ 63

theorem deltasOf_iff (vs : List Int) : (deltasOf vs).isSome = true ↔ ∀ d ∈ diffs vs, -(2 ^ 63) ≤ d ∧ d < 2 ^ 63 := by
  constructor
  · intro h
    obtain ⟨ds, hd⟩ := Option.isSome_iff_exists.1 h
    obtain ⟨h1, h2⟩ := deltasOf_spec _ _ hd
    rw [← h1]; exact h2
  · intro h
    induction vs with
    | nil => rfl
    | cons a t ih => cases t with
      | nil => rfl
      | cons b t =>
        obtain ⟨ds, hd⟩ := Option.isSome_iff_exists.1 (ih (fun d hd => h d (by rw [diffs]; exact List.mem_cons_of_mem _ hd)))
        have hb := h (b - a) (by rw [diffs]; simp)
        rw [deltasOf, hd, int64?, if_pos (by omega)]
        rfl

theorem mapM_adjust_iff (m : Int) (ds : List Int) (hm : ∀ d ∈ ds, m ≤ d) :
    (ds.mapM (adjust m)).isSome = true ↔ ∀ d ∈ ds, d - m < 2 ^ 63 := by
  constructor
  · intro h d hd
    obtain ⟨adj, ha⟩ := Option.isSome_iff_exists.1 h
    clear h
    induction ds generalizing adj with
    | nil => cases hd
    | cons x t ih =>
      rw [List.mapM_cons] at ha
      cases hx : adjust m x with
      | none => rw [hx] at ha; simp at ha
      | some a =>
        cases ht : t.mapM (adjust m) with
        | none => rw [hx, ht] at ha; simp at ha
        | some at' =>
          rcases List.mem_cons.1 hd with rfl | hd
          · rw [adjust, int64?] at hx
            split at hx
            · rename_i hr; exact hr.2
            · simp at hx
          · exact ih (fun y hy => hm y (by simp [hy])) hd at' ht
  · intro h
    obtain ⟨adj, ha⟩ := mapM_adjust_some m ds (fun d hd => ⟨by have := hm d hd; omega, h d hd⟩)
    rw [ha]; rfl

theorem deltaBlock_iff (ds : List Int) (hne : ds ≠ []) (h128 : ds.length ≤ 128) :
    (deltaBlock ds).isSome = true ↔ ∀ (i : Nat) (d : Int), ds[i]? = some d → d - Spec.blockMin ds i < 2 ^ 63 := by
  have hb : ∀ i, i < ds.length → Spec.blockMin ds i = minDelta ds := by
    intro i hi
    unfold Spec.blockMin
    rw [show i / 128 * 128 = 0 by omega, List.drop_zero, List.take_of_length_le (by omega), least_eq]
  have hm := mapM_adjust_iff (minDelta ds) ds (minDelta_spec ds hne).2
  have h1 : (deltaBlock ds).isSome = true ↔ (ds.mapM (adjust (minDelta ds))).isSome = true := by
    rw [deltaBlock]
    cases ds.mapM (adjust (minDelta ds)) <;> simp
  rw [h1, hm]
  constructor
  · intro h i d hd
    obtain ⟨hi, rfl⟩ := List.getElem?_eq_some_iff.1 hd
    rw [hb i hi]; exact h _ (List.getElem_mem hi)
  · intro h d hd
    obtain ⟨i, hi, rfl⟩ := List.getElem_of_mem hd
    rw [← hb i hi]; exact h i _ (List.getElem?_eq_getElem hi)

theorem deltaBlocksEnc_iff (ds : List Int) :
    (deltaBlocksEnc ds).isSome = true ↔ ∀ (i : Nat) (d : Int), ds[i]? = some d → d - Spec.blockMin ds i < 2 ^ 63 := by
  generalize hn : ds.length = n
  induction n using Nat.strongRecOn generalizing ds with
  | _ n ih =>
  subst hn
  match hds : ds with
  | [] => rw [deltaBlocksEnc]; simp
  | d :: t =>
    rw [deltaBlocksEnc]
    rw [← hds] at ih ⊢
    have hlen : 0 < ds.length := by rw [hds]; simp
    have hne : ds.take 128 ≠ [] := by rw [hds]; simp
    have hl : (ds.take 128).length = min 128 ds.length := List.length_take
    have i1 := ih (ds.drop 128).length (by rw [List.length_drop]; omega) (ds.drop 128) rfl
    have i2 := deltaBlock_iff (ds.take 128) hne (by omega)
    have hstep : (do
        let b ← deltaBlock (ds.take blockSize)
        let r ← deltaBlocksEnc (ds.drop blockSize)
        pure (b ++ r) : Option (List UInt8)).isSome = true ↔
        (deltaBlock (ds.take 128)).isSome = true ∧ (deltaBlocksEnc (ds.drop 128)).isSome = true := by
      show (do
        let b ← deltaBlock (ds.take 128)
        let r ← deltaBlocksEnc (ds.drop 128)
        pure (b ++ r) : Option (List UInt8)).isSome = true ↔ _
      cases deltaBlock (ds.take 128) <;> cases deltaBlocksEnc (ds.drop 128) <;> simp
    rw [hstep, i1, i2]
    constructor
    · rintro ⟨h1, h2⟩ i x hx
      by_cases hi : i < 128
      · rw [blockMin_take ds i hi]
        exact h1 i x (by rw [List.getElem?_take, if_pos hi]; exact hx)
      · obtain ⟨j, rfl⟩ : ∃ j, i = j + 128 := ⟨i - 128, by omega⟩
        rw [blockMin_drop]
        exact h2 j x (by rw [List.getElem?_drop, Nat.add_comm]; exact hx)
    · intro h
      refine ⟨fun i x hx => ?_, fun i x hx => ?_⟩
      · rw [List.getElem?_take] at hx
        split at hx
        · rename_i hi
          rw [← blockMin_take ds i hi]; exact h i x hx
        · cases hx
      · rw [List.getElem?_drop, Nat.add_comm] at hx
        rw [← blockMin_drop]; exact h _ x hx

/-- **C31** (int64) For which columns encoding is defined (no signed subtraction overflows). -/
theorem C31_int64_defined_iff (vs : List Int64) :
    (encodeDelta vs).isSome = true ↔ DeltasDefined (diffs (vs.map Int64.toInt)) := by
  cases vs with
  | nil => simp [encodeDelta, DeltasDefined, diffs]
  | cons v t =>
    have h1 := deltasOf_iff ((v :: t).map Int64.toInt)
    have h2 := deltaBlocksEnc_iff (diffs ((v :: t).map Int64.toInt))
    unfold DeltasDefined
    rw [← h1, ← h2, encodeDelta]
    cases hd : deltasOf ((v :: t).map Int64.toInt) with
    | none => simp
    | some ds =>
      obtain ⟨d1, -⟩ := deltasOf_spec _ _ hd
      rw [← d1]
      cases hb : deltaBlocksEnc ds <;> simp [hb]

/-- The values a reader sees: running sums of the stored differences. -/
def storedValues : List Int → List Int
  | [] => []
  | v :: t => cumulate v (Spec.storedDiffs (diffs (v :: t)))

/-- **C31** (int64) What a reader finds for every column on which encoding is defined: the running sums of the stored
differences; a reader following the Parquet rule also takes the missing padding from the bytes after the section. -/
theorem C31_int64_exact (vs : List Int64) (bs rest : List UInt8) (hne : vs ≠ []) (hlen : vs.length < 2 ^ 64)
    (h : encodeDelta vs = some bs) :
    deltaDecode false (bs ++ rest) = some (storedValues (vs.map Int64.toInt), rest) ∧
    deltaDecode true (bs ++ rest) =
      if rest.length < Spec.missingPadding (diffs (vs.map Int64.toInt)) then none
      else some (storedValues (vs.map Int64.toInt), rest.drop (Spec.missingPadding (diffs (vs.map Int64.toInt)))) := by
  cases vs with
  | nil => exact absurd rfl hne
  | cons v t =>
    rw [encodeDelta] at h
    simp only [Option.bind_eq_bind, Option.pure_def] at h
    cases hd : deltasOf ((v :: t).map Int64.toInt) with
    | none => rw [hd] at h; simp at h
    | some ds =>
      cases hb : deltaBlocksEnc ds with
      | none => rw [hd] at h; simp [hb] at h
      | some body =>
        rw [hd] at h
        simp only [Option.bind_some, hb, Option.some.injEq] at h
        subst h
        obtain ⟨d1, d2⟩ := deltasOf_spec _ _ hd
        have hdl : ds.length = (v :: t).length - 1 := by rw [d1, diffs_length]; simp
        have hc : (UInt64.ofNat (v :: t).length).toNat = (v :: t).length := Nat.mod_eq_of_lt hlen
        have hbk : (UInt64.ofNat blockSize).toNat / (UInt64.ofNat miniblockCount).toNat = 32 := by decide
        have hmk : (UInt64.ofNat miniblockCount).toNat = 4 := by decide
        have hsv : cumulate v.toInt (Spec.storedDiffs ds) = storedValues ((v :: t).map Int64.toInt) := by
          rw [List.map_cons, storedValues, ← List.map_cons, ← d1]
        have hdec : ∀ padded, deltaDecode padded ((writeVarint (UInt64.ofNat blockSize) ++ writeVarint (UInt64.ofNat miniblockCount) ++
              writeVarint (UInt64.ofNat (v :: t).length) ++ writeSignedVarint v ++ body) ++ rest) =
            (deltaBlocks padded 4 32 ds.length (body ++ rest)).map (fun p => (cumulate v.toInt p.1, p.2)) := by
          intro padded
          simp only [List.append_assoc]
          rw [deltaDecode, C26_varint_roundtrip]
          dsimp only
          rw [C26_varint_roundtrip]
          dsimp only
          rw [C26_varint_roundtrip]
          dsimp only
          rw [writeSignedVarint, C26_varint_roundtrip]
          dsimp only
          rw [hbk, hmk, hc, if_neg (by simp), ← hdl, C26_zigzag_roundtrip]
          cases deltaBlocks padded 4 32 ds.length (body ++ rest) <;> rfl
        constructor
        · rw [hdec, deltaBlocks_lossy ds body rest d2 hb, Option.map_some, hsv]
        · rw [hdec, deltaBlocks_lossy_padded ds body rest d2 hb, ← d1]
          by_cases hlt : rest.length < Spec.missingPadding ds
          · rw [if_pos hlt, if_pos hlt]; rfl
          · rw [if_neg hlt, if_neg hlt, Option.map_some, hsv]

theorem cumulate_inj (a : Int) (x y : List Int) (h : cumulate a x = cumulate a y) : x = y := by
  induction x generalizing a y with
  | nil => cases y with
    | nil => rfl
    | cons b t => cases t <;> simp [cumulate] at h
  | cons b t ih => cases y with
    | nil => cases t <;> simp [cumulate] at h
    | cons c u =>
      rw [cumulate, cumulate] at h
      have ht := (List.cons.inj h).2
      have hbc : b = c := by
        have : ∀ (z : Int) (l : List Int), (cumulate z l).head? = some z := by intro z l; cases l <;> rfl
        have h1 := this (a + b) t
        rw [ht, this] at h1
        have := Option.some.inj h1
        omega
      subst hbc
      rw [ih _ _ ht]

theorem blockMin_le (ds : List Int) (i : Nat) (d : Int) (h : ds[i]? = some d) : Spec.blockMin ds i ≤ d := by
  obtain ⟨hi, rfl⟩ := List.getElem?_eq_some_iff.1 h
  unfold Spec.blockMin
  rw [least_eq]
  have hm : ds[i] ∈ (ds.drop (i / 128 * 128)).take 128 := by
    apply List.mem_of_getElem? (i := i % 128)
    rw [List.getElem?_take, if_pos (Nat.mod_lt _ (by decide)), List.getElem?_drop, show i / 128 * 128 + i % 128 = i by omega]
    exact h
  exact (minDelta_spec _ (List.ne_nil_of_mem hm)).2 _ hm

theorem storedDiffs_iff (ds : List Int) : Spec.storedDiffs ds = ds ↔ Spec.SlotsFit ds := by
  unfold Spec.SlotsFit
  have hcast : ∀ k : Nat, ((2 ^ k : Nat) : Int) = 2 ^ k := by intro k; norm_cast
  constructor
  · intro h i d hd
    have hle := blockMin_le ds i d hd
    have he : (Spec.storedDiffs ds)[i]? = some d := by rw [h]; exact hd
    unfold Spec.storedDiffs at he
    rw [List.getElem?_mapIdx, hd] at he
    simp only [Option.map_some, Option.some.injEq] at he
    have hlt := Nat.mod_lt (d - Spec.blockMin ds i).toNat (Nat.two_pow_pos (Spec.slotRoom ds i))
    have := hcast (Spec.slotRoom ds i)
    omega
  · intro h
    apply List.ext_getElem?
    intro i
    unfold Spec.storedDiffs
    rw [List.getElem?_mapIdx]
    cases hd : ds[i]? with
    | none => rfl
    | some d =>
      have hle := blockMin_le ds i d hd
      have hfit := h i d hd
      have := hcast (Spec.slotRoom ds i)
      rw [Option.map_some, Nat.mod_eq_of_lt (by omega)]
      congr 1; omega

theorem storedValues_iff (vs : List Int) : storedValues vs = vs ↔ Spec.SlotsFit (diffs vs) := by
  rw [← storedDiffs_iff]
  cases vs with
  | nil => simp [storedValues, diffs, Spec.storedDiffs]
  | cons v t =>
    constructor
    · intro h
      apply cumulate_inj v
      rw [cumulate_diffs]; exact h
    · intro h
      rw [storedValues, h, cumulate_diffs]

/-- **C31** (int64) For every column: the section is defined and read back exactly, by a reader that expects no padding, if and
only if no difference is undefined and no slot loses bits; by the Parquet rule, if moreover no padding is missing. -/
theorem C31_int64_iff (vs : List Int64) (hne : vs ≠ []) (hlen : vs.length < 2 ^ 64) (rest : List UInt8) :
    ((∃ bs, encodeDelta vs = some bs ∧ deltaDecode false (bs ++ rest) = some (vs.map Int64.toInt, rest)) ↔
      DeltasDefined (diffs (vs.map Int64.toInt)) ∧ Spec.SlotsFit (diffs (vs.map Int64.toInt))) ∧
    ((∃ bs, encodeDelta vs = some bs ∧ deltaDecode true (bs ++ rest) = some (vs.map Int64.toInt, rest)) ↔
      DeltasDefined (diffs (vs.map Int64.toInt)) ∧ Spec.SlotsFit (diffs (vs.map Int64.toInt)) ∧
        Spec.missingPadding (diffs (vs.map Int64.toInt)) = 0) := by
  rw [← C31_int64_defined_iff, ← storedValues_iff]
  cases he : encodeDelta vs with
  | none => simp
  | some bs =>
    obtain ⟨h1, h2⟩ := C31_int64_exact vs bs rest hne hlen he
    constructor
    · constructor
      · rintro ⟨b, hb, hd⟩
        cases hb
        rw [h1] at hd
        simp only [Option.some.injEq, Prod.mk.injEq, and_true] at hd
        exact ⟨rfl, hd⟩
      · rintro ⟨-, h⟩
        refine ⟨bs, rfl, ?_⟩
        rw [h1, h]
    · constructor
      · rintro ⟨b, hb, hd⟩
        cases hb
        rw [h2] at hd
        split at hd
        · cases hd
        · rename_i hlt
          simp only [Option.some.injEq, Prod.mk.injEq] at hd
          exact ⟨rfl, hd.1, (drop_eq_self_iff _ _ (by omega)).1 hd.2⟩
      · rintro ⟨-, h, hg⟩
        refine ⟨bs, rfl, ?_⟩
        rw [h2, h, hg, if_neg (by omega), List.drop_zero]

/-- Slots of at most 57 bits never lose anything, so differences within `2 ^ 57` of each other always fit. -/
theorem slotsFit_of_spread (ds : List Int) (h : SpreadLt ds (2 ^ 57)) : Spec.SlotsFit ds := by
  intro i d hd
  have hmem : Spec.blockMin ds i ∈ ds := by
    unfold Spec.blockMin
    rw [least_eq]
    obtain ⟨hi, rfl⟩ := List.getElem?_eq_some_iff.1 hd
    apply List.mem_of_mem_drop (i := i / 128 * 128)
    apply List.mem_of_mem_take (i := 128)
    apply (minDelta_spec _ _).1
    intro hn
    have := congrArg List.length hn
    rw [List.length_take, List.length_drop, List.length_nil] at this
    omega
  have hs := h d (List.mem_of_getElem? hd) _ hmem
  have hroom : 57 ≤ Spec.slotRoom ds i := by unfold Spec.slotRoom; omega
  have : (2 : Int) ^ 57 ≤ 2 ^ Spec.slotRoom ds i := by
    exact_mod_cast Nat.pow_le_pow_right (show 0 < 2 by decide) hroom
  omega

/-- Slots of 60 bits lose nothing; slots of 59 bits do, and a reader then sees other values; a
difference of neighbours out of range is undefined. -/
example : Spec.SlotsFit [0, 2 ^ 60 - 1, 2 ^ 60 - 1] ∧ Spec.storedDiffs [0, 2 ^ 59 - 1, 2 ^ 59 - 1, 2 ^ 59 - 1] = [0, 2 ^ 59 - 1, 2 ^ 58 - 1, 2 ^ 59 - 1] ∧
    storedValues [0, 0, 2 ^ 59 - 1, 2 * (2 ^ 59 - 1), 3 * (2 ^ 59 - 1)] = [0, 0, 2 ^ 59 - 1, 864691128455135230, 1441151880758558717] ∧
    ¬ DeltasDefined (diffs [-1, 2 ^ 63 - 1]) := by
  refine ⟨?_, by decide +kernel, by decide +kernel, ?_⟩
  · rw [← storedDiffs_iff]; decide +kernel
  · intro h
    have := h.1 (2 ^ 63) (by simp [diffs])
    omega

/-- The premises of the exact theorem are met by a column whose slots lose bits. -/
example : (encodeDelta [0, 0, 2 ^ 59 - 1, 2 * (2 ^ 59 - 1), 3 * (2 ^ 59 - 1)]).isSome = true := by decide +kernel

end Vroom
