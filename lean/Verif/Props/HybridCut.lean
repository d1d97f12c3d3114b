import Verif.Lemmas.HybridCut
import Verif.Props.Dictionary
/-
C29, C28: exactly what a reader makes of the output of the streaming hybrid encoder (hybrid_rle.cpp), for all inputs.
-/
namespace Vroom
open Parquet Spec

theorem readVarint_lt : ∀ {l : List UInt8} {v : Nat} {r : List UInt8}, readVarint l = some (v, r) → r.length < l.length := by
  intro l
  induction l with
  | nil => intro v r h; simp [readVarint] at h
  | cons b t ih =>
    intro v r h
    simp only [readVarint] at h
    split at h
    · simp at h; simp [← h.2]
    · split at h
      · simp at h
      · rename_i v' r' he
        simp at h
        have := ih he
        simp [← h.2]; omega

theorem unpack_length (w n : Nat) (bs : List UInt8) : (unpack w n bs).length = n := by simp [unpack]

/-- Reading fewer values of a stream gives the first ones. -/
theorem hybrid_prefix (w : Nat) : ∀ (k : Nat) (bs : List UInt8), bs.length = k → ∀ (n m : Nat) (xs : List Nat), n ≤ m → hybrid w m bs = some xs →
    hybrid w n bs = some (xs.take n) := by
  intro k
  induction k using Nat.strongRecOn with
  | _ k ih =>
  intro bs hk n m xs hnm h
  by_cases hn : n = 0
  · rw [hn, hybrid_zero]; simp
  rw [hybrid, if_neg (by omega)] at h
  rw [hybrid, if_neg hn]
  split at h
  · simp at h
  next hd rest hr =>
  have hlt : rest.length < bs.length := by
    have := readVarint_lt hr; omega
  dsimp only at h ⊢
  split at h
  next he =>
    rw [if_pos he]
    split at h
    · simp at h
    next hs =>
    rw [if_neg hs]
    split at h
    · simp at h
    next vs hv =>
    have hrec := ih (rest.drop ((w + 7) / 8)).length (by rw [List.length_drop]; omega) _ rfl (n - min n (hd / 2)) _ vs (by omega) hv
    rw [hrec]
    simp only [Option.some.injEq] at h ⊢
    rw [← h, List.take_append, List.take_replicate, List.length_replicate]
    congr 2 <;> omega
  next he =>
    rw [if_neg he]
    split at h
    · simp at h
    next hs =>
    rw [if_neg hs]
    split at h
    · simp at h
    next vs hv =>
    have hrec := ih (rest.drop (hd / 2 * w)).length (by rw [List.length_drop]; omega) _ rfl (n - min n (hd / 2 * 8)) _ vs (by omega) hv
    rw [hrec]
    simp only [Option.some.injEq] at h ⊢
    have hu : (unpack w (hd / 2 * 8) (rest.take (hd / 2 * w))).length = hd / 2 * 8 := unpack_length _ _ _
    rw [← h, List.take_append, List.take_take, List.length_take, hu]
    congr 2 <;> omega

theorem packedRun_pad (w : Nat) (b : List UInt32) : packedRun w b = packedRun w (b ++ List.replicate ((8 - b.length % 8) % 8) 0) := by
  rw [packedRun, packedRun]
  have e : (b.length + 7) / 8 = ((b ++ List.replicate ((8 - b.length % 8) % 8) (0 : UInt32)).length + 7) / 8 := by
    rw [List.length_append, List.length_replicate]; omega
  rw [← e]
  congr 3
  rw [List.append_assoc, List.replicate_append_replicate, List.length_append, List.length_replicate]
  congr 2
  omega

theorem hybridCut_le (l : List UInt32) : hybridCut l ≤ l.length := by
  unfold hybridCut
  split
  · cases l with
    | nil => simp [equalPrefix]
    | cons v t =>
      simp only [equalPrefix, List.length_cons]
      have := (List.takeWhile_prefix (l := t) (· == v)).length_le
      omega
  · split <;> omega

theorem take_equalPrefix (l : List UInt32) (n : Nat) (h : n ≤ equalPrefix l) : l.take n = List.replicate n (l.headD 0) := by
  cases l with
  | nil =>
    simp [equalPrefix] at h
    subst h; rfl
  | cons v t =>
    simp only [equalPrefix] at h
    cases n with
    | zero => rfl
    | succ n =>
      simp only [List.take_succ_cons, List.headD_cons, List.replicate_succ, List.cons.injEq, true_and]
      have key : ∀ (t : List UInt32) n, n ≤ (t.takeWhile (· == v)).length → t.take n = List.replicate n v := by
        intro t
        induction t with
        | nil => intro n h; simp at h; subst h; rfl
        | cons x t ih =>
          intro n h
          cases n with
          | zero => rfl
          | succ n =>
            by_cases hx : x = v
            · rw [List.takeWhile_cons_of_pos (by simpa using hx), List.length_cons] at h
              rw [List.take_succ_cons, ih n (by omega), List.replicate_succ, hx]
            · rw [List.takeWhile_cons_of_neg (by simpa using hx)] at h
              simp at h
      exact key t n (by omega)

/-- Reading the emitted pieces. -/
theorem hybrid_pieces (w : Nat) (hw : w ≤ 32) : ∀ (k : Nat) (l : List UInt32), l.length = k → (∀ v ∈ l, v.toNat < 2 ^ w) → ∀ rest,
    l.length ≤ (readBack l).length ∧ hybrid w (readBack l).length (encPieces w l ++ rest) = some ((readBack l).map UInt32.toNat) := by
  intro k
  induction k using Nat.strongRecOn with
  | _ k ih =>
  intro l hk hv rest
  by_cases hl : l = []
  · subst hl
    have : readBack [] = [] := by rw [readBack]; simp
    rw [this]
    simp [hybrid_zero]
  have hpos := hybridCut_pos hl
  have hle := hybridCut_le l
  obtain ⟨i1, i2⟩ := ih (l.drop (hybridCut l)).length (by rw [List.length_drop]; omega) _ rfl (fun v hm => hv v (List.mem_of_mem_drop hm)) rest
  rw [List.length_drop] at i1
  have htl : (l.take (hybridCut l)).length = hybridCut l := by rw [List.length_take]; omega
  rw [readBack, dif_neg hl, encPieces, dif_neg hl]
  by_cases hr : longRun l = true
  · have h64 : hybridCut l ≤ equalPrefix l := by rw [hybridCut, if_pos hr]; omega
    have h65 : hybridCut l ≤ 64 := by rw [hybridCut, if_pos hr]; omega
    rw [if_pos hr, if_pos hr, List.length_append, htl]
    refine ⟨by omega, ?_⟩
    have hh : (l.headD 0).toNat < 2 ^ w := by
      cases l with
      | nil => exact absurd rfl hl
      | cons v t => exact hv v (by simp)
    rw [List.append_assoc, hybrid_rleRun w (l.headD 0) (hybridCut l) _ _ hw hh hpos (by omega) (by omega), Nat.add_sub_cancel_left, i2,
      take_equalPrefix l _ h64]
    simp
  · rw [if_neg hr, if_neg hr]
    generalize hp : l.take (hybridCut l) ++ List.replicate ((8 - (l.take (hybridCut l)).length % 8) % 8) 0 = p
    have hpl : p.length % 8 = 0 ∧ hybridCut l ≤ p.length ∧ p.length ≤ hybridCut l + 7 := by
      rw [← hp, List.length_append, List.length_replicate, htl]; omega
    have h65 : hybridCut l ≤ 64 := by
      rw [hybridCut, if_neg hr]; split <;> omega
    have hpv : ∀ v ∈ p, v.toNat < 2 ^ w := by
      intro v hm
      rw [← hp, List.mem_append] at hm
      rcases hm with hm | hm
      · exact hv v (List.mem_of_mem_take hm)
      · rw [(List.mem_replicate.1 hm).2]; exact Nat.two_pow_pos w
    rw [List.length_append]
    refine ⟨by omega, ?_⟩
    rw [packedRun_pad, hp, List.append_assoc, hybrid_packedRun' w p _ _ hw hpv (by omega) (by omega) (by omega), Nat.add_sub_cancel_left, i2]
    simp

/-- **C29, exactly.**  For every bit width and all values that fit, whatever bytes follow: reading `n` values of the stream the streaming encoder writes for `vs` gives the first `n` values of
`readBack vs`. -/
theorem C29_hybrid_exact (w : Nat) (hw : w ≤ 32) (vs : List UInt32) (hv : ∀ v ∈ vs, v.toNat < 2 ^ w) (rest : List UInt8) (n : Nat) (hn : n ≤ vs.length) :
    hybrid w n (encodeHybridRle w vs ++ rest) = some (((readBack vs).map UInt32.toNat).take n) := by
  obtain ⟨h1, h2⟩ := hybrid_pieces w hw _ vs rfl hv rest
  rw [encodeHybridRle_pieces]
  exact hybrid_prefix w _ _ rfl n _ _ (by omega) h2

theorem readBack_zeros : ∀ (k : Nat) (l : List UInt32), l.length = k → ∀ j, (∀ x ∈ l.take j, x = 0) → ∀ x ∈ (readBack l).take (min j l.length), x = 0 := by
  intro k
  induction k using Nat.strongRecOn with
  | _ k ih =>
  intro l hk j hz x hx
  by_cases hl : l = []
  · subst hl
    simp at hx
  have hpos := hybridCut_pos hl
  have hle := hybridCut_le l
  have htl : (l.take (hybridCut l)).length = hybridCut l := by rw [List.length_take]; omega
  have hlen : 0 < l.length := List.length_pos_iff.2 hl
  rw [readBack, dif_neg hl] at hx
  have hpiece : ∀ q, x ∈ (l.take (hybridCut l) ++ List.replicate q 0 ++ readBack (l.drop (hybridCut l))).take (min j l.length) → x = 0 := by
    intro q hx
    rw [List.append_assoc, List.take_append, List.mem_append] at hx
    rcases hx with hx | hx
    · rw [List.take_take] at hx
      exact hz x ((List.take_prefix_take_left (by omega)).subset hx)
    · rw [List.take_append, List.mem_append] at hx
      rcases hx with hx | hx
      · exact (List.mem_replicate.1 (List.mem_of_mem_take hx)).2
      · rw [htl, List.length_replicate] at hx
        by_cases hj : j ≤ hybridCut l
        · rw [show min j l.length - hybridCut l - q = 0 by omega] at hx
          simp at hx
        · refine ih (l.drop (hybridCut l)).length (by rw [List.length_drop]; omega) _ rfl (j - hybridCut l) ?_ x ?_
          · intro y hy
            apply hz y
            rw [← List.drop_take] at hy
            exact List.mem_of_mem_drop hy
          · refine (List.take_prefix_take_left ?_).subset hx
            rw [List.length_drop]; omega
  by_cases hr : longRun l = true
  · rw [if_pos hr] at hx
    exact hpiece 0 (by simpa using hx)
  · rw [if_neg hr] at hx
    exact hpiece _ hx

/-- Displaced by at least one zero, a list is read right only if it is all zero. -/
theorem displaced_iff (r : List UInt32) (hr : r.length ≤ (readBack r).length) (p : Nat) (hp : 0 < p) :
    (List.replicate p 0 ++ readBack r).take r.length = r ↔ ∀ v ∈ r, v = 0 := by
  constructor
  · intro h
    have key : ∀ j, j ≤ r.length → ∀ x ∈ r.take j, x = 0 := by
      intro j
      induction j with
      | zero => intro _ x hx; simp at hx
      | succ j ih =>
        intro hj x hx
        rw [← h, List.take_take, List.take_append, List.mem_append] at hx
        rcases hx with hx | hx
        · exact (List.mem_replicate.1 (List.mem_of_mem_take hx)).2
        · refine readBack_zeros _ r rfl j (ih (by omega)) x ?_
          refine (List.take_prefix_take_left ?_).subset hx
          rw [List.length_replicate]; omega
    intro v hv
    exact key r.length (Nat.le_refl _) v (by simpa using hv)
  · intro h
    have hz := readBack_zeros _ r rfl r.length (by simpa using h)
    rw [Nat.min_self] at hz
    have e1 : r = List.replicate r.length 0 := List.eq_replicate_iff.2 ⟨rfl, h⟩
    have e2 : (List.replicate p 0 ++ readBack r).take r.length = List.replicate r.length 0 := by
      refine List.eq_replicate_iff.2 ⟨by simp; omega, ?_⟩
      intro b hb
      rw [List.take_append, List.mem_append] at hb
      rcases hb with hb | hb
      · exact (List.mem_replicate.1 (List.mem_of_mem_take hb)).2
      · exact hz b ((List.take_prefix_take_left (by omega)).subset hb)
    rw [e2, ← e1]

theorem readBack_length (l : List UInt32) : l.length ≤ (readBack l).length :=
  (hybrid_pieces 32 (by decide) _ l rfl (fun v _ => v.toNat_lt) []).1

theorem readBack_iff : ∀ (k : Nat) (l : List UInt32), l.length = k →
    ((readBack l).take l.length = l ↔ ∀ e, displacedFrom l = some e → ∀ v ∈ l.drop e, v = 0) := by
  intro k
  induction k using Nat.strongRecOn with
  | _ k ih =>
  intro l hk
  by_cases hl : l = []
  · subst hl
    rw [displacedFrom]; simp
  have hpos := hybridCut_pos hl
  have hle := hybridCut_le l
  have htl : (l.take (hybridCut l)).length = hybridCut l := by rw [List.length_take]; omega
  have hlen : 0 < l.length := List.length_pos_iff.2 hl
  have hdl : (l.drop (hybridCut l)).length = l.length - hybridCut l := List.length_drop
  have hcons : ∀ X : List UInt32, (l.take (hybridCut l) ++ X).take l.length = l ↔ X.take (l.drop (hybridCut l)).length = l.drop (hybridCut l) := by
    intro X
    rw [List.take_append, htl, List.take_of_length_le (by omega), hdl]
    conv_lhs => rhs; rw [← List.take_append_drop (hybridCut l) l]
    rw [List.append_cancel_left_eq]
  rw [readBack, dif_neg hl, displacedFrom, dif_neg hl]
  by_cases hc : longRun l = true ∨ hybridCut l % 8 = 0
  · rw [if_pos hc]
    have e : (if longRun l then l.take (hybridCut l) else l.take (hybridCut l) ++ List.replicate ((8 - (l.take (hybridCut l)).length % 8) % 8) 0) = l.take (hybridCut l) := by
      by_cases hr : longRun l = true
      · rw [if_pos hr]
      · rw [if_neg hr, htl, hc.resolve_left hr]; simp
    rw [e, hcons, ih _ (by rw [hdl]; omega) _ rfl]
    constructor
    · intro h e he
      obtain ⟨e', h1, h2⟩ := Option.map_eq_some_iff.1 he
      have := h e' h1
      rwa [List.drop_drop, h2] at this
    · intro h e he
      rw [List.drop_drop]
      exact h _ (by rw [he]; rfl)
  · rw [if_neg hc]
    have hr : ¬ longRun l = true := fun h => hc (.inl h)
    have h8 : hybridCut l % 8 ≠ 0 := fun h => hc (.inr h)
    rw [if_neg hr, htl, List.append_assoc, hcons]
    by_cases hlt : hybridCut l < l.length
    · rw [if_pos hlt, displaced_iff _ (readBack_length _) _ (by omega)]
      simp
    · rw [if_neg hlt]
      have : l.drop (hybridCut l) = [] := List.drop_eq_nil_of_le (by omega)
      rw [this]; simp

/-- **C29, exactly.**  The values come back if and only if no piece displaces the rest, or all values behind the first displacement are zero. -/
theorem C29_hybrid_iff (w : Nat) (hw : w ≤ 32) (vs : List UInt32) (hv : ∀ v ∈ vs, v.toNat < 2 ^ w) (rest : List UInt8) :
    hybrid w vs.length (encodeHybridRle w vs ++ rest) = some (vs.map UInt32.toNat) ↔ ∀ e, displacedFrom vs = some e → ∀ v ∈ vs.drop e, v = 0 := by
  rw [C29_hybrid_exact w hw vs hv rest _ (Nat.le_refl _), ← readBack_iff _ vs rfl, Option.some.injEq, ← List.map_take]
  constructor
  · intro h
    exact (List.map_inj_right (fun a b hab => UInt32.toNat_inj.1 hab)).1 h
  · intro h
    rw [h]

/-- Long runs at multiples of eight are fine; three values before a run are not, except before zeros only. -/
example : displacedFrom ([1, 2, 3, 1, 2, 3, 1, 2] ++ List.replicate 9 5 ++ [7]) = none ∧ displacedFrom ([1, 2, 3] ++ List.replicate 9 5) = some 3 ∧
    displacedFrom ([1, 2, 3] ++ List.replicate 9 0) = some 3 ∧ hybrid 3 12 (encodeHybridRle 3 ([1, 2, 3] ++ List.replicate 9 0)) = some ([1, 2, 3] ++ List.replicate 9 0) ∧
    hybrid 3 12 (encodeHybridRle 3 ([1, 2, 3] ++ List.replicate 9 5)) = some ([1, 2, 3, 0, 0, 0, 0, 0, 5, 5, 5, 5]) := by decide +kernel

/-- What a reader makes of the levels written by the `std::vector<bool>` path, for every column with nulls. -/
theorem C28_legacy_exact (nulls : List Bool) (hnull : true ∈ nulls) (hlen : nulls.length < 2 ^ 31) (rest : List UInt8) :
    defLevels 1 nulls.length (encodeDefLevelsHybrid nulls 1 (nulls.count true) ++ rest) =
      some (((readBack (nulls.map (fun isNull => if isNull then 0 else 1))).take nulls.length).map UInt32.toNat, rest) := by
  have hne : nulls ≠ [] := by rintro rfl; simp at hnull
  have hcnt : nulls.count true ≠ 0 := by
    have := List.count_pos_iff.2 hnull; omega
  have hw : bitsRequired (1 : UInt8).toUInt32 = 1 := by decide +kernel
  have hsize : ∀ (k : Nat) (l : List UInt32), l.length = k → (∀ v ∈ l, v.toNat < 2 ^ 1) → (encPieces 1 l).length ≤ 2 * l.length := by
    intro k
    induction k using Nat.strongRecOn with
    | _ k ih =>
    intro l hk hv
    by_cases hl : l = []
    · subst hl; rw [encPieces_nil]; simp
    have hpos := hybridCut_pos hl
    have hle := hybridCut_le l
    have := ih _ (by rw [List.length_drop]; omega) (l.drop (hybridCut l)) rfl (fun v hm => hv v (List.mem_of_mem_drop hm))
    rw [List.length_drop] at this
    rw [encPieces, dif_neg hl, List.length_append]
    split
    next hrun =>
      have := rleRun_length 1 (l.headD 0) (hybridCut l) (by decide)
      have h8 : 8 ≤ hybridCut l := by
        obtain ⟨v, r, h⟩ := (longRun_iff l).1 hrun
        rw [hybridCut, if_pos hrun]
        have : 8 ≤ equalPrefix l := by
          rw [h]
          show 8 ≤ 1 + (List.takeWhile (· == v) (List.replicate 7 v ++ r)).length
          have : (List.replicate 7 v).length ≤ (List.takeWhile (· == v) (List.replicate 7 v ++ r)).length := by
            rw [List.takeWhile_append_of_pos (by intro a ha; simp [List.eq_of_mem_replicate ha]), List.length_append]; omega
          simp only [List.length_replicate] at this
          omega
        omega
      omega
    · have h64 : hybridCut l ≤ 64 := by rw [hybridCut]; split <;> (try split) <;> omega
      have : (packedRun 1 (l.take (hybridCut l))).length ≤ 2 * hybridCut l := by
        have htl : (l.take (hybridCut l)).length = hybridCut l := by rw [List.length_take]; omega
        rw [packedRun, List.length_append, htl]
        have h1 : ∀ g ≤ 8, (writeVarint ((UInt32.ofNat g) <<< 1 ||| 1).toUInt64).length = 1 := by decide +kernel
        have h1 := h1 ((hybridCut l + 7) / 8) (by omega)
        have h2 := (packLoop_eq 1 ((l.take (hybridCut l) ++ List.replicate ((hybridCut l + 7) / 8 * 8 - hybridCut l) (0 : UInt32)).map UInt32.toUInt64) 0 0
          (by decide) (by omega) (by decide)
          (by
            intro v hm
            obtain ⟨x, hx, rfl⟩ := List.mem_map.1 hm
            rw [List.mem_append] at hx
            rw [UInt32.toNat_toUInt64]
            rcases hx with hx | hx
            · exact hv x (List.mem_of_mem_take hx)
            · rw [(List.mem_replicate.1 hx).2]; decide)).2
        rw [h2, List.length_map, List.length_append, htl, List.length_replicate]
        omega
      omega
  generalize hvs : nulls.map (fun isNull => if isNull then (0 : UInt32) else 1) = vs
  have hvl : vs.length = nulls.length := by rw [← hvs]; simp
  have hv : ∀ v ∈ vs, v.toNat < 2 ^ 1 := by
    intro v hm
    rw [← hvs] at hm
    obtain ⟨b, -, rfl⟩ := List.mem_map.1 hm
    cases b <;> decide
  have hmap : nulls.map (fun isNull => if isNull then (0 : UInt32) else (1 : UInt8).toUInt32) = vs := hvs
  have henc : encodeDefLevelsHybrid nulls 1 (nulls.count true) = le4 (UInt32.ofNat (encPieces 1 vs).length) ++ encPieces 1 vs := by
    rw [encodeDefLevelsHybrid, if_neg hne]
    dsimp only
    rw [if_neg hcnt, hw, hmap, encodeHybridRle_pieces]
  have hbody := hsize _ vs rfl hv
  have hex := C29_hybrid_exact 1 (by decide) vs hv [] vs.length (Nat.le_refl _)
  rw [List.append_nil, encodeHybridRle_pieces, hvl, ← List.map_take] at hex
  rw [henc, defLevels_body _ _ _ _ (by omega), hex]
  rfl

/-- **C28, exactly, for the `std::vector<bool>` path**: a column with nulls gets its levels back if and only if all rows behind the first displacement are null. -/
theorem C28_legacy_iff (nulls : List Bool) (hnull : true ∈ nulls) (hlen : nulls.length < 2 ^ 31) (rest : List UInt8) :
    defLevels 1 nulls.length (encodeDefLevelsHybrid nulls 1 (nulls.count true) ++ rest) = some (nulls.map (fun isNull => if isNull then 0 else 1), rest) ↔
      ∀ e, displacedFrom (nulls.map (fun isNull => if isNull then 0 else 1)) = some e → ∀ b ∈ nulls.drop e, b = true := by
  rw [C28_legacy_exact nulls hnull hlen rest]
  generalize hvs : nulls.map (fun isNull => if isNull then (0 : UInt32) else 1) = vs
  have hvl : vs.length = nulls.length := by rw [← hvs]; simp
  have hlevels : nulls.map (fun isNull => if isNull then 0 else 1) = vs.map UInt32.toNat := by
    rw [← hvs, List.map_map]
    apply List.map_congr_left
    intro b _
    cases b <;> rfl
  have hz : ∀ e, (∀ v ∈ vs.drop e, v = 0) ↔ ∀ b ∈ nulls.drop e, b = true := by
    intro e
    rw [← hvs, ← List.map_drop]
    constructor
    · intro h b hb
      have := h _ (List.mem_map_of_mem hb)
      cases b with
      | true => rfl
      | false => exact absurd this (by decide)
    · intro h v hv
      obtain ⟨b, hb, rfl⟩ := List.mem_map.1 hv
      rw [h b hb]; rfl
  rw [hlevels, ← hvl]
  have hiff := readBack_iff _ vs rfl
  constructor
  · intro h e he
    simp only [Option.some.injEq, Prod.mk.injEq, and_true] at h
    exact (hz e).1 (hiff.1 ((List.map_inj_right (fun a b hab => UInt32.toNat_inj.1 hab)).1 h) e he)
  · intro h
    rw [hiff.2 (fun e he => (hz e).2 (h e he))]

/-- Three nulls before eight values: displaced.  Eight nulls before eight values: fine. -/
example : displacedFrom (([true, true, true] ++ List.replicate 8 false).map (fun isNull => if isNull then 0 else 1)) = some 3 ∧
    displacedFrom ((List.replicate 8 true ++ List.replicate 9 false).map (fun isNull => if isNull then 0 else 1)) = none := by decide +kernel

end Vroom
