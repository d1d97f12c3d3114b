import Verif.Model.Encoding
import Verif.Spec.Parquet
import Mathlib.Tactic.Ring
import Mathlib.Tactic.ByContra
/- Lemmas about varints, bit packing and the hybrid decoder. -/
namespace Vroom
open Parquet

theorem leNat_append (a b : List UInt8) : leNat (a ++ b) = leNat a + 256 ^ a.length * leNat b := by
  induction a with
  | nil => simp [leNat]
  | cons x t ih => simp only [List.cons_append, leNat, ih, List.length_cons, Nat.pow_succ]; ring

theorem leNat_lt (a : List UInt8) : leNat a < 256 ^ a.length := by
  induction a with
  | nil => simp [leNat]
  | cons x t ih =>
    have := x.toNat_lt
    simp only [leNat, List.length_cons, Nat.pow_succ]
    omega

/-! ### varint -/

theorem readVarint_writeVarint (v : UInt64) (rest : List UInt8) :
    readVarint (writeVarint v ++ rest) = some (v.toNat, rest) := by
  induction v using writeVarint.induct with
  | case1 v h ih =>
    rw [writeVarint, dif_pos h]
    have h' : 128 ≤ v.toNat := UInt64.le_iff_toNat_le.1 h
    have e : (((v &&& 0x7F) ||| 0x80).toUInt8).toNat = v.toNat % 128 + 128 := by
      have : ((v &&& 0x7F) ||| 0x80).toUInt8 = (v.toUInt8 &&& 0x7F) ||| 0x80 := by
        simp
      rw [this, UInt8.toNat_or, UInt8.toNat_and]
      show (v.toUInt8.toNat &&& (2 ^ 7 - 1)) ||| 2 ^ 7 = _
      rw [Nat.and_two_pow_sub_one_eq_mod, UInt64.toNat_toUInt8,
        Nat.or_comm]
      have := Nat.two_pow_add_eq_or_of_lt (i := 7) (b := v.toNat % 2 ^ 8 % 2 ^ 7)
        (Nat.mod_lt _ (Nat.two_pow_pos 7)) 1
      rw [Nat.mul_one] at this
      rw [← this]
      omega
    simp only [List.cons_append, readVarint, e]
    rw [if_neg (by omega), ih]
    have : (v >>> 7).toNat = v.toNat / 128 := by
      rw [UInt64.toNat_shiftRight]; show v.toNat >>> 7 = _; rw [Nat.shiftRight_eq_div_pow]
    simp only [this]
    congr 2; omega
  | case2 v h =>
    rw [writeVarint, dif_neg h]
    have h' : v.toNat < 128 := by
      have := mt UInt64.le_iff_toNat_le.2 h
      have e : (0x80 : UInt64).toNat = 128 := rfl
      omega
    have e : ((v &&& 0x7F).toUInt8).toNat = v.toNat := by
      rw [UInt64.toNat_toUInt8, UInt64.toNat_and]
      show (v.toNat &&& (2 ^ 7 - 1)) % 2 ^ 8 = _
      rw [Nat.and_two_pow_sub_one_eq_mod]; omega
    simp only [List.cons_append, List.nil_append, readVarint, e]
    rw [if_pos h']

theorem writeVarint_ne_nil (v : UInt64) : writeVarint v ≠ [] := by
  rw [writeVarint]; split <;> simp

/-- Number of bytes of a varint. -/
theorem writeVarint_length (v : UInt64) :
    (writeVarint v).length = if v.toNat < 128 then 1 else 1 + (writeVarint (v >>> 7)).length := by
  rw [writeVarint]
  have e : v ≥ 0x80 ↔ 128 ≤ v.toNat := UInt64.le_iff_toNat_le
  by_cases h : v ≥ 0x80
  · rw [dif_pos h, if_neg (by have := e.1 h; omega)]; simp; omega
  · rw [dif_neg h, if_pos (by have := mt e.2 h; omega)]; simp

/-! ### bit packing -/

/-- The number formed by `w`-bit digits, least significant first. -/
def packNat (w : Nat) : List Nat → Nat
  | [] => 0
  | v :: vs => v + 2 ^ w * packNat w vs

theorem packNat_lt (w : Nat) (vs : List Nat) (h : ∀ v ∈ vs, v < 2 ^ w) : packNat w vs < 2 ^ (vs.length * w) := by
  induction vs with
  | nil => simp [packNat]
  | cons v t ih =>
    have h1 := h v (by simp)
    have h2 := ih (fun x hx => h x (by simp [hx]))
    simp only [packNat, List.length_cons, Nat.succ_mul, Nat.pow_add]
    have : 2 ^ w * (packNat w t + 1) ≤ 2 ^ w * 2 ^ (t.length * w) := Nat.mul_le_mul_left _ h2
    rw [Nat.mul_add] at this
    rw [Nat.mul_comm (2 ^ (t.length * w))]
    omega

theorem packNat_get (w : Nat) (vs : List Nat) (h : ∀ v ∈ vs, v < 2 ^ w) (i : Nat) (hi : i < vs.length) (hib : Nat) :
    (packNat w vs + 2 ^ (vs.length * w) * hib) / 2 ^ (i * w) % 2 ^ w = vs[i] := by
  induction vs generalizing i with
  | nil => simp at hi
  | cons v t ih =>
    have h1 := h v (by simp)
    have e : packNat w (v :: t) + 2 ^ ((v :: t).length * w) * hib
        = v + 2 ^ w * (packNat w t + 2 ^ (t.length * w) * hib) := by
      simp only [packNat, List.length_cons, Nat.succ_mul, Nat.pow_add]; ring
    rw [e]
    cases i with
    | zero =>
      simp only [Nat.zero_mul, Nat.pow_zero, Nat.div_one, List.getElem_cons_zero]
      rw [Nat.add_mul_mod_self_left, Nat.mod_eq_of_lt h1]
    | succ j =>
      simp only [List.getElem_cons_succ]
      rw [Nat.succ_mul, Nat.add_comm (j * w) w, Nat.pow_add, ← Nat.div_div_eq_div_mul,
        Nat.add_mul_div_left _ _ (Nat.two_pow_pos w), Nat.div_eq_of_lt h1, Nat.zero_add]
      exact ih (fun x hx => h x (by simp [hx])) j (by simpa using hi)

theorem unpack_packNat (w : Nat) (vs : List Nat) (h : ∀ v ∈ vs, v < 2 ^ w) (bs : List UInt8)
    (hb : leNat bs = packNat w vs) : unpack w vs.length bs = vs := by
  apply List.ext_getElem
  · simp [unpack]
  · intro i h1 h2
    have := packNat_get w vs h i h2 0
    simp only [Nat.mul_zero, Nat.add_zero] at this
    simp [unpack, hb, this]

theorem drain_eq (buf : UInt64) (n : Nat) :
    (drain buf n).1.length = n / 8 ∧ (drain buf n).2.2 = n % 8 ∧
    leNat (drain buf n).1 + 256 ^ (n / 8) * (drain buf n).2.1.toNat = buf.toNat := by
  induction n using Nat.strongRecOn generalizing buf with
  | _ n ih =>
    rw [drain]
    by_cases h : 8 ≤ n
    · rw [if_pos h]
      obtain ⟨h1, h2, h3⟩ := ih (n - 8) (by omega) (buf >>> 8)
      dsimp only
      have e8 : n / 8 = (n - 8) / 8 + 1 := by omega
      refine ⟨by simp [h1]; omega, by rw [h2]; omega, ?_⟩
      have e : (buf >>> 8).toNat = buf.toNat / 256 := by
        rw [UInt64.toNat_shiftRight]; show buf.toNat >>> 8 = _; rw [Nat.shiftRight_eq_div_pow]
      rw [e] at h3
      simp only [leNat, UInt64.toNat_toUInt8, e8]
      rw [Nat.pow_succ 256]
      rw [show 256 ^ ((n - 8) / 8) * 256 * (drain (buf >>> 8) (n - 8)).2.1.toNat
        = 256 * (256 ^ ((n - 8) / 8) * (drain (buf >>> 8) (n - 8)).2.1.toNat) by ring]
      omega
    · rw [if_neg h]
      have : n / 8 = 0 := by omega
      refine ⟨by simp [this], by simp; omega, by simp [leNat, this]⟩

theorem or_shift_toNat (buf v : UInt64) (n w : Nat) (hb : buf.toNat < 2 ^ n) (hn : n < 64)
    (hv : v.toNat < 2 ^ w) (hw : n + w ≤ 64) :
    (buf ||| (v <<< n.toUInt64)).toNat = buf.toNat + 2 ^ n * v.toNat := by
  have hlt : v.toNat * 2 ^ n < 2 ^ 64 := by
    calc v.toNat * 2 ^ n < 2 ^ w * 2 ^ n := Nat.mul_lt_mul_of_pos_right hv (Nat.two_pow_pos n)
      _ = 2 ^ (n + w) := by rw [← Nat.pow_add, Nat.add_comm]
      _ ≤ 2 ^ 64 := Nat.pow_le_pow_right (by decide) hw
  have e1 : (v <<< n.toUInt64).toNat = 2 ^ n * v.toNat := by
    rw [UInt64.toNat_shiftLeft]
    have : n.toUInt64.toNat % 64 = n := by
      show (n % 2 ^ 64) % 64 = n
      omega
    rw [this, Nat.shiftLeft_eq, Nat.mod_eq_of_lt hlt, Nat.mul_comm]
  rw [UInt64.toNat_or, e1, Nat.or_comm, ← Nat.two_pow_add_eq_or_of_lt hb, Nat.add_comm]

/-- General form: `g` divides 8 and the width, so the number of pending bits is always a multiple of
`g`; the accumulator never overflows if `w + 8 ≤ 64 + g`. -/
theorem packLoop_eq' (w g : Nat) (hg8 : g ∣ 8) (hgw : g ∣ w) (hw : w + 8 ≤ 64 + g) (vs : List UInt64) (buf : UInt64) (n : Nat)
    (hn : n ≤ 7) (hgn : g ∣ n) (hb : buf.toNat < 2 ^ n) (hv : ∀ v ∈ vs, v.toNat < 2 ^ w) :
    leNat (packLoop w buf n vs) = buf.toNat + 2 ^ n * packNat w (vs.map UInt64.toNat) ∧
    (packLoop w buf n vs).length = (n + w * vs.length + 7) / 8 := by
  induction vs generalizing buf n with
  | nil =>
    simp only [packLoop, List.map_nil, packNat, Nat.mul_zero, Nat.add_zero, List.length_nil]
    by_cases h : 0 < n
    · rw [if_pos h]
      have : buf.toNat < 128 := Nat.lt_of_lt_of_le hb (Nat.pow_le_pow_right (by decide) hn)
      simp only [leNat, UInt64.toNat_toUInt8, List.length_singleton]
      omega
    · rw [if_neg h]
      have : n = 0 := by omega
      subst this
      simp [leNat]; omega
  | cons v t ih =>
    simp only [packLoop]
    have hnw : n + w ≤ 64 := by
      obtain ⟨a, ha⟩ := hg8
      obtain ⟨c, hc⟩ := hgn
      have : c < a := by
        by_contra hca
        have : g * a ≤ g * c := Nat.mul_le_mul_left g (by omega)
        omega
      have : g * (c + 1) ≤ g * a := Nat.mul_le_mul_left g (by omega)
      rw [Nat.mul_add] at this
      omega
    have hB := or_shift_toNat buf v n w hb (by omega) (hv v (by simp)) hnw
    generalize hBB : buf ||| (v <<< n.toUInt64) = B at hB
    obtain ⟨h1, h2, h3⟩ := drain_eq B (n + w)
    have hBlt : B.toNat < 2 ^ (n + w) := by
      rw [hB, Nat.pow_add]
      have := hv v (by simp)
      have : 2 ^ n * (v.toNat + 1) ≤ 2 ^ n * 2 ^ w := Nat.mul_le_mul_left _ this
      rw [Nat.mul_add] at this
      omega
    generalize drain B (n + w) = r at h1 h2 h3
    have e2 : 256 ^ ((n + w) / 8) * 2 ^ r.2.2 = 2 ^ (n + w) := by
      rw [h2, show 256 = 2 ^ 8 by rfl, ← Nat.pow_mul, ← Nat.pow_add]; congr 1; omega
    have hr : r.2.1.toNat < 2 ^ r.2.2 := by
      have : 256 ^ ((n + w) / 8) * r.2.1.toNat < 256 ^ ((n + w) / 8) * 2 ^ r.2.2 := by rw [e2]; omega
      exact Nat.lt_of_mul_lt_mul_left this
    have hg' : g ∣ r.2.2 := by
      rw [h2]; exact (Nat.dvd_mod_iff hg8).2 (Nat.dvd_add hgn hgw)
    obtain ⟨i1, i2⟩ := ih r.2.1 r.2.2 (by omega) hg' hr (fun x hx => hv x (by simp [hx]))
    constructor
    · rw [leNat_append, i1, h1]
      simp only [List.map_cons, packNat]
      calc leNat r.1 + 256 ^ ((n + w) / 8) * (r.2.1.toNat + 2 ^ r.2.2 * packNat w (t.map UInt64.toNat))
          = (leNat r.1 + 256 ^ ((n + w) / 8) * r.2.1.toNat)
            + 256 ^ ((n + w) / 8) * 2 ^ r.2.2 * packNat w (t.map UInt64.toNat) := by ring
        _ = buf.toNat + 2 ^ n * (v.toNat + 2 ^ w * packNat w (t.map UInt64.toNat)) := by
          rw [h3, e2, hB, Nat.pow_add]; ring
    · rw [List.length_append, i2, h1, h2, List.length_cons, Nat.mul_succ]
      omega

theorem packLoop_eq (w : Nat) (vs : List UInt64) (buf : UInt64) (n : Nat)
    (hn : n ≤ 7) (hw : w ≤ 57) (hb : buf.toNat < 2 ^ n) (hv : ∀ v ∈ vs, v.toNat < 2 ^ w) :
    leNat (packLoop w buf n vs) = buf.toNat + 2 ^ n * packNat w (vs.map UInt64.toNat) ∧
    (packLoop w buf n vs).length = (n + w * vs.length + 7) / 8 :=
  packLoop_eq' w 1 (Nat.one_dvd _) (Nat.one_dvd _) (by omega) vs buf n hn (Nat.one_dvd _) hb hv

/-! ### hybrid runs -/

theorem leNat_valueBytes (v : UInt32) (k : Nat) (hk : k ≤ 4) :
    leNat (valueBytes v k) = v.toNat % 256 ^ k ∧ (valueBytes v k).length = k := by
  refine ⟨?_, by simp [valueBytes]⟩
  have h (b : Nat) (hb : b < 4) : ((v >>> (b * 8).toUInt32).toUInt8).toNat = v.toNat / 256 ^ b % 256 := by
    rw [UInt32.toNat_toUInt8, UInt32.toNat_shiftRight]
    have : (b * 8).toUInt32.toNat % 32 = b * 8 := by
      show (b * 8 % 2 ^ 32) % 32 = _; omega
    rw [this, Nat.shiftRight_eq_div_pow, Nat.mul_comm, Nat.pow_mul]
  have : k = 0 ∨ k = 1 ∨ k = 2 ∨ k = 3 ∨ k = 4 := by omega
  have h0 := h 0 (by decide)
  have h1 := h 1 (by decide)
  have h2 := h 2 (by decide)
  have h3 := h 3 (by decide)
  have r1 : List.range 1 = [0] := rfl
  have r2 : List.range 2 = [0, 1] := rfl
  have r3 : List.range 3 = [0, 1, 2] := rfl
  have r4 : List.range 4 = [0, 1, 2, 3] := rfl
  rcases this with rfl | rfl | rfl | rfl | rfl
  · simp [valueBytes, leNat, Nat.mod_one]
  · simp only [valueBytes, r1, List.map_cons, List.map_nil, leNat, h0]; omega
  · simp only [valueBytes, r2, List.map_cons, List.map_nil, leNat, h0, h1]; omega
  · simp only [valueBytes, r3, List.map_cons, List.map_nil, leNat, h0, h1, h2]; omega
  · simp only [valueBytes, r4, List.map_cons, List.map_nil, leNat, h0, h1, h2, h3]; omega

theorem hybrid_zero (w : Nat) (bs : List UInt8) : hybrid w 0 bs = some [] := by
  rw [hybrid]; simp

/-- One RLE run. -/
theorem hybrid_rleRun (w : Nat) (v : UInt32) (count n : Nat) (rest : List UInt8) (hw : w ≤ 32)
    (hv : v.toNat < 2 ^ w) (h0 : 0 < count) (hn : count ≤ n) (hc : count < 2 ^ 31) :
    hybrid w n (rleRun w v count ++ rest) =
      (hybrid w (n - count) rest).map (List.replicate count v.toNat ++ ·) := by
  have hhd : ((UInt32.ofNat count) <<< 1).toUInt64.toNat = 2 * count := by
    rw [UInt32.toNat_toUInt64, UInt32.toNat_shiftLeft]
    show (count % 2 ^ 32) <<< 1 % 2 ^ 32 = _
    rw [Nat.shiftLeft_eq]; omega
  rw [hybrid, if_neg (by omega), rleRun, List.append_assoc]
  have hr := readVarint_writeVarint ((UInt32.ofNat count) <<< 1).toUInt64
    (valueBytes v ((w + 7) / 8) ++ rest)
  obtain ⟨hl, hlen⟩ := leNat_valueBytes v ((w + 7) / 8) (by omega)
  have hv' : v.toNat % 256 ^ ((w + 7) / 8) = v.toNat := by
    apply Nat.mod_eq_of_lt
    refine Nat.lt_of_lt_of_le hv ?_
    rw [show 256 = 2 ^ 8 by rfl, ← Nat.pow_mul]
    exact Nat.pow_le_pow_right (by decide) (by omega)
  split
  · rename_i h; rw [hr] at h; simp at h
  · rename_i hd r h
    rw [hr] at h
    simp only [Option.some.injEq, Prod.mk.injEq] at h
    obtain ⟨rfl, rfl⟩ := h
    rw [hhd, if_pos (by omega)]
    dsimp only
    rw [if_neg (by simp [hlen]), show 2 * count / 2 = count by omega, show min n count = count by omega,
      List.drop_left' hlen, List.take_left' hlen, hl, hv']
    cases hybrid w (n - count) rest <;> rfl

/-- One bit-packed run: the first `min n (8 * groups)` values count. -/
theorem hybrid_packedRun' (w : Nat) (vs : List UInt32) (n : Nat) (rest : List UInt8) (hw : w ≤ 32)
    (hv : ∀ v ∈ vs, v.toNat < 2 ^ w) (h0 : 0 < vs.length) (h8 : vs.length < 2 ^ 31)
    (hn : vs.length = min n ((vs.length + 7) / 8 * 8)) :
    hybrid w n (packedRun w vs ++ rest) =
      (hybrid w (n - vs.length) rest).map (vs.map UInt32.toNat ++ ·) := by
  rw [hybrid, if_neg (by omega), packedRun, List.append_assoc]
  generalize hg : (vs.length + 7) / 8 = g at *
  have hg31 : g < 2 ^ 31 := by omega
  dsimp only
  generalize hP : (vs ++ List.replicate (g * 8 - vs.length) (0 : UInt32)) = P
  have hPl : P.length = g * 8 := by rw [← hP]; simp; omega
  have hPv : ∀ v ∈ P, v.toNat < 2 ^ w := by
    intro v hm
    rw [← hP, List.mem_append] at hm
    rcases hm with h | h
    · exact hv v h
    · rw [(List.mem_replicate.1 h).2]; exact Nat.two_pow_pos w
  have hPt : (P.map UInt32.toNat).take vs.length = vs.map UInt32.toNat := by
    rw [← hP, List.map_append, List.take_left' (by simp)]
  obtain ⟨p1, p2⟩ := packLoop_eq w (P.map UInt32.toUInt64) 0 0 (by decide) (by omega) (by decide)
    (by intro v hm; obtain ⟨x, hx, rfl⟩ := List.mem_map.1 hm; simpa using hPv x hx)
  have em : (P.map UInt32.toUInt64).map UInt64.toNat = P.map UInt32.toNat := by
    simp [List.map_map, Function.comp_def]
  rw [em] at p1
  have p1' : leNat (packLoop w 0 0 (P.map UInt32.toUInt64)) = packNat w (P.map UInt32.toNat) := by
    rw [p1]; simp
  have p2' : (packLoop w 0 0 (P.map UInt32.toUInt64)).length = g * w := by
    rw [p2, List.length_map, hPl]
    have : w * (g * 8) = g * w * 8 := by ring
    omega
  have hu := unpack_packNat w (P.map UInt32.toNat)
    (by intro v hm; obtain ⟨x, hx, rfl⟩ := List.mem_map.1 hm; exact hPv x hx) _ p1'
  rw [List.length_map, hPl] at hu
  have hhd : (((UInt32.ofNat g) <<< 1) ||| 1).toUInt64.toNat = 2 * g + 1 := by
    rw [UInt32.toNat_toUInt64, UInt32.toNat_or, UInt32.toNat_shiftLeft]
    show ((g % 2 ^ 32) <<< 1 % 2 ^ 32) ||| 1 = _
    rw [Nat.shiftLeft_eq, Nat.mod_eq_of_lt (a := g) (by omega), Nat.pow_one,
      Nat.mod_eq_of_lt (a := g * 2) (by omega)]
    have := Nat.two_pow_add_eq_or_of_lt (i := 1) (b := 1) (by decide) g
    rw [Nat.pow_one] at this
    rw [Nat.mul_comm, ← this]
  have hr := readVarint_writeVarint (((UInt32.ofNat g) <<< 1) ||| 1).toUInt64
    (packLoop w 0 0 (P.map UInt32.toUInt64) ++ rest)
  split
  · rename_i h; rw [hr] at h; simp at h
  · rename_i hd r h
    rw [hr] at h
    simp only [Option.some.injEq, Prod.mk.injEq] at h
    obtain ⟨rfl, rfl⟩ := h
    rw [hhd, if_neg (by omega)]
    rw [show (2 * g + 1) / 2 = g by omega]
    rw [if_neg (by simp [p2']), show min n (g * 8) = vs.length by omega,
      List.drop_left' p2', List.take_left' p2', hu, hPt]
    cases hybrid w (n - vs.length) rest <;> rfl

/-- One bit-packed group of eight values, of which the first `min n 8` count. -/
theorem hybrid_packedRun (w : Nat) (vs : List UInt32) (n : Nat) (rest : List UInt8) (hw : w ≤ 32)
    (hv : ∀ v ∈ vs, v.toNat < 2 ^ w) (h0 : 0 < vs.length) (h8 : vs.length ≤ 8)
    (hn : vs.length = min n 8) :
    hybrid w n (packedRun w vs ++ rest) =
      (hybrid w (n - vs.length) rest).map (vs.map UInt32.toNat ++ ·) := by
  refine hybrid_packedRun' w vs n rest hw hv h0 (by omega) ?_
  omega

theorem runLength_le (v : UInt32) (cap : Nat) (l : List UInt32) :
    runLength v cap l ≤ cap ∧ runLength v cap l ≤ l.length ∧
    l.take (runLength v cap l) = List.replicate (runLength v cap l) v := by
  induction l generalizing cap with
  | nil => simp [runLength]
  | cons x t ih =>
    simp only [runLength]
    by_cases hc : cap = 0
    · simp [hc]
    · rw [if_neg hc]
      by_cases hx : x = v
      · rw [if_pos hx]
        obtain ⟨i1, i2, i3⟩ := ih (cap - 1)
        refine ⟨by omega, by simp; omega, ?_⟩
        rw [Nat.add_comm, List.take_succ_cons, i3, hx, List.replicate_succ]
      · simp [if_neg hx]

/-- Decoding what the run loop emits. -/
theorem hybrid_rleLoop (w : Nat) (hw : w ≤ 32) (vs : List UInt32) (rest : List UInt8)
    (hv : ∀ v ∈ vs, v.toNat < 2 ^ w) :
    hybrid w vs.length (rleLoop w vs ++ rest) = some (vs.map UInt32.toNat) := by
  generalize hm : vs.length = m
  induction m using Nat.strongRecOn generalizing vs with
  | _ m ih =>
  subst hm
  match hvs : vs with
  | [] => rw [List.length_nil, hybrid_zero]; rfl
  | x :: t =>
    rw [rleLoop]
    rw [← hvs]
    rw [← hvs] at ih hv
    generalize hrun : runLength x maxRun vs = run
    obtain ⟨r1, r2, r3⟩ := runLength_le x maxRun vs
    rw [hrun] at r1 r2 r3
    have hx : x.toNat < 2 ^ w := hv x (by rw [hvs]; simp)
    have hlen : 0 < vs.length := by rw [hvs]; simp
    by_cases h8 : 8 ≤ run
    · rw [if_pos h8, List.append_assoc, hybrid_rleRun w x run vs.length _ hw hx (by omega) r2
        (by unfold maxRun at r1; omega)]
      have hd : vs.length - run = (vs.drop run).length := by simp
      rw [hd, ih _ (by simp; omega) (vs.drop run) (fun v h => hv v (List.mem_of_mem_drop h)) rfl]
      simp only [Option.map_some]
      congr 1
      conv_rhs => rw [← List.take_append_drop run vs, List.map_append, r3, List.map_replicate]
    · rw [if_neg h8, List.append_assoc]
      have hl : (vs.take (min 8 vs.length)).length = min 8 vs.length := by simp
      rw [hybrid_packedRun w _ vs.length _ hw (fun v h => hv v (List.mem_of_mem_take h)) (by omega)
        (by omega) (by omega), hl]
      have hd : vs.length - min 8 vs.length = (vs.drop (min 8 vs.length)).length := by simp
      rw [hd, ih _ (by simp; omega) _ (fun v h => hv v (List.mem_of_mem_drop h)) rfl]
      simp only [Option.map_some]
      rw [← List.map_append, List.take_append_drop]

end Vroom
