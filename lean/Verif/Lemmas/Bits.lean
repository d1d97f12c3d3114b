import Verif.Spec.Buffers
import Mathlib.Data.List.Basic
import Mathlib.Tactic.ByContra
/- Bit-level lemmas used by the bitmap and encoder proofs. -/
namespace Vroom
open NullBitmap

theorem bitMask_toNat (i : Nat) : (bitMask i).toNat = 2 ^ (i % 8) := by
  have h : i % 8 < 8 := Nat.mod_lt _ (by omega)
  unfold bitMask
  generalize i % 8 = k at *
  have : k = 0 ∨ k = 1 ∨ k = 2 ∨ k = 3 ∨ k = 4 ∨ k = 5 ∨ k = 6 ∨ k = 7 := by omega
  rcases this with rfl|rfl|rfl|rfl|rfl|rfl|rfl|rfl <;> decide

theorem testBit_or_mask (b : UInt8) (i j : Nat) :
    (b ||| bitMask i).toNat.testBit j = (b.toNat.testBit j || decide (i % 8 = j)) := by
  rw [UInt8.toNat_or, Nat.testBit_or, bitMask_toNat, Nat.testBit_two_pow]

theorem testBit_andnot_mask (b : UInt8) (i j : Nat) (hj : j < 8) :
    (b &&& ~~~ (bitMask i)).toNat.testBit j = (b.toNat.testBit j && !decide (i % 8 = j)) := by
  rw [UInt8.toNat_and, Nat.testBit_and]
  congr 1
  have h : i % 8 < 8 := Nat.mod_lt _ (by omega)
  unfold bitMask
  generalize i % 8 = k at *
  have hk : k = 0 ∨ k = 1 ∨ k = 2 ∨ k = 3 ∨ k = 4 ∨ k = 5 ∨ k = 6 ∨ k = 7 := by omega
  have hj : j = 0 ∨ j = 1 ∨ j = 2 ∨ j = 3 ∨ j = 4 ∨ j = 5 ∨ j = 6 ∨ j = 7 := by omega
  rcases hk with rfl|rfl|rfl|rfl|rfl|rfl|rfl|rfl <;> rcases hj with rfl|rfl|rfl|rfl|rfl|rfl|rfl|rfl <;> decide

theorem and_mask_ne_zero (b : UInt8) (i : Nat) : ((b &&& bitMask i) != 0) = b.toNat.testBit (i % 8) := by
  have hz : ((b &&& bitMask i) != 0) = ((b &&& bitMask i).toNat != 0) := by
    rw [Bool.eq_iff_iff, bne_iff_ne, bne_iff_ne, ne_eq, ne_eq, not_iff_not]
    constructor
    · intro h; rw [h]; rfl
    · intro h; exact UInt8.toNat_inj.1 (by simpa using h)
  rw [hz, UInt8.toNat_and, bitMask_toNat]
  rw [Bool.eq_iff_iff, bne_iff_ne]
  constructor
  · intro hne
    by_contra hf
    apply hne
    apply Nat.eq_of_testBit_eq
    intro j
    rw [Nat.testBit_and, Nat.testBit_two_pow, Nat.zero_testBit]
    by_cases hj : i % 8 = j
    · subst hj; simp at hf; simp [hf]
    · simp [hj]
  · intro ht h0
    have := congrArg (fun x => Nat.testBit x (i % 8)) h0
    simp [Nat.testBit_two_pow, ht] at this

theorem bitAt_isValid (b : NullBitmap) (i : Nat) (h : b.hasNulls = true) : b.isValid i = bitAt b.data i := by
  unfold isValid bitAt
  rw [if_neg (by simp [h]), and_mask_ne_zero, List.getD_eq_getElem?_getD]
  cases b.data[i / 8]? <;> simp

theorem bitAt_setBit (d : List UInt8) (i j : Nat) (h : i / 8 < d.length) :
    bitAt (setBit d i) j = (bitAt d j || decide (i = j)) := by
  unfold bitAt setBit
  rw [List.getElem?_set]
  by_cases hij : i / 8 = j / 8
  · rw [if_pos hij, if_pos h, ← hij]
    simp only
    rw [testBit_or_mask, List.getD_eq_getElem?_getD, List.getElem?_eq_getElem h]
    simp only [Option.getD_some]
    congr 1
    rw [decide_eq_decide]; omega
  · rw [if_neg hij]
    have : i ≠ j := by rintro rfl; exact hij rfl
    simp [this]

theorem bitAt_clearBit (d : List UInt8) (i j : Nat) (h : i / 8 < d.length) :
    bitAt (clearBit d i) j = (bitAt d j && !decide (i = j)) := by
  unfold bitAt clearBit
  rw [List.getElem?_set]
  by_cases hij : i / 8 = j / 8
  · rw [if_pos hij, if_pos h, ← hij]
    simp only
    rw [testBit_andnot_mask _ _ _ (Nat.mod_lt _ (by omega)), List.getD_eq_getElem?_getD, List.getElem?_eq_getElem h]
    simp only [Option.getD_some]
    congr 2
    rw [decide_eq_decide]; omega
  · rw [if_neg hij]
    have : i ≠ j := by rintro rfl; exact hij rfl
    simp [this]

theorem bitAt_snoc_zero (d : List UInt8) (j : Nat) : bitAt (d ++ [0]) j = bitAt d j := by
  unfold bitAt
  rw [List.getElem?_append]
  by_cases h : j / 8 < d.length
  · rw [if_pos h]
  · rw [if_neg h]
    rw [List.getElem?_eq_none (by omega : d.length ≤ j / 8)]
    cases hk : j / 8 - d.length with
    | zero => simp
    | succ n => simp

theorem bitAt_ones (n j : Nat) (h : j / 8 < n) : bitAt (List.replicate n 255) j = true := by
  unfold bitAt
  rw [List.getElem?_replicate, if_pos h]
  have : j % 8 < 8 := Nat.mod_lt _ (by omega)
  simp only
  generalize j % 8 = k at *
  have hk : k = 0 ∨ k = 1 ∨ k = 2 ∨ k = 3 ∨ k = 4 ∨ k = 5 ∨ k = 6 ∨ k = 7 := by omega
  rcases hk with rfl|rfl|rfl|rfl|rfl|rfl|rfl|rfl <;> decide

theorem bitAt_oob (d : List UInt8) (j : Nat) (h : d.length ≤ j / 8) : bitAt d j = false := by
  unfold bitAt; rw [List.getElem?_eq_none h]

theorem setBit_length (d : List UInt8) (i : Nat) : (setBit d i).length = d.length := by simp [setBit]
theorem clearBit_length (d : List UInt8) (i : Nat) : (clearBit d i).length = d.length := by simp [clearBit]

end Vroom
