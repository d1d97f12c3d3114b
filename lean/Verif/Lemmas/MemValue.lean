import Verif.Model.MemValue
import Verif.Lemmas.MemRead
import Mathlib.Tactic.IntervalCases
/-
The checked value parsers against the list models.
-/
namespace Vroom.Mem
open Vroom

/-- A checked parser's answer as an outcome. -/
def outcome {α : Type} : Option (Option α) → Outcome α
  | none => .ub
  | some none => .reject
  | some (some a) => .ok a

theorem scalarDigits_eq {p : Bytes} {len : Nat} (hs : len ≤ p.length) : ∀ (n : Nat) (acc : UInt64) (i : Nat), len - i ≤ n →
    scalarDigitsM p len acc i = some (scalarDigits acc ((p.take len).drop i)) := by
  intro n
  induction n with
  | zero =>
    intro acc i h
    rw [scalarDigitsM, if_neg (by omega), drop_end (by omega)]; rfl
  | succ n ih =>
    intro acc i h
    by_cases hi : i < len
    · obtain ⟨c, h1, h2⟩ := ld_step hs hi
      rw [scalarDigitsM, if_pos hi, h1, h2, Option.bind_some, scalarDigits]
      by_cases hc : c - 48 > 9
      · rw [if_pos hc, if_pos hc]
      · rw [if_neg hc, if_neg hc]; exact ih _ _ (by omega)
    · rw [scalarDigitsM, if_neg hi, drop_end hi]; rfl

theorem combineDigits_eq {p : Bytes} {len : Nat} (hs : len ≤ p.length) : ∀ (n : Nat) (acc : UInt64) (i : Nat), len - i ≤ n →
    combineDigitsM p len acc i = some (combineDigits acc ((p.take len).drop i)) := by
  intro n
  induction n with
  | zero =>
    intro acc i h
    rw [combineDigitsM, if_neg (by omega), drop_end (by omega)]; rfl
  | succ n ih =>
    intro acc i h
    by_cases hi : i < len
    · obtain ⟨c, h1, h2⟩ := ld_step hs hi
      rw [combineDigitsM, if_pos hi, h1, h2, Option.bind_some, combineDigits]
      exact ih _ _ (by omega)
    · rw [combineDigitsM, if_neg hi, drop_end hi]; rfl

theorem checkedDigits_eq {p : Bytes} {len : Nat} (hs : len ≤ p.length) : ∀ (k : Nat) (acc : UInt64) (i : Nat), i + k = len →
    checkedDigitsM p acc i k = some (checkedDigits acc ((p.take len).drop i)) := by
  intro k
  induction k with
  | zero =>
    intro acc i h
    rw [checkedDigitsM, drop_end (by omega)]; rfl
  | succ k ih =>
    intro acc i h
    obtain ⟨c, h1, h2⟩ := ld_step hs (show i < len by omega)
    rw [checkedDigitsM, h1, h2, Option.bind_some, checkedDigits]
    by_cases hc : c - 48 > 9
    · rw [if_pos hc, if_pos hc]
    · rw [if_neg hc, if_neg hc]
      rw [ih _ _ (by omega)]
      split <;> rfl

theorem anyInvalid_eq (flags : List Bool) (len : Nat) (hl : len ≤ flags.length) : ∀ (n i : Nat), len - i ≤ n →
    anyInvalidM flags len i = some (((flags.take len).drop i).any id) := by
  intro n
  induction n with
  | zero =>
    intro i h
    rw [anyInvalidM, if_neg (by omega), List.drop_eq_nil_of_le (by simp; omega)]; rfl
  | succ n ih =>
    intro i h
    by_cases hi : i < len
    · have h1 : i < (flags.take len).length := by simp; omega
      rw [anyInvalidM, if_pos hi, List.getElem?_eq_getElem (by omega), Option.bind_some, List.drop_eq_getElem_cons h1, List.getElem_take]
      cases hf : flags[i]
      · rw [if_neg (by decide), ih _ (by omega)]; rfl
      · rw [if_pos rfl]; rfl
    · rw [anyInvalidM, if_neg hi, List.drop_eq_nil_of_le (by simp; omega)]; rfl

theorem parseUint64_eq {lanes : Nat} (hl : lanes ≤ 64) {p : Bytes} {len : Nat} (hs : len ≤ p.length) :
    parseUint64M lanes p len = some (parseUint64Simd lanes (p.take len)) := by
  have hlen : (p.take len).length = len := by simp; omega
  have hsc := scalarDigits_eq hs _ 0 0 (Nat.le_refl _)
  have hco := combineDigits_eq hs _ 0 0 (Nat.le_refl _)
  rw [List.drop_zero] at hsc hco
  unfold parseUint64M parseUint64Simd
  rw [hlen]
  by_cases h1 : len = 0 ∨ len > 16
  · rw [if_pos h1, if_pos h1]
  rw [if_neg h1, if_neg h1]
  by_cases h2 : len ≤ 8
  · rw [if_pos h2, if_pos h2, hsc]
  rw [if_neg h2, if_neg h2]
  by_cases h3 : lanes < 16
  · rw [if_pos h3, if_pos h3, hsc]
  rw [if_neg h3, if_neg h3]
  have hmin : min len 64 = len := by omega
  rw [hmin, ldVec_eq (by omega), Option.bind_some, List.drop_zero, hlen, ldVec_eq (by simp; omega), Option.bind_some, List.drop_zero,
    if_neg (by omega)]
  have hinv : invalidLanes lanes (p.take len) =
      (((p.take len) ++ List.replicate (64 - len) 0).take lanes).map (fun b => decide (b < 48) || decide (b > 57)) := by
    unfold invalidLanes
    rw [hlen, List.take_of_length_le (l := p.take len) (by omega)]
  rw [← hinv]
  have hil : (invalidLanes lanes (p.take len)).length = lanes := by
    unfold invalidLanes
    simp only [List.length_map, List.length_take, List.length_append, List.length_replicate]
    omega
  rw [anyInvalid_eq _ _ (by omega) _ 0 (Nat.le_refl _), List.drop_zero, Option.bind_some]
  cases hb : ((invalidLanes lanes (p.take len)).take len).any id
  · rw [if_neg (by decide), if_neg (by decide), hco]; rfl
  · rw [if_pos rfl, if_pos rfl]

theorem takeSign_eq {p : Bytes} {len : Nat} (hs : len ≤ p.length) (h0 : len ≠ 0) :
    (takeSignM p len = some none ∧ takeSign (p.take len) = none) ∨
    ∃ neg p' len', takeSignM p len = some (some (neg, p', len')) ∧ takeSign (p.take len) = some (neg, p'.take len') ∧ len' ≤ p'.length := by
  cases p with
  | nil => simp at hs; omega
  | cons b rest =>
    obtain ⟨k, rfl⟩ := Nat.exists_eq_succ_of_ne_zero h0
    simp only [List.length_cons, Nat.succ_eq_add_one, Nat.add_le_add_iff_right] at hs
    have hk : (rest.take k).length = k := by simp; omega
    simp only [takeSignM, ld, List.getElem?_cons_zero, Option.bind_some, List.take_succ_cons, takeSign, hk, Nat.succ_eq_add_one,
      Nat.add_sub_cancel, List.drop_succ_cons, List.drop_zero]
    by_cases h1 : b = 45
    · rw [if_pos h1, if_pos h1]
      by_cases hz : k = 0
      · left; rw [if_pos hz, if_pos hz]; exact ⟨rfl, rfl⟩
      · right; rw [if_neg hz, if_neg hz]; exact ⟨_, _, _, rfl, rfl, hs⟩
    · rw [if_neg h1, if_neg h1]
      by_cases h2 : b = 43
      · rw [if_pos h2, if_pos h2]
        by_cases hz : k = 0
        · left; rw [if_pos hz, if_pos hz]; exact ⟨rfl, rfl⟩
        · right; rw [if_neg hz, if_neg hz]; exact ⟨_, _, _, rfl, rfl, hs⟩
      · right
        rw [if_neg h2, if_neg h2]
        exact ⟨_, _, _, rfl, by simp, by simp; omega⟩

theorem finish_eq (lim : Nat) (h : 0 < lim) (neg : Bool) (r : UInt64) : outcome (finishSignedM lim neg r) = finishSigned lim neg r := by
  unfold finishSignedM finishSigned
  generalize r.toNat = n
  cases neg
  · by_cases h1 : n > lim - 1
    · simp [h1, outcome]
    · have : n ≠ lim := by omega
      simp [h1, this, outcome]
  · by_cases h1 : n > lim
    · simp [h1, outcome]
    · by_cases h2 : n = lim
      · subst h2; simp [outcome]
      · simp [h1, h2, outcome]
        rw [if_pos (by omega)]

theorem parseInt32_eq {lanes : Nat} (hl : lanes ≤ 64) {p : Bytes} {len : Nat} (hs : len ≤ p.length) :
    outcome (parseInt32M lanes p len) = parseInt32Simd lanes (p.take len) := by
  have hlen : (p.take len).length = len := by simp; omega
  unfold parseInt32M parseInt32Simd
  rw [hlen]
  by_cases h1 : len = 0 ∨ len > 11
  · rw [if_pos h1, if_pos h1]; rfl
  rw [if_neg h1, if_neg h1]
  rcases takeSign_eq hs (by omega) with ⟨h2, h3⟩ | ⟨neg, p', len', h2, h3, h4⟩
  · rw [h2, h3]; rfl
  · rw [h2, h3]
    simp only [orFalse, parseUint64_eq hl h4]
    cases parseUint64Simd lanes (p'.take len') with
    | none => rfl
    | some r => exact finish_eq _ (by decide) neg r

theorem parseInt64_eq {lanes : Nat} (hl : lanes ≤ 64) {p : Bytes} {len : Nat} (hs : len ≤ p.length) :
    outcome (parseInt64M lanes p len) = parseInt64Simd lanes (p.take len) := by
  have hlen : (p.take len).length = len := by simp; omega
  unfold parseInt64M parseInt64Simd
  rw [hlen]
  by_cases h1 : len = 0 ∨ len > 20
  · rw [if_pos h1, if_pos h1]; rfl
  rw [if_neg h1, if_neg h1]
  rcases takeSign_eq hs (by omega) with ⟨h2, h3⟩ | ⟨neg, p', len', h2, h3, h4⟩
  · rw [h2, h3]; rfl
  · rw [h2, h3]
    have hlen' : (p'.take len').length = len' := by simp; omega
    have hch := checkedDigits_eq h4 len' 0 0 (by omega)
    rw [List.drop_zero] at hch
    simp only [orFalse, parseUint64_eq hl h4, hlen', hch]
    by_cases h5 : len' > 16
    · simp only [if_pos h5]
      cases checkedDigits 0 (p'.take len') with
      | none => rfl
      | some r => exact finish_eq _ (by decide) neg r
    · simp only [if_neg h5]
      cases parseUint64Simd lanes (p'.take len') with
      | none => rfl
      | some r => exact finish_eq _ (by decide) neg r

end Vroom.Mem
