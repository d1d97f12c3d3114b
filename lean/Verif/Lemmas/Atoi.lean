import Verif.Model.Atoi
import Verif.Spec.Decimal
import Mathlib.Tactic.Tauto
import Mathlib.Tactic.ByContra
namespace Vroom
open Spec

theorem digit_gt (b : UInt8) : b - 48 > 9 ↔ ¬ IsDigit b := by
  unfold IsDigit
  rw [gt_iff_lt, UInt8.lt_iff_toNat_lt, UInt8.toNat_sub]
  have := b.toNat_lt
  simp only [UInt8.reduceToNat]
  omega

theorem digit_val (b : UInt8) (h : IsDigit b) : (b - 48).toUInt64.toNat = b.toNat - 48 := by
  unfold IsDigit at h
  simp only [UInt8.toNat_toUInt64]
  rw [UInt8.toNat_sub]
  have := b.toNat_lt
  simp only [UInt8.reduceToNat]
  omega

/-- decValue from an accumulator -/
def decFrom (a : Nat) (ds : Bytes) : Nat := ds.foldl (fun a d => a * 10 + (d.toNat - 48)) a

theorem decFrom_cons (a : Nat) (d : UInt8) (ds : Bytes) : decFrom a (d :: ds) = decFrom (a * 10 + (d.toNat - 48)) ds := by
  simp only [decFrom, List.foldl_cons]

theorem decFrom_ge (a : Nat) (ds : Bytes) : a * 10 ^ ds.length ≤ decFrom a ds := by
  induction ds generalizing a with
  | nil => simp [decFrom]
  | cons d ds ih =>
    rw [decFrom_cons, List.length_cons, Nat.pow_succ]
    have := ih (a * 10 + (d.toNat - 48))
    refine Nat.le_trans ?_ this
    rw [Nat.add_mul, Nat.mul_comm (10 ^ ds.length) 10, ← Nat.mul_assoc]
    omega

theorem decFrom_lt (a : Nat) (ds : Bytes) (h : ∀ d ∈ ds, IsDigit d) : decFrom a ds < (a + 1) * 10 ^ ds.length := by
  induction ds generalizing a with
  | nil => simp [decFrom]
  | cons d ds ih =>
    rw [decFrom_cons, List.length_cons, Nat.pow_succ]
    have hd := h d (by simp)
    have := ih (a * 10 + (d.toNat - 48)) (fun x hx => h x (by simp [hx]))
    refine Nat.lt_of_lt_of_le this ?_
    rw [Nat.mul_comm (10 ^ ds.length) 10, ← Nat.mul_assoc]
    apply Nat.mul_le_mul_right
    unfold IsDigit at hd
    omega

theorem decFrom_mono_acc (a : Nat) (ds : Bytes) : a ≤ decFrom a ds := by
  have := decFrom_ge a ds
  have hp : 0 < 10 ^ ds.length := Nat.pow_pos (by decide)
  exact Nat.le_trans (Nat.le_mul_of_pos_right a hp) this

theorem scalarDigits_none (acc : UInt64) (ds : Bytes) : scalarDigits acc ds = none ↔ ¬ ∀ d ∈ ds, IsDigit d := by
  induction ds generalizing acc with
  | nil => simp [scalarDigits]
  | cons d ds ih =>
    unfold scalarDigits
    by_cases hd : IsDigit d
    · rw [if_neg (by rw [digit_gt]; tauto), ih]; simp [hd]
    · rw [if_pos (by rw [digit_gt]; exact hd)]; simp [hd]

theorem mul_add_toNat (acc : UInt64) (d : UInt8) (hd : IsDigit d) (h : acc.toNat * 10 + (d.toNat - 48) < 2 ^ 64) :
    (acc * 10 + (d - 48).toUInt64).toNat = acc.toNat * 10 + (d.toNat - 48) := by
  rw [UInt64.toNat_add, UInt64.toNat_mul, digit_val d hd]
  simp only [UInt64.reduceToNat]
  omega

theorem scalarDigits_some (acc : UInt64) (ds : Bytes) (h : ∀ d ∈ ds, IsDigit d) (hb : decFrom acc.toNat ds < 2 ^ 64) :
    ∃ r, scalarDigits acc ds = some r ∧ r.toNat = decFrom acc.toNat ds := by
  induction ds generalizing acc with
  | nil => exact ⟨acc, rfl, rfl⟩
  | cons d ds ih =>
    have hd := h d (by simp)
    rw [decFrom_cons] at hb
    have hle := decFrom_mono_acc (acc.toNat * 10 + (d.toNat - 48)) ds
    have hm := mul_add_toNat acc d hd (by omega)
    unfold scalarDigits
    rw [if_neg (by rw [digit_gt]; tauto), decFrom_cons, ← hm]
    exact ih _ (fun x hx => h x (by simp [hx])) (by rw [hm]; exact hb)

theorem checkedDigits_spec (acc : UInt64) (ds : Bytes) :
    ((∀ d ∈ ds, IsDigit d) ∧ decFrom acc.toNat ds < 2 ^ 64 ∧
      ∃ r, checkedDigits acc ds = some r ∧ r.toNat = decFrom acc.toNat ds) ∨
    (¬ ((∀ d ∈ ds, IsDigit d) ∧ decFrom acc.toNat ds < 2 ^ 64) ∧ checkedDigits acc ds = none) := by
  induction ds generalizing acc with
  | nil => left; exact ⟨by simp, acc.toNat_lt, acc, rfl, rfl⟩
  | cons d ds ih =>
    unfold checkedDigits
    dsimp only
    by_cases hd : IsDigit d
    · rw [if_neg (by rw [digit_gt]; tauto)]
      have hc := digit_val d hd
      have hdd : d.toNat - 48 ≤ 9 := by unfold IsDigit at hd; omega
      have hcond : (acc > (18446744073709551615 - (d - 48).toUInt64) / 10) ↔ ¬ acc.toNat * 10 + (d.toNat - 48) < 2 ^ 64 := by
        rw [gt_iff_lt, UInt64.lt_iff_toNat_lt, UInt64.toNat_div, UInt64.toNat_sub_of_le, hc]
        · simp only [UInt64.reduceToNat]
          omega
        · rw [UInt64.le_iff_toNat_le, hc]; simp only [UInt64.reduceToNat]; omega
      by_cases hlt : acc.toNat * 10 + (d.toNat - 48) < 2 ^ 64
      · rw [if_neg (by rw [hcond]; tauto), decFrom_cons, ← mul_add_toNat acc d hd hlt]
        rcases ih (acc * 10 + (d - 48).toUInt64) with ⟨h1, h2, h3⟩ | ⟨h1, h2⟩
        · left
          exact ⟨by intro x hx; rcases List.mem_cons.1 hx with rfl | hx; exacts [hd, h1 x hx], h2, h3⟩
        · right
          refine ⟨?_, h2⟩
          rintro ⟨h3, h4⟩
          exact h1 ⟨fun x hx => h3 x (by simp [hx]), h4⟩
      · right
        rw [if_pos (hcond.2 hlt)]
        refine ⟨?_, rfl⟩
        rintro ⟨_, h4⟩
        rw [decFrom_cons] at h4
        exact hlt (Nat.lt_of_le_of_lt (decFrom_mono_acc _ ds) h4)
    · right
      rw [if_pos (by rw [digit_gt]; exact hd)]
      exact ⟨fun h => hd (h.1 d (by simp)), rfl⟩

theorem combine_eq_scalar (acc : UInt64) (ds : Bytes) (h : ∀ d ∈ ds, IsDigit d) :
    scalarDigits acc ds = some (combineDigits acc ds) := by
  induction ds generalizing acc with
  | nil => rfl
  | cons d ds ih =>
    unfold scalarDigits combineDigits
    rw [if_neg (by rw [digit_gt]; have := h d (by simp); tauto)]
    exact ih _ (fun x hx => h x (by simp [hx]))

theorem invalid_iff (b : UInt8) : (decide (b < 48) || decide (b > 57)) = true ↔ ¬ IsDigit b := by
  unfold IsDigit
  simp only [Bool.or_eq_true, decide_eq_true_eq, UInt8.lt_iff_toNat_lt, gt_iff_lt]
  simp only [UInt8.reduceToNat]
  omega

theorem invalidLanes_take (lanes : Nat) (p : Bytes) (h1 : p.length ≤ 16) (h2 : 16 ≤ lanes) :
    (invalidLanes lanes p).take p.length = p.map (fun b => decide (b < 48) || decide (b > 57)) := by
  unfold invalidLanes
  rw [← List.map_take, List.take_take, Nat.min_eq_left (by omega), List.take_of_length_le (l := p) (by omega)]
  simp

/-- All the paths of the unsigned parser are the digit loop. -/
theorem parseUint64Simd_eq (lanes : Nat) (p : Bytes) :
    parseUint64Simd lanes p = if p.length = 0 ∨ p.length > 16 then none else scalarDigits 0 p := by
  unfold parseUint64Simd
  split
  · rfl
  · next h =>
    split
    · rfl
    · split
      · rfl
      · next h3 =>
        rw [invalidLanes_take lanes p (by omega) (by omega)]
        by_cases hd : ∀ d ∈ p, IsDigit d
        · rw [if_neg, combine_eq_scalar 0 p hd]
          simp only [List.any_map, List.any_eq_true, Function.comp, id]
          rintro ⟨x, hx, hi⟩
          exact (invalid_iff x).1 hi (hd x hx)
        · rw [if_pos, (scalarDigits_none 0 p).2 hd]
          simp only [List.any_map, List.any_eq_true, Function.comp, id]
          by_contra hc
          apply hd
          intro d hm
          by_contra hn
          exact hc ⟨d, hm, (invalid_iff d).2 hn⟩

theorem pow10_le (n m : Nat) (h : n ≤ m) : 10 ^ n ≤ 10 ^ m := Nat.pow_le_pow_right (by decide) h

/-- Short digit strings do not wrap. -/
theorem scalarDigits_short (ds : Bytes) (hl : ds.length ≤ 19) :
    ((∀ d ∈ ds, IsDigit d) ∧ ∃ r, scalarDigits 0 ds = some r ∧ r.toNat = decValue ds) ∨
    (¬ (∀ d ∈ ds, IsDigit d) ∧ scalarDigits 0 ds = none) := by
  by_cases h : ∀ d ∈ ds, IsDigit d
  · left
    refine ⟨h, ?_⟩
    have h1 := decFrom_lt 0 ds h
    have h2 := pow10_le ds.length 19 hl
    exact scalarDigits_some 0 ds h (by simp only [UInt64.reduceToNat]; omega)
  · right; exact ⟨h, (scalarDigits_none 0 ds).2 h⟩

theorem takeSign_none (p : Bytes) : takeSign p = none ↔ p = [] ∨ p = [45] ∨ p = [43] := by
  cases p with
  | nil => simp [takeSign]
  | cons b rest =>
    simp only [takeSign]
    split
    · next h => subst h; split <;> simp_all
    · split
      · next h => subst h; split <;> simp_all
      · simp_all

/-- What the sign step returns. -/
theorem takeSign_some (p ds : Bytes) (neg : Bool) :
    takeSign p = some (neg, ds) ↔
      ds ≠ [] ∧ ((neg = true ∧ p = 45 :: ds) ∨ (neg = false ∧ p = 43 :: ds) ∨
        (neg = false ∧ p = ds ∧ ds.head? ≠ some 45 ∧ ds.head? ≠ some 43)) := by
  cases p with
  | nil => simp [takeSign]; tauto
  | cons b rest =>
    simp only [takeSign]
    split
    · next h =>
      subst h
      split
      · next h0 =>
        have : rest = [] := by simpa using h0
        subst this
        simp
        intro hne
        exact ⟨fun _ h => hne h, fun _ h => by subst h; simp⟩
      · next h0 =>
        simp only [Option.some.injEq, Prod.mk.injEq]
        constructor
        · rintro ⟨rfl, rfl⟩
          exact ⟨by rintro rfl; simp at h0, Or.inl ⟨rfl, rfl⟩⟩
        · rintro ⟨_, ⟨rfl, h⟩ | ⟨_, h⟩ | ⟨_, h, h2, _⟩⟩
          · exact ⟨rfl, (List.cons.inj h).2⟩
          · exact absurd (List.cons.inj h).1 (by decide)
          · subst h; simp at h2
    · split
      · next hn h =>
        subst h
        split
        · next h0 =>
          have : rest = [] := by simpa using h0
          subst this
          simp
          intro hne
          exact ⟨fun _ h => hne h, fun _ h => by subst h; simp⟩
        · next h0 =>
          simp only [Option.some.injEq, Prod.mk.injEq]
          constructor
          · rintro ⟨rfl, rfl⟩
            exact ⟨by rintro rfl; simp at h0, Or.inr (Or.inl ⟨rfl, rfl⟩)⟩
          · rintro ⟨_, ⟨rfl, h⟩ | ⟨rfl, h⟩ | ⟨_, h, _, h2⟩⟩
            · exact absurd (List.cons.inj h).1 (by decide)
            · exact ⟨rfl, (List.cons.inj h).2⟩
            · subst h; simp at h2
      · next h1 h2 =>
        simp only [Option.some.injEq, Prod.mk.injEq]
        constructor
        · rintro ⟨rfl, rfl⟩
          exact ⟨by simp, Or.inr (Or.inr ⟨rfl, rfl, by simpa using h1, by simpa using h2⟩)⟩
        · rintro ⟨_, ⟨rfl, h⟩ | ⟨_, h⟩ | ⟨rfl, h, _, _⟩⟩
          · exact absurd (List.cons.inj h).1 h1
          · exact absurd (List.cons.inj h).1 h2
          · exact ⟨rfl, h⟩

/-- Literals, through the sign step. -/
theorem intLit_iff (p : Bytes) (v : Int) :
    IntLit p v ↔ ∃ neg ds, takeSign p = some (neg, ds) ∧ (∀ d ∈ ds, IsDigit d) ∧
      v = if neg then -(decValue ds : Int) else decValue ds := by
  constructor
  · intro h
    cases h with
    | bare _ hne hd =>
      refine ⟨false, p, ?_, hd, rfl⟩
      rw [takeSign_some]
      refine ⟨hne, Or.inr (Or.inr ⟨rfl, rfl, ?_, ?_⟩)⟩ <;>
      · cases p with
        | nil => simp
        | cons b rest =>
          simp only [List.head?_cons, ne_eq, Option.some.injEq]
          rintro rfl
          exact absurd (hd _ List.mem_cons_self) (by decide)
    | plus ds hne hd => exact ⟨false, ds, (takeSign_some _ _ _).2 ⟨hne, Or.inr (Or.inl ⟨rfl, rfl⟩)⟩, hd, rfl⟩
    | minus ds hne hd => exact ⟨true, ds, (takeSign_some _ _ _).2 ⟨hne, Or.inl ⟨rfl, rfl⟩⟩, hd, rfl⟩
  · rintro ⟨neg, ds, hs, hd, rfl⟩
    obtain ⟨hne, ⟨rfl, rfl⟩ | ⟨rfl, rfl⟩ | ⟨rfl, rfl, _⟩⟩ := (takeSign_some _ _ _).1 hs
    · exact .minus ds hne hd
    · exact .plus ds hne hd
    · exact .bare p hne hd

theorem takeSign_length (p ds : Bytes) (neg : Bool) (h : takeSign p = some (neg, ds)) :
    ds.length ≤ p.length ∧ (neg = true → ds.length + 1 = p.length) := by
  obtain ⟨_, ⟨rfl, rfl⟩ | ⟨rfl, rfl⟩ | ⟨rfl, rfl, _⟩⟩ := (takeSign_some _ _ _).1 h <;> simp

end Vroom
