import Verif.Props.Dates
/- C21 for every accepted date, year 0 included. -/
namespace Vroom
open Spec

instance (t : Date) : Decidable t.Valid := inferInstanceAs (Decidable (_ ∧ _))

/-- The first date with a four-digit year. -/
def Spec.zeroDay : Date := ⟨0, 1, 1⟩

theorem after_add (t : Date) (a b : Nat) : t.after (a + b) = (t.after a).after b := by
  induction b with
  | zero => rfl
  | succ b ih => rw [← Nat.add_assoc]; simp only [Date.after, ih]

theorem zeroDay_366 : zeroDay.after 366 = firstDay := by decide +kernel

theorem year_zero_days : ∀ n : Fin 366, (zeroDay.after n.val).Valid ∧ (zeroDay.after n.val).year = 0 ∧
    dayNum (zeroDay.after n.val) = (n.val : Int) - 719527 := by
  decide +kernel

/-- **C21** The number stored for every four-digit date: counting days from 0000-01-01, day `n` is stored as `n - 719528`,
which is its distance from 1970-01-01, except that the 366 days of year 0 get one more. -/
theorem C21_exact (n : Nat) (sep : UInt8) (hs : sep = 45 ∨ sep = 47) (hy : (zeroDay.after n).year ≤ 9999) :
    parseDate ((zeroDay.after n).text sep) = some ((n : Int) - 719528 + if n < 366 then 1 else 0) := by
  by_cases hn : n < 366
  · obtain ⟨h1, h2, h3⟩ := year_zero_days ⟨n, hn⟩
    dsimp only at h1 h2 h3
    rw [if_pos hn, parseDate_iff]
    exact ⟨_, sep, hs, h1, hy, rfl, by rw [h3]; omega⟩
  · rw [if_neg hn]
    obtain ⟨k, rfl⟩ := Nat.exists_eq_add_of_le (Nat.not_lt.1 hn)
    rw [after_add, zeroDay_366] at hy ⊢
    rw [C21_day_numbers k sep hs hy]
    congr 1
    omega

theorem year_zero_covers (t : Date) (hv : t.Valid) (h0 : t.year = 0) : ∃ n : Nat, n < 366 ∧ t = zeroDay.after n := by
  obtain ⟨y, m, d⟩ := t
  dsimp only at h0
  subst h0
  obtain ⟨a, b, c, e⟩ := hv
  dsimp only at a b c e
  have hml : ∀ m : Fin 13, monthLength 0 m.val ≤ 31 := by decide
  have hd : d ≤ 31 := Nat.le_trans e (hml ⟨m, by omega⟩)
  have key : ∀ (m : Fin 13) (d : Fin 32), 1 ≤ m.val → 1 ≤ d.val → d.val ≤ monthLength 0 m.val →
      [0, 0, 31, 60, 91, 121, 152, 182, 213, 244, 274, 305, 335].getD m.val 0 + d.val - 1 < 366 ∧
      (⟨0, m.val, d.val⟩ : Date) = zeroDay.after ([0, 0, 31, 60, 91, 121, 152, 182, 213, 244, 274, 305, 335].getD m.val 0 + d.val - 1) := by
    decide +kernel
  exact ⟨_, key ⟨m, by omega⟩ ⟨d, by omega⟩ a c e⟩

/-- **C21** Every accepted text is covered by the previous theorem. -/
theorem C21_exact_covers (s : Bytes) (v : Int) (h : parseDate s = some v) :
    ∃ (n : Nat) (sep : UInt8), (sep = 45 ∨ sep = 47) ∧ (zeroDay.after n).year ≤ 9999 ∧ s = (zeroDay.after n).text sep := by
  obtain ⟨t, sep, hs, hv, hy, rfl, -⟩ := (parseDate_iff s v).1 h
  have hex : ∃ n, t = zeroDay.after n := by
    by_cases h1 : 1 ≤ t.year
    · obtain ⟨k, rfl⟩ := C21_covers t hv h1
      exact ⟨366 + k, by rw [after_add, zeroDay_366]⟩
    · obtain ⟨n, -, hn⟩ := year_zero_covers t hv (by omega)
      exact ⟨n, hn⟩
  obtain ⟨n, rfl⟩ := hex
  exact ⟨n, sep, hs, hy, rfl⟩

/-- **C21** Two neighbouring days get neighbouring numbers exactly when the first is not 0000-12-31. -/
theorem C21_successive_iff (t : Date) (hv : t.Valid) (hy : t.next.year ≤ 9999) (sep : UInt8) (hs : sep = 45 ∨ sep = 47) :
    (∃ k, parseDate (t.text sep) = some k ∧ parseDate (t.next.text sep) = some (k + 1)) ↔ t ≠ ⟨0, 12, 31⟩ := by
  have hty : t.year ≤ 9999 := Nat.le_trans (next_year t) hy
  have hacc : parseDate (t.text sep) = some (dayNum t) := (parseDate_iff _ _).2 ⟨t, sep, hs, hv, hty, rfl, rfl⟩
  constructor
  · rintro ⟨k, h1, h2⟩ rfl
    have e1 : dayNum ⟨0, 12, 31⟩ = -719162 := by decide +kernel
    have e2 : dayNum (Date.next ⟨0, 12, 31⟩) = -719162 := by decide +kernel
    have h2' : parseDate ((Date.next ⟨0, 12, 31⟩).text sep) = some (dayNum (Date.next ⟨0, 12, 31⟩)) :=
      (parseDate_iff _ _).2 ⟨_, sep, hs, by decide, by decide, rfl, rfl⟩
    rw [hacc, e1] at h1
    rw [h2', e2] at h2
    have := Option.some.inj h1
    have := Option.some.inj h2
    omega
  · intro hne
    by_cases h1 : 1 ≤ t.year
    · exact C21_successive t hv h1 hy sep hs
    · obtain ⟨n, hn, rfl⟩ := year_zero_covers t hv (by omega)
      have h365 : n ≠ 365 := by
        rintro rfl
        exact hne (by decide +kernel)
      have e1 := C21_exact n sep hs hty
      have e2 := C21_exact (n + 1) sep hs hy
      rw [if_pos hn] at e1
      rw [if_pos (by omega)] at e2
      refine ⟨_, e1, ?_⟩
      rw [show (zeroDay.after n).next = zeroDay.after (n + 1) from rfl, e2]
      congr 1
      omega

/-- Witness: 29 February of year 0 is accepted, as day 59 from 0000-01-01. -/
example : zeroDay.after 59 = ⟨0, 2, 29⟩ ∧ parseDate ((zeroDay.after 59).text 45) = some (-719468) := by decide +kernel

end Vroom
