import Verif.Model.Dates
import Verif.Spec.Calendar
import Mathlib.Tactic.Tauto
import Mathlib.Tactic.ByContra
import Mathlib.Tactic.IntervalCases
/- C21, C22: dates and timestamps. -/
namespace Vroom
open Spec

/-! ### Calendar arithmetic -/

theorem isLeap_iff (y : Nat) : isLeapYear y = true ↔ Leap y := by simp [isLeapYear, Leap]

theorem daysInMonth_eq (y m : Nat) (h1 : 1 ≤ m) (h2 : m ≤ 12) : getDaysInMonth y m = monthLength y m := by
  unfold getDaysInMonth
  by_cases hl : Leap y
  · have := (isLeap_iff y).2 hl
    interval_cases m <;> simp [daysInMonthTable, monthLength, this, hl]
  · have : isLeapYear y = false := by rw [Bool.eq_false_iff]; intro h; exact hl ((isLeap_iff y).1 h)
    interval_cases m <;> simp [daysInMonthTable, monthLength, this, hl]

/-- The day number computed by the code for a (year, month, day). -/
def dayNum (t : Date) : Int :=
  daysFromEpochToYear t.year + (monthsBefore t.year t.month : Int) + ((t.day : Int) - 1)

theorem monthsBefore_succ (y m : Nat) (h : 1 ≤ m) : monthsBefore y (m + 1) = monthsBefore y m + getDaysInMonth y m := by
  unfold monthsBefore
  obtain ⟨k, rfl⟩ := Nat.exists_eq_add_of_le' h
  simp [List.range_succ]

theorem year_step (y : Nat) (h : 1 ≤ y) :
    daysFromEpochToYear (y + 1) = daysFromEpochToYear y + (monthsBefore y 12 : Int) + 31 := by
  have hm : monthsBefore y 12 = if Leap y then 335 else 334 := by
    unfold monthsBefore
    by_cases hl : Leap y
    · have := (isLeap_iff y).2 hl
      simp [List.range_succ, getDaysInMonth, daysInMonthTable, this, hl]
    · have : isLeapYear y = false := by rw [Bool.eq_false_iff]; intro h; exact hl ((isLeap_iff y).1 h)
      simp [List.range_succ, getDaysInMonth, daysInMonthTable, this, hl]
  rw [hm]
  have hl : leapYearsBefore (y + 1) = leapYearsBefore y + (if Leap y then 1 else 0) := by
    by_cases h1 : y = 1
    · subst h1; decide
    · unfold leapYearsBefore
      dsimp only
      by_cases hL : Leap y
      · rw [if_neg (by omega), if_neg (by omega), if_pos hL]
        unfold Leap at hL; omega
      · rw [if_neg (by omega), if_neg (by omega), if_neg hL]
        unfold Leap at hL; omega
  unfold daysFromEpochToYear
  rw [hl]
  split <;> push_cast <;> omega

theorem dayNum_next (t : Date) (hv : t.Valid) (hy : 1 ≤ t.year) : dayNum t.next = dayNum t + 1 := by
  obtain ⟨h1, h2, h3, h4⟩ := hv
  unfold Date.next
  split
  · unfold dayNum; dsimp only; push_cast; omega
  · next hd =>
    have hdl : t.day = monthLength t.year t.month := by omega
    split
    · next hm =>
      unfold dayNum
      dsimp only
      rw [monthsBefore_succ _ _ h1, daysInMonth_eq _ _ h1 h2, ← hdl]
      push_cast; omega
    · next hm =>
      have hm12 : t.month = 12 := by omega
      rw [hm12] at hdl
      have : monthLength t.year 12 = 31 := rfl
      unfold dayNum
      dsimp only
      have hmb : monthsBefore (t.year + 1) 1 = 0 := rfl
      rw [year_step _ hy, hm12, hmb, hdl, this]
      push_cast; omega

theorem next_valid (t : Date) (hv : t.Valid) : t.next.Valid := by
  obtain ⟨h1, h2, h3, h4⟩ := hv
  have hpos : ∀ y m, 1 ≤ m → m ≤ 12 → 1 ≤ monthLength y m := by
    intro y m a b
    interval_cases m <;> simp [monthLength]
    split <;> omega
  unfold Date.next
  split
  · exact ⟨h1, h2, by simp, by simp; omega⟩
  · split
    · exact ⟨by simp, by simp; omega, by simp, hpos _ (t.month + 1) (by omega) (by omega)⟩
    · exact ⟨by simp, by simp, by simp, hpos _ 1 (by decide) (by decide)⟩

theorem next_year (t : Date) : t.year ≤ t.next.year := by
  unfold Date.next; split
  · simp
  · split <;> simp

/-- First day of year 1. -/
def firstDay : Date := ⟨1, 1, 1⟩

theorem after_inv (n : Nat) : (firstDay.after n).Valid ∧ 1 ≤ (firstDay.after n).year ∧
    dayNum (firstDay.after n) = (n : Int) - 719162 := by
  induction n with
  | zero => exact ⟨⟨by decide, by decide, by decide, by decide⟩, by decide, by decide⟩
  | succ n ih =>
    obtain ⟨i1, i2, i3⟩ := ih
    refine ⟨next_valid _ i1, Nat.le_trans i2 (next_year _), ?_⟩
    show dayNum (firstDay.after n).next = _
    rw [dayNum_next _ i1 i2, i3]; push_cast; omega

/-! ### Text -/

theorem dig_toNat (n : Nat) (h : n ≤ 9) : (dig n).toNat = 48 + n := by
  unfold dig; rw [UInt8.toNat_ofNat']; omega

theorem dig_ok (n : Nat) (h : n ≤ 9) : ¬ (dig n < 48 ∨ dig n > 57) ∧ (dig n).toNat - 48 = n := by
  have := dig_toNat n h
  simp only [UInt8.lt_iff_toNat_lt, gt_iff_lt, UInt8.reduceToNat]
  omega

theorem digits_show2 (n : Nat) (h : n ≤ 99) : digitsNat 0 (show2 n) = some n := by
  obtain ⟨a1, a2⟩ := dig_ok (n / 10) (by omega)
  obtain ⟨b1, b2⟩ := dig_ok (n % 10) (by omega)
  simp only [show2, digitsNat, if_neg a1, if_neg b1, a2, b2, Option.some.injEq]
  omega

theorem digits_show4 (n : Nat) (h : n ≤ 9999) : digitsNat 0 (show4 n) = some n := by
  obtain ⟨a1, a2⟩ := dig_ok (n / 1000) (by omega)
  obtain ⟨b1, b2⟩ := dig_ok (n / 100 % 10) (by omega)
  obtain ⟨c1, c2⟩ := dig_ok (n / 10 % 10) (by omega)
  obtain ⟨d1, d2⟩ := dig_ok (n % 10) (by omega)
  simp only [show4, digitsNat, if_neg a1, if_neg b1, if_neg c1, if_neg d1, a2, b2, c2, d2, Option.some.injEq]
  omega

theorem isDigit_iff (b : UInt8) : ¬ (b < 48 ∨ b > 57) ↔ IsDigit b := by
  unfold IsDigit
  simp only [UInt8.lt_iff_toNat_lt, gt_iff_lt, UInt8.reduceToNat]; omega

theorem dig_of_digit (b : UInt8) (h : IsDigit b) : b = dig (b.toNat - 48) := by
  unfold IsDigit at h
  apply UInt8.toNat_inj.1
  rw [dig_toNat _ (by omega)]; omega

theorem digitsNat_two (a b : UInt8) (n : Nat) (h : digitsNat 0 [a, b] = some n) : [a, b] = show2 n ∧ n ≤ 99 := by
  simp only [digitsNat] at h
  split at h
  · simp at h
  · next ha =>
    split at h
    · simp at h
    · next hb =>
      have ha' := (isDigit_iff a).1 ha
      have hb' := (isDigit_iff b).1 hb
      have e := Option.some.inj h
      have ea := dig_of_digit a ha'
      have eb := dig_of_digit b hb'
      unfold IsDigit at ha' hb'
      subst e
      refine ⟨?_, by omega⟩
      unfold show2
      rw [show (((0 * 10 + (a.toNat - 48)) * 10 + (b.toNat - 48)) / 10) = a.toNat - 48 by omega,
        show (((0 * 10 + (a.toNat - 48)) * 10 + (b.toNat - 48)) % 10) = b.toNat - 48 by omega, ← ea, ← eb]

theorem digitsNat_four (a b c d : UInt8) (n : Nat) (h : digitsNat 0 [a, b, c, d] = some n) :
    [a, b, c, d] = show4 n ∧ n ≤ 9999 := by
  simp only [digitsNat] at h
  split at h
  · simp at h
  next ha =>
  split at h
  · simp at h
  next hb =>
  split at h
  · simp at h
  next hc =>
  split at h
  · simp at h
  next hd =>
  have ha' := (isDigit_iff a).1 ha
  have hb' := (isDigit_iff b).1 hb
  have hc' := (isDigit_iff c).1 hc
  have hd' := (isDigit_iff d).1 hd
  have e := Option.some.inj h
  have ea := dig_of_digit a ha'
  have eb := dig_of_digit b hb'
  have ec := dig_of_digit c hc'
  have ed := dig_of_digit d hd'
  unfold IsDigit at ha' hb' hc' hd'
  have hx : a.toNat - 48 ≤ 9 := by omega
  have hy : b.toNat - 48 ≤ 9 := by omega
  have hz : c.toNat - 48 ≤ 9 := by omega
  have hw : d.toNat - 48 ≤ 9 := by omega
  clear ha hb hc hd ha' hb' hc' hd' h
  generalize a.toNat - 48 = x at *
  generalize b.toNat - 48 = y at *
  generalize c.toNat - 48 = z at *
  generalize d.toNat - 48 = w at *
  have e1 : n / 1000 = x := by omega
  have e2 : n / 100 % 10 = y := by omega
  have e3 : n / 10 % 10 = z := by omega
  have e4 : n % 10 = w := by omega
  refine ⟨?_, by omega⟩
  unfold show4
  rw [e1, e2, e3, e4, ← ea, ← eb, ← ec, ← ed]

/-! ### C21 -/

/-- Acceptance and value. -/
theorem parseDate_iff (s : Bytes) (v : Int) :
    parseDate s = some v ↔ ∃ (t : Date) (sep : UInt8), (sep = 45 ∨ sep = 47) ∧ t.Valid ∧ t.year ≤ 9999 ∧ s = t.text sep ∧
      v = dayNum t := by
  constructor
  · intro h
    unfold parseDate at h
    split at h
    · next y1 y2 y3 y4 s1 m1 m2 s2 d1 d2 =>
      split at h
      · simp at h
      next hs1 =>
      split at h
      · simp at h
      next hs2 =>
      simp only [Option.bind_eq_bind, Option.bind_eq_some_iff] at h
      obtain ⟨y, hy, m, hm, d, hd, h⟩ := h
      split at h
      · simp at h
      next hmr =>
      split at h
      · simp at h
      next hdr =>
      obtain ⟨ey, ly⟩ := digitsNat_four _ _ _ _ _ hy
      obtain ⟨em, lm⟩ := digitsNat_two _ _ _ hm
      obtain ⟨ed, ld⟩ := digitsNat_two _ _ _ hd
      have hm1 : 1 ≤ m := by omega
      have hm2 : m ≤ 12 := by omega
      refine ⟨⟨y, m, d⟩, s1, by tauto, ⟨hm1, hm2, by simp; omega, ?_⟩, ly, ?_, (Option.some.inj h).symm⟩
      · show d ≤ monthLength y m
        rw [← daysInMonth_eq y m hm1 hm2]; omega
      · have : s2 = s1 := by tauto
        subst this
        show _ = show4 y ++ [s2] ++ show2 m ++ [s2] ++ show2 d
        rw [← ey, ← em, ← ed]; rfl
    · simp at h
  · rintro ⟨t, sep, hsep, ⟨h1, h2, h3, h4⟩, hy, rfl, rfl⟩
    have hd31 : t.day ≤ 99 := by
      have : ∀ m, 1 ≤ m → m ≤ 12 → monthLength t.year m ≤ 99 := by
        intro m a b
        interval_cases m <;> simp [monthLength]
        split <;> omega
      have := this t.month h1 h2
      omega
    have e1 := digits_show4 t.year hy
    have e2 := digits_show2 t.month (by omega)
    have e3 := digits_show2 t.day hd31
    unfold show4 at e1
    unfold show2 at e2 e3
    show parseDate [dig (t.year / 1000), dig (t.year / 100 % 10), dig (t.year / 10 % 10), dig (t.year % 10), sep,
      dig (t.month / 10), dig (t.month % 10), sep, dig (t.day / 10), dig (t.day % 10)] = _
    unfold parseDate
    dsimp only
    rw [if_neg (by tauto), if_neg (by simp), e1, e2, e3]
    simp only [Option.bind_eq_bind, Option.bind_some]
    rw [if_neg (by omega), daysInMonth_eq _ _ h1 h2, if_neg (by omega)]
    rfl

/-- C21: a string is accepted exactly when it is the text of a calendar date with matching `-` or `/`
separators: invalid months and days are rejected. -/
theorem C21_accepts_iff (s : Bytes) :
    (∃ v, parseDate s = some v) ↔
      ∃ (t : Date) (sep : UInt8), (sep = 45 ∨ sep = 47) ∧ t.Valid ∧ t.year ≤ 9999 ∧ s = t.text sep := by
  simp only [parseDate_iff]
  constructor
  · rintro ⟨v, t, sep, a, b, c, d, _⟩; exact ⟨t, sep, a, b, c, d⟩
  · rintro ⟨t, sep, a, b, c, d⟩; exact ⟨_, t, sep, a, b, c, d, rfl⟩

/-- C21: counting calendar days from 0001-01-01, day `n` is stored as `n - 719162` (which is 0 for
1970-01-01), as long as the year has four digits. -/
theorem C21_day_numbers (n : Nat) (sep : UInt8) (hs : sep = 45 ∨ sep = 47) (hy : (firstDay.after n).year ≤ 9999) :
    parseDate ((firstDay.after n).text sep) = some ((n : Int) - 719162) := by
  obtain ⟨h1, h2, h3⟩ := after_inv n
  rw [parseDate_iff]
  exact ⟨_, sep, hs, h1, hy, rfl, h3.symm⟩

/-- C21: every calendar date from year 1 on is reached, so the previous theorem covers them all. -/
theorem C21_covers (t : Date) (hv : t.Valid) (hy : 1 ≤ t.year) : ∃ n, t = firstDay.after n := by
  -- induction on the day number from the first day
  have hstep : ∀ t : Date, t.Valid → 1 ≤ t.year → t ≠ firstDay → ∃ p : Date, p.Valid ∧ 1 ≤ p.year ∧ t = p.next := by
    intro t ⟨h1, h2, h3, h4⟩ hy hne
    obtain ⟨y, m, d⟩ := t
    dsimp only at *
    have hpos : ∀ y m, 1 ≤ m → m ≤ 12 → 1 ≤ monthLength y m := by
      intro y m a b
      interval_cases m <;> simp [monthLength]
      split <;> omega
    by_cases hd : d = 1
    · subst hd
      by_cases hm : m = 1
      · subst hm
        have hy1 : y ≠ 1 := by rintro rfl; exact hne rfl
        refine ⟨⟨y - 1, 12, 31⟩, ⟨by simp, by simp, by simp, by simp [monthLength]⟩, by simp; omega, ?_⟩
        simp [Date.next, monthLength]; omega
      · refine ⟨⟨y, m - 1, monthLength y (m - 1)⟩, ⟨by simp; omega, by simp; omega, ?_, by simp⟩, hy, ?_⟩
        · exact hpos y (m - 1) (by omega) (by omega)
        · unfold Date.next
          simp only [Nat.lt_irrefl, if_false]
          rw [if_pos (by omega)]
          simp; omega
    · refine ⟨⟨y, m, d - 1⟩, ⟨h1, h2, by simp; omega, by simp; omega⟩, hy, ?_⟩
      unfold Date.next
      rw [if_pos (by simp; omega)]
      simp; omega
  have hge : ∀ t : Date, t.Valid → 1 ≤ t.year → -719162 ≤ dayNum t := by
    intro t ⟨_, _, h3, _⟩ hy
    unfold dayNum daysFromEpochToYear
    omega
  have key : ∀ (k : Nat) (t : Date), t.Valid → 1 ≤ t.year → dayNum t + 719162 = k → ∃ n, t = firstDay.after n := by
    intro k
    induction k with
    | zero =>
      intro t hv hy hk
      by_cases hf : t = firstDay
      · exact ⟨0, hf⟩
      · obtain ⟨p, p1, p2, rfl⟩ := hstep t hv hy hf
        have := dayNum_next p p1 p2
        have := hge p p1 p2
        omega
    | succ k ih =>
      intro t hv hy hk
      by_cases hf : t = firstDay
      · exact ⟨0, hf⟩
      · obtain ⟨p, p1, p2, rfl⟩ := hstep t hv hy hf
        have := dayNum_next p p1 p2
        obtain ⟨n, rfl⟩ := ih p p1 p2 (by omega)
        exact ⟨n + 1, rfl⟩
  have h0 := hge t hv hy
  exact key (dayNum t + 719162).toNat t hv hy (by omega)

/-- C21: successive days (years 1 to 9999) get successive numbers. -/
theorem C21_successive (t : Date) (hv : t.Valid) (hy : 1 ≤ t.year) (hy2 : t.next.year ≤ 9999) (sep : UInt8)
    (hs : sep = 45 ∨ sep = 47) :
    ∃ k, parseDate (t.text sep) = some k ∧ parseDate (t.next.text sep) = some (k + 1) := by
  refine ⟨dayNum t, (parseDate_iff _ _).2 ⟨t, sep, hs, hv, ?_, rfl, rfl⟩,
    (parseDate_iff _ _).2 ⟨t.next, sep, hs, next_valid t hv, hy2, rfl, (dayNum_next t hv hy).symm⟩⟩
  exact Nat.le_trans (next_year t) hy2

/-- C21 at its anchor. -/
theorem C21_epoch : parseDate [49, 57, 55, 48, 45, 48, 49, 45, 48, 49] = some 0 := by decide +kernel

/-- C21 without the restriction to years from 1: the code accepts year 0. -/
def C21_full : Prop := ∀ (t : Date) (sep : UInt8), t.Valid → t.next.year ≤ 9999 → sep = 45 ∨ sep = 47 →
  ∃ k, parseDate (t.text sep) = some k ∧ parseDate (t.next.text sep) = some (k + 1)

/-- It is false of the code: 0000-12-31 and 0001-01-01 get the same day number (year 0 is leap but
`leap_years_before` does not count it). -/
theorem C21_full_fails : ¬ C21_full := by
  intro h
  obtain ⟨k, h1, h2⟩ := h ⟨0, 12, 31⟩ 45 ⟨by decide, by decide, by decide, by decide⟩ (by decide) (Or.inl rfl)
  have e1 : parseDate ((Date.mk 0 12 31).text 45) = some (-719162) := by decide +kernel
  have e2 : parseDate ((Date.mk 0 12 31).next.text 45) = some (-719162) := by decide +kernel
  rw [e1] at h1; rw [e2] at h2
  have := Option.some.inj h1
  have := Option.some.inj h2
  omega

/-- C21: the stored number fits the 32-bit column. -/
theorem C21_in_range (s : Bytes) (v : Int) (h : parseDate s = some v) : -719527 ≤ v ∧ v ≤ 2932897 := by
  obtain ⟨t, sep, _, ⟨h1, h2, h3, h4⟩, h5, _, rfl⟩ := (parseDate_iff s v).1 h
  have hm : monthsBefore t.year t.month ≤ 335 := by
    obtain ⟨y, m, d⟩ := t
    dsimp only at *
    unfold monthsBefore
    cases hl : isLeapYear y <;> interval_cases m <;>
      simp [List.range_succ, getDaysInMonth, daysInMonthTable, hl]
  have hd : t.day ≤ 31 := by
    obtain ⟨y, m, d⟩ := t
    dsimp only at *
    have : monthLength y m ≤ 31 := by
      interval_cases m <;> simp [monthLength]
      split <;> omega
    omega
  unfold dayNum daysFromEpochToYear leapYearsBefore
  dsimp only
  split <;> omega

example : ∃ n, (firstDay.after n).year = 1 ∧ (firstDay.after n).month = 3 := ⟨59, by decide +kernel, by decide +kernel⟩
example : (Date.mk 2024 2 29).Valid := ⟨by decide, by decide, by decide, by decide⟩

/-! ### C22 -/

theorem isDigitB_iff (b : UInt8) : isDigitB b = true ↔ IsDigit b := by
  unfold isDigitB IsDigit
  simp only [Bool.and_eq_true, decide_eq_true_eq, UInt8.le_iff_toNat_le, UInt8.reduceToNat]

theorem dig_digit (n : Nat) (h : n ≤ 9) : isDigitB (dig n) = true := by
  rw [isDigitB_iff]; unfold IsDigit; rw [dig_toNat n h]; omega

theorem digit_not_zone (b : UInt8) (h : IsDigit b) : isZoneStart b = false := by
  unfold IsDigit at h
  unfold isZoneStart
  simp only [Bool.or_eq_false_iff, beq_eq_false_iff_ne]
  refine ⟨⟨?_, ?_⟩, ?_⟩ <;> (rintro rfl; simp at h)

theorem fracLoop_spec (k : Nat) (frac : Nat) (ds : Bytes) (h : ∀ d ∈ ds, IsDigit d) :
    fracLoop k frac ds = some (((ds ++ List.replicate k 48).take k).foldl (fun a (d : UInt8) => a * 10 + (d.toNat - 48)) frac) := by
  induction k generalizing frac ds with
  | zero => simp [fracLoop]
  | succ k ih =>
    cases ds with
    | nil =>
      have hz : ∀ (j f : Nat), (List.replicate j (48 : UInt8)).foldl (fun a d => a * 10 + (d.toNat - 48)) f = f * 10 ^ j := by
        intro j
        induction j with
        | zero => intro f; simp
        | succ j ihj =>
          intro f
          rw [List.replicate_succ, List.foldl_cons, ihj]
          simp [Nat.pow_succ, Nat.mul_assoc, Nat.mul_comm]
      simp only [fracLoop, List.nil_append, List.take_replicate, Nat.min_self, hz]
    | cons d ds =>
      have hd := h d (by simp)
      unfold fracLoop
      rw [if_pos ((isDigitB_iff d).2 hd), ih _ ds (fun x hx => h x (by simp [hx]))]
      simp only [List.cons_append, List.take_succ_cons, List.foldl_cons, Option.some.injEq]
      congr 1
      rw [List.replicate_succ', ← List.append_assoc, List.take_append_of_le_length (l₁ := ds ++ List.replicate k 48) (by simp)]

theorem zone_parse (z : Zone) (hz : z.Valid) (hne : z ≠ .none) : parseTimezone z.text = some z.minutes := by
  cases z with
  | none => exact absurd rfl hne
  | utc => rfl
  | offset neg hh mm =>
    obtain ⟨hh14, hmm⟩ := hz
    have e1 := digits_show2 hh (by omega)
    unfold show2 at e1
    cases mm with
    | none =>
      cases neg <;>
      · simp [Zone.text, show2, parseTimezone, e1, Zone.minutes]; omega
    | some cm =>
      obtain ⟨colon, m⟩ := cm
      have hm := hmm colon m rfl
      have d1 := dig_ok (m / 10) (by omega)
      have d2 := dig_ok (m % 10) (by omega)
      have b1 := dig_digit (m / 10) (by omega)
      have b2 := dig_digit (m % 10) (by omega)
      have hc : dig (m / 10) ≠ 58 := by
        intro hc
        have := dig_toNat (m / 10) (by omega)
        rw [hc] at this
        simp at this; omega
      have hval : m / 10 * 10 + m % 10 = m := by omega
      have hn : ¬ (14 < hh ∨ 59 < m) := by omega
      cases neg <;> cases colon <;>
        simp [Zone.text, show2, parseTimezone, e1, Zone.minutes, hc, b1, b2, d1.2, d2.2, hval, hn]

theorem zone_head (z : Zone) : z.text = [] ∨ ∃ c r, z.text = c :: r ∧ isZoneStart c = true ∧ c ≠ 46 := by
  cases z with
  | none => left; rfl
  | utc => right; exact ⟨90, [], rfl, by decide, by decide⟩
  | offset neg hh mm =>
    right
    refine ⟨if neg then 45 else 43, _, rfl, ?_, ?_⟩ <;> cases neg <;> decide

theorem zone_text_nil (z : Zone) (h : z.text = []) : z = .none := by
  cases z with
  | none => rfl
  | utc => simp [Zone.text] at h
  | offset => simp [Zone.text] at h

theorem zonePart_ok (z : Zone) (hz : z.Valid) : zonePart z.text = some z.minutes := by
  unfold zonePart
  by_cases h : z.text = []
  · have := zone_text_nil z h
    subst this; rfl
  · have hn : z ≠ .none := by rintro rfl; exact h rfl
    rw [if_neg (by simpa using h), zone_parse z hz hn]

theorem takeWhile_app (p : UInt8 → Bool) (ds t : Bytes) (h1 : ∀ d ∈ ds, p d = true) (h2 : t = [] ∨ ∃ c r, t = c :: r ∧ p c = false) :
    (ds ++ t).takeWhile p = ds ∧ (ds ++ t).dropWhile p = t := by
  induction ds with
  | nil =>
    rcases h2 with rfl | ⟨c, r, rfl, hc⟩
    · simp
    · simp [hc]
  | cons d ds ih =>
    obtain ⟨i1, i2⟩ := ih (fun x hx => h1 x (by simp [hx]))
    have := h1 d (by simp)
    simp [this, i1, i2]

theorem fracPart_ok (frac : Option Bytes) (z : Zone) (hf : ∀ ds, frac = some ds → ∀ d ∈ ds, IsDigit d) :
    fracPart (fracText frac ++ z.text) = some (fracValue frac, z.text) := by
  cases frac with
  | none =>
    simp only [fracText, fracValue, List.nil_append]
    rcases zone_head z with h | ⟨c, r, h, _, h2⟩
    · rw [h]; rfl
    · rw [h]; simp [fracPart, h2]
  | some ds =>
    have hd := hf ds rfl
    have hw := takeWhile_app (fun b => !isZoneStart b) ds z.text
      (fun d hm => by simp [digit_not_zone d (hd d hm)])
      (by
        rcases zone_head z with h | ⟨c, r, h, h1, _⟩
        · exact Or.inl h
        · exact Or.inr ⟨c, r, h, by simp [h1]⟩)
    simp only [fracText, fracValue, List.cons_append, fracPart, if_true, hw.1, hw.2, fracLoop_spec 6 0 ds hd, Option.map_some]
    rfl

/-- C22: the text of every well-formed timestamp is parsed to days since the epoch (as `parse_date` gives
them, C21) times 86 400 000 000 plus the time of day, minus the zone offset. -/
theorem C22_value (t : Stamp) (hv : t.Valid) (sep : UInt8) (hs : sep = 45 ∨ sep = 47) :
    ∃ days, parseDate (t.date.text sep) = some days ∧
      parseTimestamp (t.text sep) = some (days * 86400000000 + t.timeMicros) := by
  refine ⟨dayNum t.date, (parseDate_iff _ _).2 ⟨t.date, sep, hs, hv.date, hv.year, rfl, rfl⟩, ?_⟩
  have hdate : parseDate (t.date.text sep) = some (dayNum t.date) :=
    (parseDate_iff _ _).2 ⟨t.date, sep, hs, hv.date, hv.year, rfl, rfl⟩
  have e1 := digits_show2 t.hour (by have := hv.hour; omega)
  have e2 := digits_show2 t.minute (by have := hv.minute; omega)
  have e3 := digits_show2 t.second (by have := hv.second; omega)
  have hz := zonePart_ok t.zone hv.zone
  have hf := fracPart_ok t.frac t.zone hv.frac
  have h1 := hv.hour
  have h2 := hv.minute
  have h3 := hv.second
  have ht := hv.tee
  unfold Date.text show4 at hdate
  unfold show2 at hdate e1 e2 e3
  simp only [List.cons_append, List.nil_append] at hdate
  have hshape : t.text sep = dig (t.date.year / 1000) :: dig (t.date.year / 100 % 10) :: dig (t.date.year / 10 % 10) ::
      dig (t.date.year % 10) :: sep :: dig (t.date.month / 10) :: dig (t.date.month % 10) :: sep :: dig (t.date.day / 10) ::
      dig (t.date.day % 10) :: t.tee :: dig (t.hour / 10) :: dig (t.hour % 10) :: 58 :: dig (t.minute / 10) ::
      dig (t.minute % 10) :: 58 :: dig (t.second / 10) :: dig (t.second % 10) ::
      (fracText t.frac ++ t.zone.text) := by
    simp [Stamp.text, Date.text, show4, show2]
  rw [hshape]
  unfold parseTimestamp
  dsimp only
  rw [hdate]
  simp only [Option.bind_eq_bind, Option.bind_some]
  rw [if_neg (by tauto), if_neg (by simp), e1, e2, e3]
  simp only [Option.bind_some]
  rw [if_neg (by omega), hf]
  simp only [Option.bind_some]
  rw [hz]
  simp only [Option.bind_some, Option.some.injEq]
  unfold Stamp.timeMicros
  omega

theorem digitsNat_le (n : Nat) (a b : UInt8) (h : digitsNat 0 [a, b] = some n) : n ≤ 99 := (digitsNat_two a b n h).2

theorem fracLoop_lt (k frac m : Nat) (ds : Bytes) (h : fracLoop k frac ds = some m) : m < (frac + 1) * 10 ^ k := by
  induction k generalizing frac ds with
  | zero => simp [fracLoop] at h; omega
  | succ k ih =>
    cases ds with
    | nil =>
      simp only [fracLoop, Option.some.injEq] at h
      subst h
      exact Nat.mul_lt_mul_of_pos_right (by omega) (Nat.pow_pos (by decide))
    | cons d ds =>
      unfold fracLoop at h
      split at h
      · next hd =>
        have hd' := (isDigitB_iff d).1 hd
        unfold IsDigit at hd'
        have := ih _ _ h
        refine Nat.lt_of_lt_of_le this ?_
        rw [Nat.pow_succ, Nat.mul_comm (10 ^ k) 10, ← Nat.mul_assoc]
        exact Nat.mul_le_mul_right _ (by omega)
      · simp at h

theorem zone_range (tz : Bytes) (off : Int) (h : parseTimezone tz = some off) : -899 ≤ off ∧ off ≤ 899 := by
  unfold parseTimezone at h
  split at h
  · simp at h
  split at h
  · have := Option.some.inj h; omega
  split at h
  · simp at h
  split at h
  · simp only [Option.bind_eq_bind, Option.bind_eq_some_iff] at h
    obtain ⟨hh, _, mm, _, h⟩ := h
    split at h
    · simp at h
    · have := Option.some.inj h
      split at this <;> omega
  · simp at h

/-- C22: whatever is accepted starts with an accepted date, `T` or space and an in-range `HH:MM:SS`, and the
value is exactly the formula with fewer than 10^6 microseconds and an offset of at most 14:59. -/
theorem C22_accepted (s : Bytes) (v : Int) (h : parseTimestamp s = some v) :
    ∃ (days : Int) (tee : UInt8) (hh mm ss micros : Nat) (off : Int) (rest : Bytes),
      parseDate (s.take 10) = some days ∧ (tee = 84 ∨ tee = 32) ∧
      s = s.take 10 ++ [tee] ++ show2 hh ++ [58] ++ show2 mm ++ [58] ++ show2 ss ++ rest ∧
      hh ≤ 23 ∧ mm ≤ 59 ∧ ss ≤ 59 ∧ micros < 1000000 ∧ -899 ≤ off ∧ off ≤ 899 ∧
      v = days * 86400000000 + ((hh * 3600 + mm * 60 + ss : Nat) : Int) * 1000000 + micros - off * 60000000 := by
  unfold parseTimestamp at h
  split at h
  · next y1 y2 y3 y4 s1 m1 m2 s2 d1 d2 tee h1 h2 c1 n1 n2 c2 e1 e2 rest =>
    simp only [Option.bind_eq_bind, Option.bind_eq_some_iff] at h
    obtain ⟨days, hdays, h⟩ := h
    split at h
    · simp at h
    next htee =>
    split at h
    · simp at h
    next hc =>
    simp only [Option.bind_eq_some_iff] at h
    obtain ⟨hh, hhh, mm, hmm, ss, hss, h⟩ := h
    split at h
    · simp at h
    next hr =>
    simp only [Option.bind_eq_some_iff] at h
    obtain ⟨⟨micros, tz⟩, hf, off, ho, h⟩ := h
    have hmic : micros < 1000000 := by
      unfold fracPart at hf
      split at hf
      · have := congrArg Prod.fst (Option.some.inj hf); simp at this; omega
      · split at hf
        · simp only [Option.map_eq_some_iff] at hf
          obtain ⟨m, hm, e⟩ := hf
          have := fracLoop_lt 6 0 m _ hm
          have := congrArg Prod.fst e
          simp at this; omega
        · have := congrArg Prod.fst (Option.some.inj hf); simp at this; omega
    have hoff : -899 ≤ off ∧ off ≤ 899 := by
      unfold zonePart at ho
      split at ho
      · have := Option.some.inj ho; omega
      · exact zone_range tz off ho
    refine ⟨days, tee, hh, mm, ss, micros, off, rest, hdays, by tauto, ?_, by omega, by omega, by omega, hmic, hoff.1, hoff.2, ?_⟩
    · rw [← (digitsNat_two _ _ _ hhh).1, ← (digitsNat_two _ _ _ hmm).1, ← (digitsNat_two _ _ _ hss).1]
      have : c1 = 58 ∧ c2 = 58 := by tauto
      rw [this.1, this.2]; rfl
    · have := Option.some.inj h
      dsimp only at this
      rw [← this]; push_cast; omega
  · simp at h

/-- C22: the stored number fits the 64-bit column. -/
theorem C22_in_range (s : Bytes) (v : Int) (h : parseTimestamp s = some v) :
    -9223372036854775808 < v ∧ v < 9223372036854775808 := by
  obtain ⟨days, tee, hh, mm, ss, micros, off, rest, h1, _, _, h2, h3, h4, h5, h6, h7, rfl⟩ := C22_accepted s v h
  have := C21_in_range _ _ h1
  push_cast
  omega

/-- The converse of `C22_value` fails: text after `Z` is ignored, e.g. "2020-01-01T00:00:00Zjunk". -/
theorem C22_trailing_text_accepted :
    parseTimestamp [50,48,50,48,45,48,49,45,48,49,84,48,48,58,48,48,58,48,48,90,106,117,110,107] =
    parseTimestamp [50,48,50,48,45,48,49,45,48,49,84,48,48,58,48,48,58,48,48,90] ∧
    (parseTimestamp [50,48,50,48,45,48,49,45,48,49,84,48,48,58,48,48,58,48,48,90]).isSome = true := by decide +kernel

/-- Non-vacuity: 2024-02-29T23:59:59.5+05:30. -/
example : (Stamp.mk ⟨2024, 2, 29⟩ 84 23 59 59 (some [53]) (.offset false 5 (some (true, 30)))).Valid where
  date := ⟨by decide, by decide, by decide, by decide⟩
  year := by decide
  tee := Or.inl rfl
  hour := by decide
  minute := by decide
  second := by decide
  frac := by
    intro ds h d hd
    have := Option.some.inj h
    subst this
    simp at hd; subst hd; decide
  zone := ⟨by decide, by intro c m h; have := Option.some.inj h; simp at this; omega⟩

end Vroom
