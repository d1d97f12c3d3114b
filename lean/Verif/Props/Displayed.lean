import Verif.Lemmas.DecText
import Verif.Spec.Cli
import Verif.Props.Inference
import Verif.Props.Dates
/-
C75: what the command line tool prints for a typed cell, and what reading that text gives.
-/
namespace Vroom
open Parquet Spec

theorem asc_nat_length (n k : Nat) (hk : 0 < k) (h : n < 10 ^ k) : (asc (toString n)).length ≤ k := by
  rw [asc_nat, List.length_map]
  exact (Nat.length_toDigits_le_iff (by omega) hk).2 h

theorem decText_length (i : Int) (k : Nat) (hk : 0 < k) (h : i.natAbs < 10 ^ k) : (decText i).length ≤ k + 1 := by
  cases i with
  | ofNat n => have := asc_nat_length n k hk h; exact Nat.le_succ_of_le this
  | negSucc n =>
    rw [decText_negSucc]
    have := asc_nat_length (n + 1) k hk h
    simpa using this

/-- The two's complement value lies in the range of its type. -/
theorem twos_range (w n : Nat) (hw : 0 < w) (hn : n < 2 ^ w) : -(2 ^ (w - 1) : Nat) ≤ twos w n ∧ twos w n < (2 ^ (w - 1) : Nat) := by
  have e : 2 ^ w = 2 * 2 ^ (w - 1) := by
    obtain ⟨k, rfl⟩ : ∃ k, w = k + 1 := ⟨w - 1, by omega⟩
    rw [Nat.pow_succ, Nat.add_sub_cancel]; omega
  unfold twos
  have e2 : ((2 : Int) ^ w) = ((2 ^ w : Nat) : Int) := by simp
  rw [e2]
  split <;> omega

/-- **C75** The text printed for an integer cell is an integer literal that denotes the stored value. -/
theorem C75_denotes (L : Libc) (n : Nat) :
    IntLit (showVal L .int32 (some (.num n))) (twos 32 n) ∧ IntLit (showVal L .int64 (some (.num n))) (twos 64 n) :=
  ⟨decText_intLit _, decText_intLit _⟩

/-- **C75** Reading the printed text of a 32-bit integer gives the value back, except for the least one. -/
theorem C75_int32_reread (L : Libc) (lanes : Nat) (n : Nat) (hn : n < 2 ^ 32) (hmin : twos 32 n ≠ -2147483648) :
    parseInt32Simd lanes (showVal L .int32 (some (.num n))) = .ok (twos 32 n) := by
  obtain ⟨h1, h2⟩ := twos_range 32 n (by omega) hn
  refine ((C19_parse_int32 lanes _).1 _).2 ⟨(C75_denotes L n).1, ?_, ?_, ?_⟩
  · exact decText_length _ 10 (by omega) (by omega)
  · omega
  · omega

/-- **C75** The same for 64-bit integers. -/
theorem C75_int64_reread (L : Libc) (lanes : Nat) (n : Nat) (hn : n < 2 ^ 64) (hmin : twos 64 n ≠ -9223372036854775808) :
    parseInt64Simd lanes (showVal L .int64 (some (.num n))) = .ok (twos 64 n) := by
  obtain ⟨h1, h2⟩ := twos_range 64 n (by omega) hn
  refine ((C20_parse_int64 lanes _).1 _).2 ⟨(C75_denotes L n).2, ?_, ?_, ?_⟩
  · exact decText_length _ 19 (by omega) (by omega)
  · omega
  · omega

/-- What the C library prints for dates and times of the years 1000 to 9999 in UTC: day `n` of the calendar, counted
from 0001-01-01, starts at second `(n - 719162) * 86400`.  (Earlier years have fewer than four digits: `%Y` does not
pad.) -/
structure LibcCalendar (L : Libc) : Prop where
  date : ∀ n : Nat, 1000 ≤ (firstDay.after n).year → (firstDay.after n).year ≤ 9999 →
    L.fmtDate (((n : Int) - 719162) * 86400) = (firstDay.after n).text 45
  time : ∀ n s : Nat, 1000 ≤ (firstDay.after n).year → (firstDay.after n).year ≤ 9999 → s < 86400 →
    L.fmtTime (((n : Int) - 719162) * 86400 + s) =
      (firstDay.after n).text 45 ++ [84] ++ show2 (s / 3600) ++ [58] ++ show2 (s / 60 % 60) ++ [58] ++ show2 (s % 60)

/-- **C75** Reading the printed text of a date of the years 1000 to 9999 gives the stored day back. -/
theorem C75_date_reread (L : Libc) (hL : LibcCalendar L) (bits n : Nat) (hb : twos 32 bits = (n : Int) - 719162)
    (h1 : 1000 ≤ (firstDay.after n).year) (h2 : (firstDay.after n).year ≤ 9999) :
    parseDate (showVal L .date (some (.num bits))) = some (twos 32 bits) := by
  show parseDate (L.fmtDate (twos 32 bits * 86400)) = _
  rw [hb, hL.date n h1 h2]
  exact C21_day_numbers n 45 (.inl rfl) h2

/-- **C75** Reading the printed text of a time of the years 1000 to 9999 gives the stored microseconds back if they are
whole seconds.  Missing: fractions of a second are not printed (`C75_fraction_refuted`). -/
theorem C75_timestamp_reread_partial (L : Libc) (hL : LibcCalendar L) (bits n s : Nat) (hs : s < 86400)
    (hb : twos 64 bits = (((n : Int) - 719162) * 86400 + s) * 1000000)
    (h1 : 1000 ≤ (firstDay.after n).year) (h2 : (firstDay.after n).year ≤ 9999) :
    parseTimestamp (showVal L .timestamp (some (.num bits))) = some (twos 64 bits) := by
  show parseTimestamp (L.fmtTime ((twos 64 bits).tdiv 1000000)) = _
  have e : (twos 64 bits).tdiv 1000000 = ((n : Int) - 719162) * 86400 + s := by
    rw [hb]
    exact Int.mul_tdiv_cancel _ (by decide)
  rw [e, hL.time n s h1 h2 hs]
  obtain ⟨days, h3, h4⟩ := C22_value ⟨firstDay.after n, 84, s / 3600, s / 60 % 60, s % 60, none, .none⟩
    ⟨(after_inv n).1, h2, .inl rfl, by dsimp only; omega, by dsimp only; omega, by dsimp only; omega, by simp, trivial⟩ 45 (.inl rfl)
  have h5 : parseDate ((firstDay.after n).text 45) = some ((n : Int) - 719162) := C21_day_numbers n 45 (.inl rfl) h2
  have h3 : parseDate ((firstDay.after n).text 45) = some days := h3
  rw [h5] at h3
  have h3 := Option.some.inj h3
  subst h3
  simp only [Stamp.text, fracText, Zone.text, List.append_nil] at h4
  rw [h4, hb]
  simp only [Stamp.timeMicros, fracValue, Zone.minutes]
  congr 1
  omega

/-- **C75 finding** Fractions of a second are not printed, and times before 1970 are rounded up: half a second before
and after the epoch look like the epoch itself. -/
theorem C75_fraction_refuted (L : Libc) :
    showVal L .timestamp (some (.num 500000)) = showVal L .timestamp (some (.num 0)) ∧
    twos 64 (2 ^ 64 - 500000) = -500000 ∧
    showVal L .timestamp (some (.num (2 ^ 64 - 500000))) = showVal L .timestamp (some (.num 0)) :=
  ⟨by show L.fmtTime ((twos 64 500000).tdiv 1000000) = L.fmtTime ((twos 64 0).tdiv 1000000)
      rw [show (twos 64 500000).tdiv 1000000 = (twos 64 0).tdiv 1000000 by decide +kernel], by decide +kernel,
   by show L.fmtTime ((twos 64 (2 ^ 64 - 500000)).tdiv 1000000) = L.fmtTime ((twos 64 0).tdiv 1000000)
      rw [show (twos 64 (2 ^ 64 - 500000)).tdiv 1000000 = (twos 64 0).tdiv 1000000 by decide +kernel]⟩

/-- **C75** Truth values are printed as words that are read as the same truth values. -/
theorem C75_bool_reread (L : Libc) (lanes : Nat) (isFloat : Bytes → Bool) (b : Bool) :
    storeText lanes isFloat .bool (showVal L .bool (some (.bool b))) = .bool b := by
  cases b
  · show (if boolText false ∈ trueTokens then Stored.bool true else if boolText false ∈ falseTokens then .bool false else .null) = _
    decide +kernel
  · show (if boolText true ∈ trueTokens then Stored.bool true else if boolText true ∈ falseTokens then .bool false else .null) = _
    decide +kernel

/-- -2147483647 and 12. -/
example (L : Libc) : twos 32 2147483649 = -2147483647 ∧
    parseInt32Simd 32 (showVal L .int32 (some (.num 2147483649))) = .ok (-2147483647) := by
  have h : twos 32 2147483649 = -2147483647 := by decide +kernel
  exact ⟨h, h ▸ C75_int32_reread L 32 2147483649 (by decide) (by decide +kernel)⟩

/-- A library that prints dates and times by the calendar. -/
def calendarLibc : Libc where
  fmtDouble := fun _ => []
  fmtDate := fun t => (firstDay.after (t / 86400 + 719162).toNat).text 45
  fmtTime := fun t => (firstDay.after (t / 86400 + 719162).toNat).text 45 ++ [84] ++ show2 ((t % 86400).toNat / 3600) ++ [58] ++
    show2 ((t % 86400).toNat / 60 % 60) ++ [58] ++ show2 ((t % 86400).toNat % 60)

/-- The contract can be met. -/
example : LibcCalendar calendarLibc where
  date := by
    intro n _ _
    show (firstDay.after _).text 45 = _
    have : (((n : Int) - 719162) * 86400 / 86400 + 719162).toNat = n := by omega
    rw [this]
  time := by
    intro n s _ _ hs
    show (firstDay.after _).text 45 ++ _ ++ _ ++ _ ++ _ ++ _ ++ _ = _
    have h1 : ((((n : Int) - 719162) * 86400 + s) / 86400 + 719162).toNat = n := by omega
    have h2 : ((((n : Int) - 719162) * 86400 + s) % 86400).toNat = s := by omega
    rw [h1, h2]

end Vroom
