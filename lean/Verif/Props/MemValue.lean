import Verif.Lemmas.MemDates
import Verif.Props.Atoi
/-
C84: parsing a value never reads outside it and never overflows, except for the smallest integer.
-/
namespace Vroom
open Mem Spec

/-- C84: `int32`.  With vectors of at most 64 bytes and `len` readable bytes, the call has undefined behaviour exactly when those
bytes are a literal of -2147483648, and otherwise returns exactly the number of a literal strictly above that. -/
theorem C84_int32_partial {lanes : Nat} (hl : lanes ≤ 64) {p : Bytes} {len : Nat} (hs : len ≤ p.length) :
    (parseInt32M lanes p len = none ↔ IntLit (p.take len) (-2147483648) ∧ len ≤ 11) ∧
    (∀ v : Int, parseInt32M lanes p len = some (some v) ↔
      IntLit (p.take len) v ∧ len ≤ 11 ∧ -2147483648 < v ∧ v < 2147483648) := by
  have h := parseInt32_eq hl hs
  have hlen : (p.take len).length = len := by rw [List.length_take]; omega
  have h19 := C19_parse_int32 lanes (p.take len)
  rw [← h, hlen] at h19
  obtain ⟨h1, h2⟩ := h19
  cases hr : parseInt32M lanes p len with
  | none => simp only [hr, outcome] at h1 h2; exact ⟨by simpa using h2, fun v => by simpa using h1 v⟩
  | some o =>
    cases o with
    | none => simp only [hr, outcome] at h1 h2; exact ⟨by simpa using h2, fun v => by simpa using h1 v⟩
    | some w => simp only [hr, outcome] at h1 h2; exact ⟨by simpa using h2, fun v => by simpa using h1 v⟩

/-- C84: `int64`, the same. -/
theorem C84_int64_partial {lanes : Nat} (hl : lanes ≤ 64) {p : Bytes} {len : Nat} (hs : len ≤ p.length) :
    (parseInt64M lanes p len = none ↔ IntLit (p.take len) (-9223372036854775808) ∧ len ≤ 20) ∧
    (∀ v : Int, parseInt64M lanes p len = some (some v) ↔
      IntLit (p.take len) v ∧ len ≤ 20 ∧ -9223372036854775808 < v ∧ v < 9223372036854775808) := by
  have h := parseInt64_eq hl hs
  have hlen : (p.take len).length = len := by rw [List.length_take]; omega
  have h19 := C20_parse_int64 lanes (p.take len)
  rw [← h, hlen] at h19
  obtain ⟨h1, h2⟩ := h19
  cases hr : parseInt64M lanes p len with
  | none => simp only [hr, outcome] at h1 h2; exact ⟨by simpa using h2, fun v => by simpa using h1 v⟩
  | some o =>
    cases o with
    | none => simp only [hr, outcome] at h1 h2; exact ⟨by simpa using h2, fun v => by simpa using h1 v⟩
    | some w => simp only [hr, outcome] at h1 h2; exact ⟨by simpa using h2, fun v => by simpa using h1 v⟩

/-- C84: nothing depends on what lies behind the value: two buffers that agree on the first `len` bytes give the same answer. -/
theorem C84_integers_local {lanes : Nat} (hl : lanes ≤ 64) {p q : Bytes} {len : Nat} (hp : len ≤ p.length) (hq : len ≤ q.length)
    (h : p.take len = q.take len) :
    outcome (parseInt32M lanes p len) = outcome (parseInt32M lanes q len) ∧
    outcome (parseInt64M lanes p len) = outcome (parseInt64M lanes q len) := by
  rw [parseInt32_eq hl hp, parseInt32_eq hl hq, parseInt64_eq hl hp, parseInt64_eq hl hq, h]
  exact ⟨rfl, rfl⟩

/-- C84: `parse_date` is defined on every string: every index is inside the string or the month table, every `int` operation fits;
and its answer is that of the arithmetic on unbounded integers (C21). -/
theorem C84_date (v : Bytes) : parseDateM v = some (parseDate v) := parseDate_eq v

/-- C84: `parse_timestamp` likewise (C22), with its `int64_t` arithmetic. -/
theorem C84_timestamp (v : Bytes) : parseTimestampM v = some (parseTimestamp v) := parseTimestamp_eq v

/-- C84 in full: integer parsing is defined on every text and every vector size. -/
def C84_full : Prop := ∀ (lanes : Nat) (p : Bytes) (len : Nat), len ≤ p.length →
  parseInt32M lanes p len ≠ none ∧ parseInt64M lanes p len ≠ none

/-- It is false of the code, because of the smallest number … -/
theorem C84_minimum_refuted : ¬ C84_full := by
  intro h
  exact (h 16 [45, 50, 49, 52, 55, 52, 56, 51, 54, 52, 56] 11 (by decide)).1 (by decide +kernel)

/-- … and with vectors of more than 64 bytes (a target Highway supports, scalable up to 256): nine digits overrun the 64-byte arrays. -/
theorem C84_wide_vectors_refuted :
    parseInt64M 128 [49, 50, 51, 52, 53, 54, 55, 56, 57] 9 = none ∧
    parseInt64M 64 [49, 50, 51, 52, 53, 54, 55, 56, 57] 9 = some (some 123456789) := by decide +kernel

/-- Non-vacuity: the checks are real — one byte too many is an out-of-bounds read — and a proper value passes them. -/
example : parseInt32M 32 [45, 49, 50] 4 = none ∧ parseInt32M 32 [45, 49, 50] 3 = some (some (-12)) ∧
    parseInt64M 32 [49, 50, 51, 52, 53, 54, 55, 56, 57, 48, 120] 11 = some none := by decide +kernel
/-- Non-vacuity: 2024-02-29 and 2024-02-29T12:00:00.25+01:00. -/
example : parseDateM [50,48,50,52,45,48,50,45,50,57] = some (some 19782) ∧
    parseTimestampM [50,48,50,52,45,48,50,45,50,57,84,49,50,58,48,48,58,48,48,46,50,53,43,48,49,58,48,48] =
      some (some 1709204400250000) := by decide +kernel

end Vroom
