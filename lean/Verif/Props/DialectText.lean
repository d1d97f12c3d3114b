import Verif.Model.DialectText
import Verif.Lemmas.Dialect
import Mathlib.Tactic.Tauto
/-
C79: descriptions and validity of dialects.
-/
namespace Vroom
open Spec

theorem ascs : asc "','" = [39, 44, 39] ∧ asc "'\\t'" = [39, 92, 116, 39] ∧ asc "';'" = [39, 59, 39] ∧ asc "'|'" = [39, 124, 39] ∧ asc "':'" = [39, 58, 39] ∧
    asc "'\"'" = [39, 34, 39] ∧ asc "\"'\"" = [34, 39, 34] ∧ asc "none" = [110, 111, 110, 101] ∧ asc "double" = [100, 111, 117, 98, 108, 101] ∧
    asc "backslash" = [98, 97, 99, 107, 115, 108, 97, 115, 104] ∧ asc "}" = [125] ∧ asc "'" = [39] ∧
    asc ", comment='" = [44, 32, 99, 111, 109, 109, 101, 110, 116, 61, 39] := by decide +kernel

/-- Described delimiters do not run into what follows. -/
theorem delimText_eq (c : UInt8) : delimText c = if c = 9 then [39, 92, 116, 39] else [39, c, 39] := by
  obtain ⟨a1, a2, a3, a4, a5, _⟩ := ascs
  unfold delimText
  rw [a1, a2, a3, a4, a5]
  simp only [beq_iff_eq]
  split
  · rename_i h; subst h; rfl
  · split
    · rfl
    · split
      · rename_i h; subst h; rfl
      · split
        · rename_i h; subst h; rfl
        · split
          · rename_i h; subst h; rfl
          · rfl

theorem delimText_inj {a b : UInt8} {r s : List UInt8} (h : delimText a ++ r = delimText b ++ s) : a = b ∧ r = s := by
  rw [delimText_eq, delimText_eq] at h
  by_cases h1 : a = 9 <;> by_cases h2 : b = 9
  · simp [h1, h2] at h; exact ⟨by rw [h1, h2], h⟩
  · simp [h1, h2] at h
  · simp [h1, h2] at h
  · simp [h1, h2] at h; exact h

theorem quoteText_eq (c : UInt8) : quoteText c = if c = 39 then [34, 39, 34] else if c = 0 then [110, 111, 110, 101] else [39, c, 39] := by
  obtain ⟨_, _, _, _, _, a6, a7, a8, _⟩ := ascs
  unfold quoteText
  rw [a6, a7, a8]
  simp only [beq_iff_eq]
  by_cases h : c = 34
  · subst h; rfl
  · rw [if_neg h]

theorem quoteText_inj {a b : UInt8} {r s : List UInt8} (h : quoteText a ++ r = quoteText b ++ s) : a = b ∧ r = s := by
  rw [quoteText_eq, quoteText_eq] at h
  by_cases h1 : a = 39
  · by_cases h2 : b = 39
    · simp [h1, h2] at h; exact ⟨by rw [h1, h2], h⟩
    · by_cases h3 : b = 0
      · simp [h1, h3] at h
      · simp [h1, h2, h3] at h
  · by_cases h4 : a = 0
    · by_cases h2 : b = 39
      · simp [h4, h2] at h
      · by_cases h3 : b = 0
        · simp [h4, h3] at h; exact ⟨by rw [h4, h3], h⟩
        · simp [h4, h2, h3] at h
    · by_cases h2 : b = 39
      · simp [h1, h4, h2] at h
      · by_cases h3 : b = 0
        · simp [h1, h4, h3] at h
        · simp [h1, h4, h2, h3] at h; exact h

theorem escapeText_eq (d : Dialect) : escapeText d = if d.doubleQuote = true then [100, 111, 117, 98, 108, 101] else
    if d.escape = 92 then [98, 97, 99, 107, 115, 108, 97, 115, 104] else [39, d.escape, 39] := by
  obtain ⟨_, _, _, _, _, _, _, _, a9, a10, _⟩ := ascs
  unfold escapeText
  rw [a9, a10]
  simp only [beq_iff_eq]

theorem escapeText_inj {a b : Dialect} {r s : List UInt8} (h : escapeText a ++ r = escapeText b ++ s) :
    (a.doubleQuote = b.doubleQuote ∧ (a.doubleQuote = false → a.escape = b.escape)) ∧ r = s := by
  rw [escapeText_eq, escapeText_eq] at h
  cases h1 : a.doubleQuote <;> cases h2 : b.doubleQuote <;> by_cases h3 : a.escape = 92 <;> by_cases h4 : b.escape = 92 <;> simp [h1, h2, h3, h4] at h ⊢
  all_goals first | exact h | tauto

theorem append_cancel {p r s : List UInt8} (h : p ++ r = p ++ s) : r = s := List.append_cancel_left h

/-- **C79** The description of a dialect determines it, up to the escape character of a dialect that escapes by doubling. -/
theorem C79_description (a b : Dialect) : a.text = b.text ↔
    a.delimiter = b.delimiter ∧ a.quote = b.quote ∧ a.doubleQuote = b.doubleQuote ∧ (a.doubleQuote = false → a.escape = b.escape) ∧ a.comment = b.comment := by
  constructor
  · intro h
    unfold Dialect.text at h
    have h := append_cancel h
    obtain ⟨h1, h⟩ := delimText_inj h
    have h := append_cancel h
    obtain ⟨h2, h⟩ := quoteText_inj h
    have h := append_cancel h
    obtain ⟨⟨h3, h4⟩, h⟩ := escapeText_inj h
    refine ⟨h1, h2, h3, h4, ?_⟩
    obtain ⟨_, _, _, _, _, _, _, _, _, _, a11, a12, a13⟩ := ascs
    rw [a11, a12, a13] at h
    by_cases c1 : a.comment = 0 <;> by_cases c2 : b.comment = 0 <;> simp [c1, c2] at h ⊢
    exact h
  · rintro ⟨h1, h2, h3, h4, h5⟩
    unfold Dialect.text escapeText
    rw [h1, h2, h3, h5]
    cases hb : b.doubleQuote with
    | true => rfl
    | false => rw [h4 (h3.trans hb)]

/-- The comma dialect with `#` comments. -/
example : (Dialect.csvWithComments 35).text = asc "Dialect{delimiter=',', quote='\"', escape=double, comment='#'}" ∧
    (⟨9, 39, 92, false, 0⟩ : Dialect).text = asc "Dialect{delimiter='\\t', quote=\"'\", escape=backslash}" := by decide +kernel

/-- Characters that may be used: printable ASCII. -/
def Printable (c : UInt8) : Prop := 32 ≤ c.toNat ∧ c.toNat ≤ 126

/-- **C79** A dialect is valid exactly if its delimiter and quote differ, the delimiter is printable or a tab, and the quote is printable. -/
theorem C79_valid (d : Dialect) : d.isValid = true ↔ d.delimiter ≠ d.quote ∧ (d.delimiter = 9 ∨ Printable d.delimiter) ∧ Printable d.quote := by
  have hp : ∀ c : UInt8, (decide (c < 32) || decide (c > 126)) = false ↔ Printable c := by
    intro c
    rw [Bool.or_eq_false_iff, decide_eq_false_iff_not, decide_eq_false_iff_not]
    simp only [Printable, UInt8.not_lt, gt_iff_lt, UInt8.le_iff_toNat_le]
    rfl
  unfold Dialect.isValid
  by_cases h1 : d.delimiter = d.quote
  · simp [h1]
  · rw [if_neg (by simpa using h1)]
    by_cases h2 : d.delimiter = 10 ∨ d.delimiter = 13
    · rw [if_pos (by simpa using h2)]
      constructor
      · intro h; cases h
      · rintro ⟨_, h | h, _⟩ <;> rcases h2 with h2 | h2 <;> rw [h2] at h <;> simp [Printable] at h
    · rw [if_neg (by simpa using h2)]
      by_cases h3 : d.quote = 10 ∨ d.quote = 13
      · rw [if_pos (by simpa using h3)]
        constructor
        · intro h; cases h
        · rintro ⟨_, _, h⟩; rcases h3 with h3 | h3 <;> rw [h3] at h <;> simp [Printable] at h
      · rw [if_neg (by simpa using h3)]
        by_cases h4 : d.delimiter = 9 ∨ Printable d.delimiter
        · rw [if_neg]
          · by_cases h5 : Printable d.quote
            · rw [(hp _).2 h5]; simp [h1, h4, h5]
            · have : (decide (d.quote < 32) || decide (d.quote > 126)) = true := by
                rw [← Bool.not_eq_false]; exact fun h => h5 ((hp _).1 h)
              rw [this]; simp [h5]
          · rcases h4 with h4 | h4
            · simp [h4]
            · rw [(hp _).2 h4]; simp
        · rw [if_pos]
          · simp [h4]
          · simp only [not_or] at h4
            have : (decide (d.delimiter < 32) || decide (d.delimiter > 126)) = true := by
              rw [← Bool.not_eq_false]; exact fun h => h4.2 ((hp _).1 h)
            rw [this]; simp [h4.1]

/-- **C79** `validate` accepts every valid dialect, and the predefined dialects are valid. -/
theorem C79_validate (d : Dialect) (h : d.isValid = true) : d.validates = true := by
  rw [C79_valid] at h
  obtain ⟨h1, h2, h3⟩ := h
  have h4 : d.delimiter ≠ 10 ∧ d.delimiter ≠ 13 := by
    constructor <;> (intro e; rw [e] at h2; simp [Printable] at h2)
  have h5 : d.quote ≠ 10 ∧ d.quote ≠ 13 := by
    constructor <;> (intro e; rw [e] at h3; simp [Printable] at h3)
  simp [Dialect.validates, h1, h4, h5]

theorem C79_factories (c : UInt8) : Dialect.csv.isValid = true ∧ Dialect.tsv.isValid = true ∧ Dialect.semicolon.isValid = true ∧ Dialect.pipe.isValid = true ∧
    (Dialect.csvWithComments c).isValid = true := by
  refine ⟨by decide, by decide, by decide, by decide, ?_⟩
  rw [C79_valid]
  exact ⟨by simp [Dialect.csvWithComments], .inr (by simp [Dialect.csvWithComments, Printable]), by simp [Dialect.csvWithComments, Printable]⟩

/-- **C79 finding** The two checks disagree, and detection itself produces dialects that `is_valid` rejects: those without a quote character. -/
theorem C79_unquoted_refuted : ∃ d ∈ generateCandidates {}, d.isValid = false ∧ d.validates = true :=
  ⟨⟨44, 0, 0, false, 0⟩, by decide, by decide, by decide⟩

/-- **C79** A valid dialect whose escape character (if it uses one) is no delimiter, quote or line end cuts rows and fields as specified in C47. -/
theorem C79_sane (d : Dialect) (h : d.isValid = true)
    (he : d.doubleQuote = false → d.escape ≠ d.quote ∧ d.escape ≠ d.delimiter ∧ d.escape ≠ 10 ∧ d.escape ≠ 13) : d.Sane := by
  rw [C79_valid] at h
  obtain ⟨h1, h2, h3⟩ := h
  refine ⟨fun h => h1 h.symm, ?_, ?_, fun hd _ => (he hd).1, fun hd _ => (he hd).2.1, fun hd => (he hd).2.2.1, fun hd => (he hd).2.2.2⟩
  · intro e; rw [e] at h3; simp [Printable] at h3
  · intro e; rw [e] at h3; simp [Printable] at h3

end Vroom
