import Verif.Props.Detect
import Verif.Props.DialectText
/-
C77: what else a detection result says.
-/
namespace Vroom
open Spec

theorem report_comment (A : ScoreFns) (sort : List DialectCandidate → List DialectCandidate) (o : DetectOptions) (buf : List UInt8) :
    (detect A sort o buf).comment = (skipCommentLines o buf).2.1 ∧ (detect A sort o buf).commentLines = (skipCommentLines o buf).2.2 := by
  by_cases h : buf = []
  · subst h; simp [detect, skipCommentLines]
  · have hne : ¬ buf.isEmpty = true := by simpa using h
    unfold detect
    rw [if_neg hne]
    dsimp only
    generalize skipCommentLines o buf = c
    by_cases h2 : (buf.drop c.1).isEmpty = true
    · rw [if_pos h2]; exact ⟨rfl, rfl⟩
    · rw [if_neg h2]
      cases sort (scoredCandidates A o _) with
      | nil => exact ⟨rfl, rfl⟩
      | cons best others => dsimp only; split <;> exact ⟨rfl, rfl⟩

/-- **C77** Detection reports the comment character of the first leading comment line and how many such lines there are, whatever follows them. -/
theorem C77_report_comments (A : ScoreFns) (sort : List DialectCandidate → List DialectCandidate) (o : DetectOptions)
    (hz : (0 : UInt8) ∉ o.commentChars) (hne : o.commentChars ≠ []) (buf : List UInt8) :
    let lead := (textLines buf).takeWhile (commentLine o.commentChars)
    (detect A sort o buf).comment = (lead.head?.bind firstInk).getD 0 ∧ (detect A sort o buf).commentLines = lead.length := by
  intro lead
  obtain ⟨h1, h2⟩ := report_comment A sort o buf
  obtain ⟨_, h3, h4⟩ := C48_skip o hz hne buf
  exact ⟨h1.trans h3, h2.trans h4⟩

/-- **C77** The warning says what went wrong: `emptyInput` exactly for an empty input; `onlyComments` exactly if nothing but comment lines (or blanks)
is left; `undetected` exactly if there are data but no candidate with a positive score came first; `ambiguous` exactly if the second of the ranked
candidates scores more than nine tenths of the first. In every other case there is no warning, and without a warning the confidence is positive. -/
theorem C77_report_warning (A : ScoreFns) (sort : List DialectCandidate → List DialectCandidate) (o : DetectOptions) (buf : List UInt8) :
    let r := detect A sort o buf
    let data := buf.drop (skipCommentLines o buf).1
    (r.warning = .emptyInput ↔ buf = []) ∧
    (r.warning = .onlyComments ↔ buf ≠ [] ∧ data = []) ∧
    (r.warning = .undetected ↔ data ≠ [] ∧ r.confidence = 0) ∧
    (r.warning = .ambiguous ↔ 0 < r.confidence ∧ ∃ a b rest, r.candidates = a :: b :: rest ∧ 9 / 10 * r.confidence < b.score) ∧
    (r.warning = .none → 0 < r.confidence) ∧
    (data ≠ [] → r.candidates = sort (scoredCandidates A o (sampleOf o buf)) ∧ r.lineEnding = detectLineEnding (sampleOf o buf)) := by
  intro r data
  have hs : data.take (sampleLen o data) = sampleOf o buf := rfl
  by_cases hb : buf = []
  · have hd : data = [] := by simp [data, hb]
    have hr : r = { warning := .emptyInput } := by simp only [r, detect]; rw [if_pos (by simp [hb])]
    rw [hr]; simp [hb, hd]
  · have hne : ¬ buf.isEmpty = true := by simpa using hb
    by_cases h2 : data = []
    · have hr : r = { comment := (skipCommentLines o buf).2.1, commentLines := (skipCommentLines o buf).2.2, warning := .onlyComments } := by
        simp only [r, detect]
        rw [if_neg hne, if_pos (by simpa [data] using h2)]
      rw [hr]; simp [hb, h2]
    · have hdne : ¬ (buf.drop (skipCommentLines o buf).1).isEmpty = true := by simpa [data] using h2
      have hr : r = detect A sort o buf := rfl
      unfold detect at hr
      rw [if_neg hne] at hr
      dsimp only at hr
      rw [if_neg hdne] at hr
      have hs' : (buf.drop (skipCommentLines o buf).1).take (sampleLen o (buf.drop (skipCommentLines o buf).1)) = sampleOf o buf := rfl
      rw [hs'] at hr
      generalize sampleOf o buf = s at hr ⊢
      cases hc : sort (scoredCandidates A o s) with
      | nil =>
        rw [hc] at hr
        rw [hr]
        simp [hb, h2]
      | cons best others =>
        rw [hc] at hr
        dsimp only at hr
        by_cases h3 : best.score > 0
        · rw [if_pos h3] at hr
          have h3' : best.score ≠ 0 := by intro h; rw [h] at h3; exact lt_irrefl _ h3
          rw [hr]
          cases others with
          | nil => simp [hb, h2, h3, h3']
          | cons b rest =>
            by_cases h4 : b.score > 9 / 10 * best.score
            · simp only [if_pos h4]
              simp [hb, h2, h3, h3']
              exact h4
            · simp only [if_neg h4]
              simp [hb, h2, h3, h3']
              exact not_lt.1 h4
        · rw [if_neg h3] at hr
          rw [hr]; simp [hb, h2]

/-- The three comment lines of this input are reported, then two rows follow. -/
example : (detect (detectFns sqrtApprox firstModal) sortCandidates {} [35, 97, 10, 35, 10, 32, 35, 10, 97, 44, 98, 10, 49, 44, 50, 10]).commentLines = 3 ∧
    (detect (detectFns sqrtApprox firstModal) sortCandidates {} [35, 97, 10]).warning = .onlyComments := by decide +kernel

/-- **C79** `validate` throws exactly if delimiter and quote are equal or one of them is a line end. -/
theorem C79_validate_iff (d : Dialect) : d.validates = true ↔
    d.delimiter ≠ d.quote ∧ d.delimiter ≠ 10 ∧ d.delimiter ≠ 13 ∧ d.quote ≠ 10 ∧ d.quote ≠ 13 := by
  simp [Dialect.validates]
  tauto

/-- **C79** The predefined dialects are what their names say: quotes are doubled `"`, and the delimiters are `,`, tab, `;` and `|`. -/
theorem C79_named (c : UInt8) :
    (∀ d ∈ [Dialect.csv, Dialect.tsv, Dialect.semicolon, Dialect.pipe, Dialect.csvWithComments c], d.quote = 34 ∧ d.doubleQuote = true) ∧
    [Dialect.csv, Dialect.tsv, Dialect.semicolon, Dialect.pipe, Dialect.csvWithComments c].map (fun d => d.delimiter) = asc ",\t;|," ∧
    [Dialect.csv, Dialect.tsv, Dialect.semicolon, Dialect.pipe, Dialect.csvWithComments c].map (fun d => d.comment) = [0, 0, 0, 0, c] := by
  refine ⟨?_, by show [44, 9, 59, 124, 44] = asc ",\t;|,"; decide +kernel, rfl⟩
  intro d hd
  simp only [List.mem_cons, List.not_mem_nil, or_false] at hd
  rcases hd with rfl | rfl | rfl | rfl | rfl <;> exact ⟨rfl, rfl⟩

end Vroom
