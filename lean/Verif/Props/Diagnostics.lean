import Verif.Model.Diagnostics
import Verif.Lemmas.DecText
/-
C74: the texts made from parse errors lose nothing.
-/
namespace Vroom
open Spec

/-- The message and the context of an error consist of one line each. -/
def Diag.OneLine (e : Diag) : Prop := (10 : UInt8) ∉ e.message ∧ (10 : UInt8) ∉ e.context

theorem cut_eq {x : UInt8} {a b r s : Bytes} (h : a ++ x :: r = b ++ x :: s) (ha : x ∉ a) (hb : x ∉ b) : a = b ∧ r = s := by
  induction a generalizing b with
  | nil =>
    cases b with
    | nil => simpa using h
    | cons y b =>
      simp only [List.nil_append, List.cons_append, List.cons.injEq] at h
      exact absurd (by simp [h.1]) hb
  | cons y a ih =>
    cases b with
    | nil =>
      simp only [List.nil_append, List.cons_append, List.cons.injEq] at h
      exact absurd (by simp [h.1]) ha
    | cons z b =>
      simp only [List.cons_append, List.cons.injEq] at h
      obtain ⟨h1, h2⟩ := ih h.2 (fun hx => ha (by simp [hx])) (fun hx => hb (by simp [hx]))
      exact ⟨by rw [h.1, h1], h2⟩

theorem digits_no (n : Nat) (x : UInt8) (hx : ¬ IsDigit x) : x ∉ asc (toString n) := fun h => hx (asc_nat_digits n x h)

theorem severity_inj (a b : Severity) (h : a.name = b.name) : a = b := by
  cases a <;> cases b <;> first | rfl | (exfalso; revert h; decide +kernel)

theorem code_inj (a b : ErrCode) (h : a.name = b.name) : a = b := by
  cases a <;> cases b <;> first | rfl | (exfalso; revert h; decide +kernel)

theorem severity_no (a : Severity) : (93 : UInt8) ∉ a.name ∧ (10 : UInt8) ∉ a.name := by cases a <;> decide +kernel

theorem code_no (a : ErrCode) : (32 : UInt8) ∉ a.name := by cases a <;> decide +kernel

/-- The part behind the message, with the line end of the list. -/
def ctxTail (context r : Bytes) : Bytes := if context ≠ [] then asc "  Context: " ++ context ++ 10 :: r else r

theorem text_parts (e : Diag) (r : Bytes) : e.text ++ 10 :: r =
    91 :: (e.severity.name ++ 93 :: 32 :: (e.code.name ++ 32 :: (asc "at line " ++ (asc (toString e.line) ++ 44 :: (asc " column " ++
      (asc (toString e.column) ++ 32 :: (asc "(byte " ++ (asc (toString e.offset) ++ 41 :: (asc ": " ++ (e.message ++ 10 :: ctxTail e.context r)))))))))) := by
  unfold Diag.text ctxTail
  have e1 : asc "[" = [91] := by decide +kernel
  have e2 : asc "] " = [93, 32] := by decide +kernel
  have e3 : asc " at line " = 32 :: asc "at line " := by decide +kernel
  have e4 : asc ", column " = 44 :: asc " column " := by decide +kernel
  have e5 : asc " (byte " = 32 :: asc "(byte " := by decide +kernel
  have e6 : asc "): " = 41 :: asc ": " := by decide +kernel
  have e7 : asc "\n  Context: " = 10 :: asc "  Context: " := by decide +kernel
  rw [e1, e2, e3, e4, e5, e6, e7]
  by_cases h : e.context = [] <;> simp [h, List.append_assoc]

/-- One error text followed by a line end can be told apart from what follows, which is not a context line. -/
theorem text_inj (e1 e2 : Diag) (r1 r2 : Bytes) (h1 : e1.OneLine) (h2 : e2.OneLine) (n1 : ¬ [32, 32, 67] <+: r1) (n2 : ¬ [32, 32, 67] <+: r2)
    (h : e1.text ++ 10 :: r1 = e2.text ++ 10 :: r2) : e1 = e2 ∧ r1 = r2 := by
  rw [text_parts, text_parts] at h
  have h := (List.cons.inj h).2
  obtain ⟨hs, h⟩ := cut_eq h (severity_no _).1 (severity_no _).1
  have h := (List.cons.inj h).2
  obtain ⟨hc, h⟩ := cut_eq h (code_no _) (code_no _)
  have h := List.append_cancel_left h
  obtain ⟨hl, h⟩ := cut_eq h (digits_no _ _ (by decide)) (digits_no _ _ (by decide))
  have h := List.append_cancel_left h
  obtain ⟨hcol, h⟩ := cut_eq h (digits_no _ _ (by decide)) (digits_no _ _ (by decide))
  have h := List.append_cancel_left h
  obtain ⟨ho, h⟩ := cut_eq h (digits_no _ _ (by decide)) (digits_no _ _ (by decide))
  have h := List.append_cancel_left h
  obtain ⟨hm, h⟩ := cut_eq h h1.1 h2.1
  have ctx : ∀ c r, [32, 32, 67] <+: asc "  Context: " ++ c ++ 10 :: r := by
    intro c r
    have e7 : asc "  Context: " = [32, 32, 67] ++ asc "ontext: " := by decide +kernel
    rw [e7, List.append_assoc, List.append_assoc]
    exact List.prefix_append _ _
  have key : e1.context = e2.context ∧ r1 = r2 := by
    unfold ctxTail at h
    by_cases c1 : e1.context = [] <;> by_cases c2 : e2.context = []
    · rw [if_neg (by simp [c1]), if_neg (by simp [c2])] at h
      exact ⟨by rw [c1, c2], h⟩
    · rw [if_neg (by simp [c1]), if_pos c2] at h
      exact absurd (h ▸ ctx _ _) n1
    · rw [if_pos c1, if_neg (by simp [c2])] at h
      exact absurd (h ▸ ctx _ _) n2
    · rw [if_pos c1, if_pos c2, List.append_assoc, List.append_assoc] at h
      exact cut_eq (List.append_cancel_left h) h1.2 h2.2
  refine ⟨?_, key.2⟩
  cases e1; cases e2
  simp only [Diag.mk.injEq]
  exact ⟨code_inj _ _ hc, severity_inj _ _ hs, asc_nat_inj _ _ hl, asc_nat_inj _ _ hcol, asc_nat_inj _ _ ho, hm, key.1⟩

/-- **C74** The text of an error determines its severity, code, line, column, byte offset, message and context, if the
message and the context are single lines. -/
theorem C74_error_text (e1 e2 : Diag) (h1 : e1.OneLine) (h2 : e2.OneLine) (h : e1.text = e2.text) : e1 = e2 :=
  (text_inj e1 e2 [] [] h1 h2 (by simp) (by simp) (by rw [h])).1

/-- The text of the doubled-up case: a message that contains a line end can look like a context. -/
example : ({ code := .ioError, severity := .fatal, line := 1, column := 1, offset := 0, message := asc "a\n  Context: b" } : Diag).text =
    ({ code := .ioError, severity := .fatal, line := 1, column := 1, offset := 0, message := asc "a", context := asc "b" } : Diag).text := by
  decide +kernel

/-- A list of marked lines. -/
theorem list_inj (pre : Bytes) (hpre : ∀ e : Diag, ∀ r, ¬ [32, 32, 67] <+: pre ++ e.text ++ r) : ∀ (es fs : List Diag),
    (∀ e ∈ es, e.OneLine) → (∀ e ∈ fs, e.OneLine) →
    (es.map (fun e => pre ++ e.text ++ [LF])).flatten = (fs.map (fun e => pre ++ e.text ++ [LF])).flatten → es = fs := by
  have nz : ∀ l : List Diag, ¬ [32, 32, 67] <+: (l.map (fun e => pre ++ e.text ++ [LF])).flatten := by
    intro l
    cases l with
    | nil => simp
    | cons e l =>
      rw [List.map_cons, List.flatten_cons, List.append_assoc]
      exact hpre e _
  have ne : ∀ (e : Diag) (l : List Diag), ((e :: l).map (fun e => pre ++ e.text ++ [LF])).flatten ≠ [] := by
    intro e l; simp
  intro es
  induction es with
  | nil =>
    intro fs _ _ h
    cases fs with
    | nil => rfl
    | cons f fs => exact absurd h.symm (ne f fs)
  | cons e es ih =>
    intro fs h1 h2 h
    cases fs with
    | nil => exact absurd h (ne e es)
    | cons f fs =>
      rw [List.map_cons, List.flatten_cons, List.map_cons, List.flatten_cons] at h
      have h : pre ++ (e.text ++ 10 :: (es.map (fun e => pre ++ e.text ++ [LF])).flatten)
          = pre ++ (f.text ++ 10 :: (fs.map (fun e => pre ++ e.text ++ [LF])).flatten) := by
        simpa [List.append_assoc, LF] using h
      have h := List.append_cancel_left h
      obtain ⟨h3, h4⟩ := text_inj e f _ _ (h1 e (by simp)) (h2 f (by simp)) (nz es) (nz fs) h
      rw [h3, ih fs (fun x hx => h1 x (by simp [hx])) (fun x hx => h2 x (by simp [hx])) h4]

theorem text_head (e : Diag) : ∃ t, e.text = 91 :: t := by
  unfold Diag.text
  have e1 : asc "[" = [91] := by decide +kernel
  rw [e1]
  exact ⟨_, by simp only [List.append_assoc, List.singleton_append]; rfl⟩

theorem details_inj (es fs : List Diag) (h1 : ∀ e ∈ es, e.OneLine) (h2 : ∀ e ∈ fs, e.OneLine)
    (h : (es.map (fun e => e.text ++ [LF])).flatten = (fs.map (fun e => e.text ++ [LF])).flatten) : es = fs := by
  apply list_inj [] _ es fs h1 h2 (by simpa using h)
  intro e r
  obtain ⟨t, ht⟩ := text_head e
  rw [ht]
  simp

theorem head_no_lf (es : List Diag) : (10 : UInt8) ∉ summaryHead es := by
  have hd : ∀ n : Nat, (10 : UInt8) ∉ asc (toString n) := fun n => digits_no n _ (by decide)
  have a1 : (10 : UInt8) ∉ asc "Total errors: " := by decide +kernel
  have a2 : (10 : UInt8) ∉ asc " (Warnings: " := by decide +kernel
  have a3 : (10 : UInt8) ∉ asc ", Errors: " := by decide +kernel
  have a4 : (10 : UInt8) ∉ asc ", Fatal: " := by decide +kernel
  have a5 : (10 : UInt8) ∉ asc ")" := by decide +kernel
  have nif : ∀ (P : Prop) [Decidable P] (t : Bytes), (10 : UInt8) ∉ t → (10 : UInt8) ∉ (if P then t else []) := by
    intro P _ t ht
    split
    · exact ht
    · simp
  unfold summaryHead
  dsimp only
  simp only [List.mem_append, not_or]
  refine ⟨⟨⟨⟨⟨a1, hd _⟩, nif _ _ ?_⟩, nif _ _ ?_⟩, nif _ _ ?_⟩, nif _ _ a5⟩ <;>
    simp only [List.mem_append, not_or]
  · exact ⟨a2, hd _⟩
  · exact ⟨a3, hd _⟩
  · exact ⟨a4, hd _⟩

/-- **C74** The summary of a collector says "No errors" exactly if no error was recorded and none suppressed. -/
theorem C74_no_errors (es : List Diag) (suppressed : Nat) : summaryText es suppressed = asc "No errors" ↔ es = [] ∧ suppressed = 0 := by
  constructor
  · intro h
    by_cases hc : es = [] ∧ suppressed = 0
    · exact hc
    · exfalso
      unfold summaryText at h
      rw [if_neg hc] at h
      unfold summaryHead at h
      dsimp only at h
      have e1 : asc "Total errors: " = 84 :: asc "otal errors: " := by decide +kernel
      have e2 : asc "No errors" = 78 :: asc "o errors" := by decide +kernel
      rw [e1, e2] at h
      simp only [List.cons_append, List.append_assoc, List.cons.injEq] at h
      exact absurd h.1 (by decide)
  · intro h
    unfold summaryText
    rw [if_pos h]

/-- **C74** The summary determines the recorded errors, in their order, and the number of suppressed ones. -/
theorem C74_summary (es fs : List Diag) (m n : Nat) (h1 : ∀ e ∈ es, e.OneLine) (h2 : ∀ e ∈ fs, e.OneLine)
    (h : summaryText es m = summaryText fs n) : es = fs ∧ m = n := by
  by_cases c1 : es = [] ∧ m = 0
  · have := (C74_no_errors fs n).1 (h ▸ (C74_no_errors es m).2 c1)
    exact ⟨c1.1.trans this.1.symm, c1.2.trans this.2.symm⟩
  by_cases c2 : fs = [] ∧ n = 0
  · have := (C74_no_errors es m).1 (h ▸ (C74_no_errors fs n).2 c2)
    exact ⟨this.1.trans c2.1.symm, this.2.trans c2.2.symm⟩
  have el : asc "\nError limit reached: " = 10 :: asc "Error limit reached: " := by decide +kernel
  have el2 : asc "Error limit reached: " = 69 :: asc "rror limit reached: " := by decide +kernel
  have ed : asc "\n\nDetails:\n" = 10 :: 10 :: asc "Details:\n" := by decide +kernel
  have ea : asc " additional error" = 32 :: asc "additional error" := by decide +kernel
  -- the part behind the first line, without its line end
  let tail := fun (es : List Diag) (m : Nat) =>
    (if m > 0 then asc "Error limit reached: " ++ (asc (toString m) ++ 32 :: (asc "additional error" ++ ((if m = 1 then [] else asc "s") ++ (asc " suppressed" ++
      (if es ≠ [] then 10 :: 10 :: (asc "Details:\n" ++ (es.map (fun e => e.text ++ [LF])).flatten) else [])))))
     else 10 :: (asc "Details:\n" ++ (es.map (fun e => e.text ++ [LF])).flatten) : Bytes)
  have shape : ∀ es m, ¬ (es = [] ∧ m = 0) → summaryText es m = summaryHead es ++ 10 :: tail es m := by
    intro es m hc
    unfold summaryText
    rw [if_neg hc, el, ed, ea]
    show _ = summaryHead es ++ 10 :: (if m > 0 then _ else _)
    by_cases hm : m > 0
    · rw [if_pos hm, if_pos hm]
      simp only [List.append_assoc, List.cons_append]
    · have he : es ≠ [] := fun he => hc ⟨he, by omega⟩
      rw [if_neg hm, if_neg hm, if_pos he]
      simp only [List.append_assoc, List.cons_append, List.nil_append]
  rw [shape es m c1, shape fs n c2] at h
  have h := (cut_eq h (head_no_lf _) (head_no_lf _)).2
  have h : (if m > 0 then _ else _ : Bytes) = (if n > 0 then _ else _ : Bytes) := h
  by_cases hm : m > 0 <;> by_cases hn : n > 0
  · rw [if_pos hm, if_pos hn] at h
    have h := List.append_cancel_left h
    obtain ⟨hmn, h⟩ := cut_eq h (digits_no _ _ (by decide)) (digits_no _ _ (by decide))
    have hmn := asc_nat_inj _ _ hmn
    subst hmn
    refine ⟨?_, rfl⟩
    have h := List.append_cancel_left (List.append_cancel_left (List.append_cancel_left h))
    by_cases e1 : es = [] <;> by_cases e2 : fs = []
    · rw [e1, e2]
    · rw [if_neg (by simp [e1]), if_pos e2] at h
      exact absurd h (by simp)
    · rw [if_pos e1, if_neg (by simp [e2])] at h
      exact absurd h (by simp)
    · rw [if_pos e1, if_pos e2] at h
      have h := List.append_cancel_left (List.cons.inj (List.cons.inj h).2).2
      exact details_inj es fs h1 h2 h
  · rw [if_pos hm, if_neg hn, el2] at h
    exact absurd (List.cons.inj h).1 (by decide)
  · rw [if_neg hm, if_pos hn, el2] at h
    exact absurd (List.cons.inj h).1 (by decide)
  · rw [if_neg hm, if_neg hn] at h
    have h := List.append_cancel_left (List.cons.inj h).2
    exact ⟨details_inj es fs h1 h2 h, by omega⟩

/-- **C74** The text of an exception made from two or more errors determines them. -/
theorem C74_exception_partial (es fs : List Diag) (h1 : ∀ e ∈ es, e.OneLine) (h2 : ∀ e ∈ fs, e.OneLine) (l1 : 2 ≤ es.length) (l2 : 2 ≤ fs.length)
    (h : exceptionText es = exceptionText fs) : es = fs := by
  have shape : ∀ es : List Diag, 2 ≤ es.length → exceptionText es = asc "Multiple parse errors (" ++ (asc (toString es.length) ++ 41 :: (asc ":\n" ++
      (es.map (fun e => asc "  - " ++ e.text ++ [LF])).flatten)) := by
    intro es hl
    match es, hl with
    | e :: f :: es, _ =>
      have e1 : asc "):\n" = 41 :: asc ":\n" := by decide +kernel
      unfold exceptionText
      dsimp only
      rw [e1]
      simp only [List.append_assoc, List.cons_append]
  rw [shape es l1, shape fs l2] at h
  have h := List.append_cancel_left h
  have h := (cut_eq h (digits_no _ _ (by decide)) (digits_no _ _ (by decide))).2
  have h := List.append_cancel_left h
  apply list_inj (asc "  - ") _ es fs h1 h2 h
  intro e r
  have e1 : asc "  - " = [32, 32, 45, 32] := by decide +kernel
  rw [e1]
  simp

/-- **C74 finding** The text of an exception made from one error does not tell where the error is. -/
theorem C74_exception_refuted : ¬ ∀ es fs : List Diag, (∀ e ∈ es, e.OneLine) → (∀ e ∈ fs, e.OneLine) → exceptionText es = exceptionText fs → es = fs := by
  intro h
  have := h [{ code := .ioError, severity := .fatal, line := 1, column := 1, offset := 0, message := asc "bad" }]
    [{ code := .unclosedQuote, severity := .warning, line := 2, column := 1, offset := 9, message := asc "bad" }]
    (by simp only [List.mem_singleton, forall_eq]; unfold Diag.OneLine; decide +kernel)
    (by simp only [List.mem_singleton, forall_eq]; unfold Diag.OneLine; decide +kernel) rfl
  simp at this

/-- How many errors of a severity there are. -/
def howMany (s : Severity) (es : List Diag) : Nat := es.countP (fun e => e.severity = s)

theorem severityCounts_eq (es : List Diag) : severityCounts es = (howMany .warning es, howMany .recoverable es, howMany .fatal es) := by
  unfold howMany
  induction es with
  | nil => rfl
  | cons e es ih =>
    rw [severityCounts, ih]
    simp only [List.countP_cons]
    cases e.severity <;> simp

/-- **C74** `error_summary` of a conversion: the numbers of fatal errors, errors and warnings that are not zero, in this
order, separated by commas; together they are all the errors. -/
theorem C74_error_summary (es : List Diag) (hne : es ≠ []) :
    errorSummary es = (asc ", ").intercalate (([(howMany .fatal es, asc " fatal"), (howMany .recoverable es, asc " errors"), (howMany .warning es, asc " warnings")].filter
      (fun p => decide (p.1 > 0))).map (fun p => asc (toString p.1) ++ p.2)) ∧
    howMany .fatal es + howMany .recoverable es + howMany .warning es = es.length := by
  constructor
  · unfold errorSummary
    rw [if_neg hne, severityCounts_eq]
    dsimp only
    have hz : ∀ n : Nat, asc n.repr ≠ [] := asc_nat_ne
    generalize howMany .fatal es = f
    generalize howMany .recoverable es = r
    generalize howMany .warning es = w
    by_cases hf : f > 0 <;> by_cases hr : r > 0 <;> by_cases hw : w > 0 <;>
      simp [hf, hr, hw, hz, List.intercalate]
  · unfold howMany
    clear hne
    induction es with
    | nil => rfl
    | cons e es ih =>
      simp only [List.countP_cons, List.length_cons]
      cases e.severity <;> simp <;> omega

/-- **C74** The first line of the summary: the number of recorded errors, then the numbers of warnings, errors and fatal errors that
are not zero. -/
theorem C74_first_line (es : List Diag) (hne : es ≠ []) (m : Nat) :
    ∃ rest, summaryText es m = asc "Total errors: " ++ (asc (toString es.length) ++
      ((([(howMany .warning es, asc " (Warnings: "), (howMany .recoverable es, asc ", Errors: "), (howMany .fatal es, asc ", Fatal: ")].filter
        (fun p => decide (p.1 > 0))).map (fun p => p.2 ++ asc (toString p.1))).flatten ++ (asc ")" ++ LF :: rest))) := by
  have hpos : howMany .warning es > 0 ∨ howMany .recoverable es > 0 ∨ howMany .fatal es > 0 := by
    have := (C74_error_summary es hne).2
    have : es.length > 0 := List.length_pos_iff.2 hne
    omega
  have el : asc "\nError limit reached: " = LF :: asc "Error limit reached: " := by decide +kernel
  have ed : asc "\n\nDetails:\n" = LF :: asc "\nDetails:\n" := by decide +kernel
  unfold summaryText summaryHead
  rw [if_neg (fun h => hne h.1), severityCounts_eq]
  dsimp only
  rw [if_pos hpos, if_pos hne, el, ed]
  generalize howMany .fatal es = f
  generalize howMany .recoverable es = r
  generalize howMany .warning es = w
  by_cases hm : m > 0 <;> by_cases hf : f > 0 <;> by_cases hr : r > 0 <;> by_cases hw : w > 0 <;>
      simp [hf, hr, hw, hm, List.append_assoc]

/-- Two warnings and a fatal error. -/
example : summaryHead [{ code := .nullByte, severity := .warning, line := 1, column := 1, offset := 0, message := [] },
    { code := .ioError, severity := .fatal, line := 1, column := 1, offset := 0, message := [] },
    { code := .nullByte, severity := .warning, line := 1, column := 1, offset := 0, message := [] }] =
    asc "Total errors: 3 (Warnings: 2, Fatal: 1)" := by decide +kernel

/-- One fatal error and two warnings. -/
example : errorSummary [{ code := .ioError, severity := .fatal, line := 1, column := 1, offset := 0, message := [] },
    { code := .nullByte, severity := .warning, line := 1, column := 1, offset := 0, message := [] },
    { code := .nullByte, severity := .warning, line := 1, column := 1, offset := 0, message := [] }] = asc "1 fatal, 2 warnings" := by decide +kernel

/-- **C74 finding** The parentheses of the summary do not match if there are no warnings. -/
theorem C74_parentheses_refuted : ¬ ∀ (es : List Diag) (n : Nat),
    (∀ e ∈ es, ∀ c ∈ e.message ++ e.context, c ≠ 40 ∧ c ≠ 41) → (summaryText es n).count 40 = (summaryText es n).count 41 := by
  intro h
  have := h [{ code := .nullByte, severity := .recoverable, line := 3, column := 1, offset := 9, message := asc "NUL" }] 0 (by decide +kernel)
  revert this
  decide +kernel

/-- The summary of that case. -/
example : summaryText [{ code := .nullByte, severity := .recoverable, line := 3, column := 1, offset := 9, message := asc "NUL" }] 0 =
    asc "Total errors: 1, Errors: 1)\n\nDetails:\n[ERROR] NULL_BYTE at line 3, column 1 (byte 9): NUL\n" := by decide +kernel

end Vroom
