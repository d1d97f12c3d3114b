import Verif.Lemmas.Dialect
import Mathlib.Tactic.ByContra

/-!
Skipping of comment lines, and line endings.
-/
namespace Vroom
open Spec

theorem dropWhile_nil_iff (p : UInt8 → Bool) (r : List UInt8) : r.dropWhile p = [] ↔ ∀ x ∈ r, p x = true := by
  induction r with
  | nil => simp
  | cons c r ih =>
    rw [List.dropWhile_cons]
    by_cases h : p c = true
    · rw [if_pos h, ih]; simp [h]
    · rw [if_neg h]; simp [h]

theorem takeWhile_all (p : UInt8 → Bool) (r : List UInt8) : ∀ x ∈ r.takeWhile p, p x = true := by
  induction r with
  | nil => simp
  | cons c r ih =>
    rw [List.takeWhile_cons]
    by_cases h : p c = true
    · rw [if_pos h]; simpa [h] using ih
    · rw [if_neg h]; simp

/-- Space or tab. -/
def isInkless (c : UInt8) : Bool := c == 32 || c == 9

theorem textLines_cons (rest : List UInt8) (h : rest ≠ []) :
    textLines rest = rest.take (skipLine rest) :: textLines (rest.drop (skipLine rest)) := by
  fun_induction textLines rest with
  | case1 => exact absurd rfl h
  | case2 rest ih => simp [skipLine]
  | case3 c rest h1 h2 =>
    have : skipLine (c :: rest) = 1 := by
      rw [skipLine.eq_def]
      split
      · simp at *
      · rename_i he; injection he with e1 e2; subst e1 e2; exact absurd rfl (h1 _ rfl)
      · rename_i he; injection he with e1 e2; subst e1 e2
        rw [if_pos (by simpa using h2)]
    rw [this]; simp
  | case4 c rest h1 h2 he ih =>
    have hr : rest = [] := by
      by_contra hr
      rw [ih hr] at he; simp at he
    subst hr
    simp [skipLine, textLines]
  | case5 c rest h1 h2 l ls he ih =>
    have hr : rest ≠ [] := by intro hr; subst hr; simp [textLines] at he
    have : skipLine (c :: rest) = skipLine rest + 1 := by
      rw [skipLine.eq_def]
      split
      · simp at *
      · rename_i he; injection he with e1 e2; subst e1; simp at h2
      · rename_i he; injection he with e1 e2; subst e1 e2
        rw [if_neg (by simpa using h2)]
    rw [this, List.take_succ_cons, List.drop_succ_cons]
    have := ih hr
    rw [he] at this
    injection this with e1 e2
    rw [e1, e2]

theorem blanks_cons (c : UInt8) (r : List UInt8) : blanks (c :: r) = if isInkless c = true then blanks r + 1 else 0 := by
  unfold blanks isInkless
  rw [List.takeWhile_cons]
  by_cases h : (c == 32 || c == 9) = true
  · rw [if_pos h, if_pos h]; rfl
  · rw [if_neg h, if_neg h]; rfl

theorem drop_blanks (r : List UInt8) : r.drop (blanks r) = r.dropWhile isInkless := by
  induction r with
  | nil => rfl
  | cons c r ih =>
    rw [blanks_cons, List.dropWhile_cons]
    by_cases h : isInkless c = true
    · rw [if_pos h, if_pos h, List.drop_succ_cons, ih]
    · rw [if_neg h, if_neg h]; rfl

theorem skip_blanks (r : List UInt8) : skipLine r = blanks r + skipLine (r.drop (blanks r)) := by
  induction r with
  | nil => rfl
  | cons c r ih =>
    rw [blanks_cons]
    by_cases h : isInkless c = true
    · rw [if_pos h, List.drop_succ_cons]
      have : skipLine (c :: r) = skipLine r + 1 := by
        have hc : c = 32 ∨ c = 9 := by simpa [isInkless] using h
        rcases hc with rfl | rfl <;> simp [skipLine]
      rw [this, ih]; omega
    · rw [if_neg h]; simp

theorem firstInk_line (r : List UInt8) (c : UInt8) (t : List UInt8) (h : r.drop (blanks r) = c :: t) : firstInk (r.take (skipLine r)) = some c := by
  have hp : 0 < skipLine (c :: t) := skipLine_pos _ (by simp)
  rw [skip_blanks r, h]
  have hr : r = r.take (blanks r) ++ c :: t := by rw [← h, List.take_append_drop]
  have htw : r.take (blanks r) = r.takeWhile isInkless := by
    have h1 := drop_blanks r
    have h2 := List.takeWhile_append_dropWhile (p := isInkless) (l := r)
    rw [← h1] at h2
    generalize hb : blanks r = b at h2
    have hbl : (r.takeWhile isInkless).length = b := hb
    conv_lhs => rw [← h2]
    exact List.take_left' hbl
  have hlen : (r.takeWhile isInkless).length = blanks r := rfl
  have : r.take (blanks r + skipLine (c :: t)) = r.takeWhile isInkless ++ (c :: t).take (skipLine (c :: t)) := by
    rw [htw] at hr
    generalize blanks r = b at hlen
    generalize r.takeWhile isInkless = B at hr hlen
    rw [hr, List.take_append, List.take_of_length_le (by omega), show b + skipLine (c :: t) - B.length = skipLine (c :: t) by omega]
  rw [this]
  unfold firstInk
  have hb : ∀ x ∈ r.takeWhile isInkless, (fun c => c == 32 || c == 9) x = true := by
    intro x hx
    exact takeWhile_all isInkless r x hx
  rw [List.dropWhile_append_of_pos hb]
  have hnb : isInkless c = false := by
    have h3 : r.dropWhile isInkless = c :: t := by rw [← drop_blanks, h]
    have := List.head?_dropWhile_not isInkless r
    rw [h3] at this
    simpa using this
  obtain ⟨m, hm⟩ : ∃ m, skipLine (c :: t) = m + 1 := ⟨skipLine (c :: t) - 1, by omega⟩
  rw [hm, List.take_succ_cons, List.dropWhile_cons, if_neg]
  · rfl
  · show ¬ (isInkless c = true)
    simp [hnb]

theorem firstInk_blank (r : List UInt8) (h : r.drop (blanks r) = []) (n : Nat) : firstInk (r.take n) = none := by
  rw [drop_blanks, dropWhile_nil_iff] at h
  unfold firstInk
  have : (r.take n).dropWhile (fun c => c == 32 || c == 9) = [] := by
    rw [dropWhile_nil_iff]
    intro x hx
    exact h x (List.mem_of_mem_take hx)
  rw [this]; rfl

theorem all_blank_iff (r : List UInt8) : r.all isInkless = true ↔ r.drop (blanks r) = [] := by
  rw [drop_blanks, dropWhile_nil_iff, List.all_eq_true]

/-- The comment lines at the start of a text. -/
def leadingComments (chars t : List UInt8) : List (List UInt8) := (textLines t).takeWhile (commentLine chars)

theorem skipCommentsLoop_spec (chars : List UInt8) (hz : (0 : UInt8) ∉ chars) :
    ∀ (rest : List UInt8) (off : Nat) (cc : UInt8) (n : Nat),
      skipCommentsLoop chars rest off cc n =
        (off + (if (rest.drop (leadingComments chars rest).flatten.length).all isInkless = true then rest.length else (leadingComments chars rest).flatten.length),
         if cc = 0 then (((leadingComments chars rest).head?.bind firstInk).getD 0) else cc, n + (leadingComments chars rest).length) := by
  intro rest off cc n
  fun_induction skipCommentsLoop chars rest off cc n with
  | case1 off cc n => 
    have : leadingComments chars [] = [] := by simp [leadingComments, textLines]
    rw [this]
    by_cases h : cc = 0 <;> simp [h]
  | case2 rest off cc n h1 k hk =>
    have hl : leadingComments chars rest = [] := by
      unfold leadingComments
      rw [textLines_cons rest h1, List.takeWhile_cons, if_neg]
      rw [commentLine, firstInk_blank rest hk]; simp
    have hb : rest.all isInkless = true := (all_blank_iff rest).2 hk
    rw [hl]
    have hkl : k = rest.length := by
      have h1 := congrArg List.length hk
      have h2 : blanks rest ≤ rest.length := (List.takeWhile_sublist _).length_le
      rw [List.length_drop, List.length_nil] at h1
      show blanks rest = rest.length
      change rest.length - blanks rest = 0 at h1
      omega
    rw [hkl]
    by_cases h : cc = 0 <;> simp [h, hb]
  | case3 rest off cc n h1 k c t hk h2 =>
    have hl : leadingComments chars rest = [] := by
      unfold leadingComments
      rw [textLines_cons rest h1, List.takeWhile_cons, if_neg]
      rw [commentLine, firstInk_line rest c t hk]; simpa using h2
    have hb : ¬ rest.all isInkless = true := by
      rw [all_blank_iff]
      intro h; change rest.drop (blanks rest) = c :: t at hk; rw [h] at hk; simp at hk
    rw [hl]
    simp only [List.flatten_nil, List.length_nil, List.drop_zero, if_neg hb]
    by_cases h : cc = 0 <;> simp [h]
  | case4 rest off cc n h1 b c t hk h2 k ih =>
    have hc : chars.contains c = true := by simpa using h2
    have hc0 : c ≠ 0 := by
      rintro rfl
      exact hz (by simpa using hc)
    have hsk : skipLine rest = k := by rw [skip_blanks rest]; show _ = blanks rest + skipLine (c :: t); rw [← hk]
    clear_value k
    have hl : leadingComments chars rest = rest.take k :: leadingComments chars (rest.drop k) := by
      unfold leadingComments
      rw [textLines_cons rest h1, hsk, List.takeWhile_cons, if_pos]
      rw [commentLine, ← hsk, firstInk_line rest c t hk]; exact hc
    have hkle : k ≤ rest.length := by
      by_contra hh
      have h3 := congrArg List.length (textLines_cons rest h1)
      have h4 : ∀ l : List UInt8, skipLine l ≤ l.length := by
        intro l
        fun_induction skipLine l with
        | case1 => simp
        | case2 => simp
        | case3 => simp
        | case4 => simp_all
      have := h4 rest
      omega
    rw [show (if (cc == 0) = true then c else cc) = (if _h : (cc == 0) = true then c else cc) from rfl, ih, hl]
    have hlen : (rest.take k).length = k := by rw [List.length_take]; omega
    simp only [List.flatten_cons, List.length_append, hlen, List.head?_cons, List.length_cons, Option.bind_some]
    rw [← hsk, firstInk_line rest c t hk, hsk]
    rw [← List.drop_drop]
    refine Prod.ext ?_ (Prod.ext ?_ ?_)
    · simp only [List.length_drop]
      generalize (leadingComments chars (rest.drop k)).flatten.length = m
      by_cases hb : (((rest.drop k).drop m).all isInkless) = true
      · rw [if_pos hb, if_pos hb]; omega
      · rw [if_neg hb, if_neg hb]; omega
    · simp only [Option.getD_some, beq_iff_eq]
      by_cases h : cc = 0
      · simp [h, hc0]
      · simp [h]
    · simp only; omega

/-! ### Line endings -/

theorem hasCRLF_cons (c : UInt8) (r : List UInt8) : HasCRLF (c :: r) ↔ (c = 13 ∧ r.head? = some 10) ∨ HasCRLF r := by
  constructor
  · rintro ⟨i, h1, h2⟩
    cases i with
    | zero => left; simp at h1 h2; exact ⟨h1, by rw [List.head?_eq_getElem?]; exact h2⟩
    | succ i => right; exact ⟨i, by simpa using h1, by simpa using h2⟩
  · rintro (⟨rfl, h⟩ | ⟨i, h1, h2⟩)
    · exact ⟨0, by simp, by rw [List.head?_eq_getElem?] at h; simpa using h⟩
    · exact ⟨i + 1, by simpa using h1, by simpa using h2⟩

theorem hasCR_cons (c : UInt8) (r : List UInt8) : HasCR (c :: r) ↔ (c = 13 ∧ r.head? ≠ some 10) ∨ HasCR r := by
  constructor
  · rintro ⟨i, h1, h2⟩
    cases i with
    | zero => left; simp at h1 h2; exact ⟨h1, by rw [List.head?_eq_getElem?]; exact h2⟩
    | succ i => right; exact ⟨i, by simpa using h1, by simpa using h2⟩
  · rintro (⟨rfl, h⟩ | ⟨i, h1, h2⟩)
    · exact ⟨0, by simp, by rw [List.head?_eq_getElem?] at h; simpa using h⟩
    · exact ⟨i + 1, by simpa using h1, by simpa using h2⟩

theorem hasLF_cons (c : UInt8) (r : List UInt8) (h : c = 13 → r.head? ≠ some 10) : HasLF (c :: r) ↔ c = 10 ∨ HasLF r := by
  constructor
  · rintro ⟨i, h1, h2⟩
    cases i with
    | zero => left; simpa using h1
    | succ i =>
      right
      refine ⟨i, by simpa using h1, ?_⟩
      cases i with
      | zero => left; rfl
      | succ i => right; simpa using h2
  · rintro (rfl | ⟨i, h1, h2⟩)
    · exact ⟨0, by simp, Or.inl rfl⟩
    · refine ⟨i + 1, by simpa using h1, Or.inr ?_⟩
      cases i with
      | zero =>
        intro hc
        simp at hc
        exact h hc (by rw [List.head?_eq_getElem?]; exact h1)
      | succ i => simpa using h2

theorem hasLF_crlf (r : List UInt8) : HasLF (13 :: 10 :: r) ↔ HasLF r := by
  constructor
  · rintro ⟨i, h1, h2⟩
    match i, h1, h2 with
    | 0, h1, _ => simp at h1
    | 1, _, h2 => simp at h2
    | i + 2, h1, h2 =>
      refine ⟨i, by simpa using h1, ?_⟩
      cases i with
      | zero => left; rfl
      | succ i => right; simpa using h2
  · rintro ⟨i, h1, h2⟩
    refine ⟨i + 2, by simpa using h1, Or.inr ?_⟩
    cases i with
    | zero => simp
    | succ i => simpa using h2

theorem not_hasLF_nil : ¬ HasLF [] := by rintro ⟨i, h, _⟩; simp at h
theorem not_hasCR_nil : ¬ HasCR [] := by rintro ⟨i, h, _⟩; simp at h
theorem not_hasCRLF_nil : ¬ HasCRLF [] := by rintro ⟨i, h, _⟩; simp at h

theorem lineEndingLoop_spec : ∀ (l : List UInt8) (s : Bool × Bool × Bool),
    ((lineEndingLoop l s).1 = true ↔ s.1 = true ∨ HasCRLF l) ∧ ((lineEndingLoop l s).2.1 = true ↔ s.2.1 = true ∨ HasLF l) ∧
      ((lineEndingLoop l s).2.2 = true ↔ s.2.2 = true ∨ HasCR l) := by
  intro l s
  fun_induction lineEndingLoop l s with
  | case1 s => simp [not_hasLF_nil, not_hasCR_nil, not_hasCRLF_nil]
  | case2 rest crlf lf cr ih =>
    obtain ⟨i1, i2, i3⟩ := ih
    refine ⟨?_, ?_, ?_⟩
    · rw [i1, hasCRLF_cons]; simp
    · rw [i2, hasLF_crlf]
    · rw [i3, hasCR_cons, hasCR_cons]; simp
  | case3 c rest crlf lf cr h1 h2 ih =>
    simp only [beq_iff_eq] at h2
    subst h2
    have hh : rest.head? ≠ some 10 := by
      intro h
      cases rest with
      | nil => simp at h
      | cons a r => simp at h; subst h; exact h1 r rfl rfl
    obtain ⟨i1, i2, i3⟩ := ih
    refine ⟨?_, ?_, ?_⟩
    · rw [i1, hasCRLF_cons]; simp [hh]
    · rw [i2, hasLF_cons 13 rest (fun _ => hh)]; simp
    · rw [i3, hasCR_cons]; simp [hh]
  | case4 c rest crlf lf cr h1 h2 h3 ih =>
    simp only [beq_iff_eq] at h3 h2
    obtain ⟨i1, i2, i3⟩ := ih
    refine ⟨?_, ?_, ?_⟩
    · rw [i1, hasCRLF_cons]; simp [h2]
    · rw [i2, hasLF_cons c rest (fun h => absurd h h2)]; simp [h3]
    · rw [i3, hasCR_cons]; simp [h2]
  | case5 c rest crlf lf cr h1 h2 h3 ih =>
    simp only [beq_iff_eq] at h3 h2
    obtain ⟨i1, i2, i3⟩ := ih
    refine ⟨?_, ?_, ?_⟩
    · rw [i1, hasCRLF_cons]; simp [h2]
    · rw [i2, hasLF_cons c rest (fun h => absurd h h2)]; simp [h3]
    · rw [i3, hasCR_cons]; simp [h2]

end Vroom
