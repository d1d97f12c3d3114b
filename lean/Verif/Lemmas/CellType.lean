import Verif.Model.Detect
import Verif.Spec.CellType
import Mathlib.Tactic.Tauto
import Mathlib.Data.List.Basic
/-
Lemmas about cell typing.
-/
namespace Vroom
open Spec

theorem isSpaceC_eq (c : UInt8) : isSpaceLocale c = whiteSpace c := by
  have h : ∀ n : Fin 256, isSpaceLocale (UInt8.ofNat n.val) = whiteSpace (UInt8.ofNat n.val) := by decide +kernel
  have := h ⟨c.toNat, c.toNat_lt⟩
  simpa using this

theorem isDigitC_iff (c : UInt8) : isDigitC c = true ↔ IsDigit c := by
  have h : ∀ n : Fin 256, isDigitC (UInt8.ofNat n.val) = true ↔ IsDigit (UInt8.ofNat n.val) := by decide +kernel
  have := h ⟨c.toNat, c.toNat_lt⟩
  simpa using this

theorem all_digits_iff (s : List UInt8) : s.all isDigitC = true ↔ Digits s := by
  rw [List.all_eq_true]
  exact forall₂_congr fun c _ => isDigitC_iff c

theorem dropWhile_append_white (p : UInt8 → Bool) (a t : List UInt8) (ha : ∀ c ∈ a, p c = true) : (a ++ t).dropWhile p = t.dropWhile p := by
  induction a with
  | nil => rfl
  | cons x a ih =>
    rw [List.cons_append, List.dropWhile_cons_of_pos (ha x (by simp))]
    exact ih (fun c hc => ha c (by simp [hc]))

theorem dropWhile_head (p : UInt8 → Bool) (t : List UInt8) (ht : ∀ c, t.head? = some c → p c = false) : t.dropWhile p = t := by
  cases t with
  | nil => rfl
  | cons x t => rw [List.dropWhile_cons_of_neg]; simp [ht x rfl]

theorem head_dropWhile (p : UInt8 → Bool) (t : List UInt8) (c : UInt8) (h : (t.dropWhile p).head? = some c) : p c = false := by
  induction t with
  | nil => simp at h
  | cons x t ih =>
    by_cases hx : p x = true
    · rw [List.dropWhile_cons_of_pos hx] at h; exact ih h
    · rw [List.dropWhile_cons_of_neg hx] at h; simp at h; subst h; simpa using hx

theorem takeWhile_mem (p : UInt8 → Bool) (t : List UInt8) : ∀ c ∈ t.takeWhile p, p c = true := by
  induction t with
  | nil => simp
  | cons x t ih =>
    by_cases hx : p x = true
    · rw [List.takeWhile_cons_of_pos hx]; intro c hc; rcases List.mem_cons.1 hc with rfl | hc
      · exact hx
      · exact ih c hc
    · rw [List.takeWhile_cons_of_neg hx]; simp

/-- Trimming by loops from both ends is the removal of the white space around a text. -/
theorem stripped_iff (p : UInt8 → Bool) (s t : List UInt8) : Stripped p s t ↔ t = trimBy p s := by
  constructor
  · rintro ⟨a, b, rfl, ha, hb, h1, h2⟩
    unfold trimBy
    rw [List.append_assoc, dropWhile_append_white p a _ ha]
    by_cases ht : t = []
    · subst ht
      rw [List.nil_append]
      have : b.dropWhile p = [] := by
        have := dropWhile_append_white p b [] hb
        simpa using this
      rw [this]; rfl
    · rw [dropWhile_head p (t ++ b), List.reverse_append, dropWhile_append_white p b.reverse _ (by simpa using hb),
        dropWhile_head p t.reverse, List.reverse_reverse]
      · intro c hc; rw [List.head?_reverse] at hc; exact h2 c hc
      · intro c hc
        rw [List.head?_append] at hc
        cases t with
        | nil => exact absurd rfl ht
        | cons x t => exact h1 c (by simpa using hc)
  · rintro rfl
    have e1 : s = s.takeWhile p ++ s.dropWhile p := (List.takeWhile_append_dropWhile).symm
    have e2 : s.dropWhile p = trimBy p s ++ ((s.dropWhile p).reverse.takeWhile p).reverse := by
      unfold trimBy
      rw [← List.reverse_append, List.takeWhile_append_dropWhile, List.reverse_reverse]
    refine ⟨s.takeWhile p, ((s.dropWhile p).reverse.takeWhile p).reverse, ?_, takeWhile_mem p s, ?_, ?_, ?_⟩
    · rw [List.append_assoc, ← e2, ← e1]
    · intro c hc; rw [List.mem_reverse] at hc; exact takeWhile_mem p _ c hc
    · intro c hc
      apply head_dropWhile p s c
      rw [e2, List.head?_append, hc]; rfl
    · intro c hc
      unfold trimBy at hc
      rw [List.getLast?_reverse] at hc
      exact head_dropWhile p _ c hc

theorem trimBy_nil_iff (p : UInt8 → Bool) (s : List UInt8) : trimBy p s = [] ↔ ∀ c ∈ s, p c = true := by
  constructor
  · intro h
    obtain ⟨a, b, e, ha, hb, _⟩ := (stripped_iff p s []).2 h.symm
    subst e
    intro c hc
    simp at hc
    exact hc.elim (ha c) (hb c)
  · intro h
    symm
    rw [← stripped_iff]
    exact ⟨s, [], by simp, h, by simp, by simp, by simp⟩

theorem trimBy_space (s : List UInt8) : trimBy isSpaceLocale s = trimBy whiteSpace s := by
  rw [show isSpaceLocale = whiteSpace from funext isSpaceC_eq]

theorem skipSign_cases (s : List UInt8) : (∃ sg, OptSign sg ∧ s = sg ++ skipSign s ∧ (sg = [] → ∀ c, s.head? = some c → c ≠ 43 ∧ c ≠ 45)) := by
  cases s with
  | nil => exact ⟨[], .inl rfl, rfl, by simp⟩
  | cons c r =>
    by_cases h1 : c = 43
    · subst h1; exact ⟨[43], .inr (.inl rfl), by simp [skipSign], by simp⟩
    · by_cases h2 : c = 45
      · subst h2; exact ⟨[45], .inr (.inr rfl), by simp [skipSign], by simp⟩
      · refine ⟨[], .inl rfl, by simp [skipSign, h1, h2], ?_⟩
        intro _ x hx; simp at hx; subst hx; exact ⟨h1, h2⟩

theorem skipSign_append (sg r : List UInt8) (hs : OptSign sg) (hr : ∀ c, r.head? = some c → c ≠ 43 ∧ c ≠ 45) : skipSign (sg ++ r) = r := by
  rcases hs with rfl | rfl | rfl
  · cases r with
    | nil => rfl
    | cons c r => have := hr c rfl; simp [skipSign, this.1, this.2]
  · simp [skipSign]
  · simp [skipSign]

theorem digit_sign {c : UInt8} (h : IsDigit c) : c ≠ 43 ∧ c ≠ 45 ∧ c ≠ 46 ∧ c ≠ 47 ∧ c ≠ 58 ∧ c ≠ 101 ∧ c ≠ 69 := by
  refine ⟨?_, ?_, ?_, ?_, ?_, ?_, ?_⟩ <;> (rintro rfl; simp [IsDigit] at h)

theorem intScan_iff (s : List UInt8) : intScan s = true ↔ ∃ v, IntLit s v := by
  unfold intScan
  dsimp only
  rw [Bool.and_eq_true, all_digits_iff]
  constructor
  · rintro ⟨h1, h2⟩
    obtain ⟨sg, hsg, hs, _⟩ := skipSign_cases s
    have hne : skipSign s ≠ [] := by simpa using h1
    rw [hs]
    generalize skipSign s = r at h2 hne
    rcases hsg with rfl | rfl | rfl
    · exact ⟨_, .bare _ hne h2⟩
    · exact ⟨_, .plus _ hne h2⟩
    · exact ⟨_, .minus _ hne h2⟩
  · rintro ⟨v, h⟩
    cases h with
    | bare _ h1 h2 =>
      have : skipSign s = s := by
        have := skipSign_append [] s (.inl rfl) (fun c hc => ⟨(digit_sign (h2 c (List.mem_of_mem_head? hc))).1, (digit_sign (h2 c (List.mem_of_mem_head? hc))).2.1⟩)
        simpa using this
      rw [this]; exact ⟨by simpa using h1, h2⟩
    | plus ds h1 h2 => exact ⟨by simpa [skipSign] using h1, h2⟩
    | minus ds h1 h2 => exact ⟨by simpa [skipSign] using h1, h2⟩

theorem takeWhile_digits (ds r : List UInt8) (hd : Digits ds) (hr : ∀ c, r.head? = some c → ¬ IsDigit c) :
    (ds ++ r).takeWhile isDigitC = ds ∧ (ds ++ r).dropWhile isDigitC = r := by
  induction ds with
  | nil =>
    cases r with
    | nil => exact ⟨rfl, rfl⟩
    | cons c r =>
      have : ¬ isDigitC c = true := by rw [isDigitC_iff]; exact hr c rfl
      rw [List.nil_append, List.takeWhile_cons_of_neg this, List.dropWhile_cons_of_neg this]
      exact ⟨rfl, rfl⟩
  | cons x ds ih =>
    have h1 : isDigitC x = true := (isDigitC_iff x).2 (hd x (by simp))
    obtain ⟨i1, i2⟩ := ih (fun c hc => hd c (by simp [hc]))
    rw [List.cons_append, List.takeWhile_cons_of_pos h1, List.dropWhile_cons_of_pos h1, i1, i2]
    exact ⟨rfl, rfl⟩

theorem digits_takeWhile (r : List UInt8) : Digits (r.takeWhile isDigitC) := fun c hc => (isDigitC_iff c).1 (takeWhile_mem _ _ c hc)

theorem fracSplit_cases (r : List UInt8) : ∃ fr, r = fr ++ (fracSplit r).2.2 ∧ ((fracSplit r).1 = false ∧ fr = [] ∧ (fracSplit r).2.1 = false ∨
    (fracSplit r).1 = true ∧ Fraction fr ∧ ((fracSplit r).2.1 = true ↔ 2 ≤ fr.length)) := by
  cases r with
  | nil => exact ⟨[], rfl, .inl ⟨rfl, rfl, rfl⟩⟩
  | cons c r =>
    by_cases h : c = 46
    · subst h
      refine ⟨46 :: r.takeWhile isDigitC, ?_, .inr ⟨?_, ⟨_, rfl, digits_takeWhile r⟩, ?_⟩⟩
      · simp [fracSplit]
      · simp [fracSplit]
      · simp only [fracSplit, beq_self_eq_true, if_true]
        cases r.takeWhile isDigitC <;> simp
    · refine ⟨[], ?_, .inl ⟨?_, rfl, ?_⟩⟩ <;> simp [fracSplit, h]

theorem expPart_cases (r : List UInt8) (hv : (expPart r).2.1 = true) : ∃ ex, r = ex ++ (expPart r).2.2 ∧ ((expPart r).1 = false ∧ ex = [] ∨
    (expPart r).1 = true ∧ Exponent ex) := by
  cases r with
  | nil => exact ⟨[], rfl, .inl ⟨rfl, rfl⟩⟩
  | cons c r =>
    by_cases h : c = 101 ∨ c = 69
    · have hc : (c == 101 || c == 69) = true := by simpa using h
      simp only [expPart, hc, if_true] at hv ⊢
      obtain ⟨sg, hsg, hs, _⟩ := skipSign_cases r
      refine ⟨c :: (sg ++ (skipSign r).takeWhile isDigitC), ?_, .inr ⟨trivial, c, sg, _, rfl, h, hsg, by simpa using hv, digits_takeWhile _⟩⟩
      rw [List.cons_append, List.append_assoc, List.takeWhile_append_dropWhile, ← hs]
    · have hc : (c == 101 || c == 69) = false := by simpa using h
      refine ⟨[], ?_, .inl ⟨?_, rfl⟩⟩ <;> simp [expPart, hc]

theorem expPart_of (ex : List UInt8) (h : ex = [] ∨ Exponent ex) : expPart ex = (decide (ex ≠ []), true, []) := by
  rcases h with rfl | ⟨e, sg, ds, rfl, he, hsg, hne, hd⟩
  · rfl
  · have hc : (e == 101 || e == 69) = true := by simpa using he
    have hs : skipSign (sg ++ ds) = ds := skipSign_append sg ds hsg (fun c hc => ⟨(digit_sign (hd c (List.mem_of_mem_head? hc))).1, (digit_sign (hd c (List.mem_of_mem_head? hc))).2.1⟩)
    have ht := takeWhile_digits ds [] hd (by simp)
    rw [List.append_nil] at ht
    simp only [expPart, hc, if_true, hs, ht.1, ht.2]
    cases ds with
    | nil => exact absurd rfl hne
    | cons x ds => simp

theorem not_digit_head_ex (ex : List UInt8) (h : ex = [] ∨ Exponent ex) : ∀ c, ex.head? = some c → ¬ IsDigit c ∧ c ≠ 46 ∧ c ≠ 43 ∧ c ≠ 45 := by
  intro c hc
  rcases h with rfl | ⟨e, sg, ds, rfl, he, _⟩
  · simp at hc
  · simp at hc; subst hc
    rcases he with rfl | rfl <;> simp [IsDigit]

theorem fracSplit_of (fr ex : List UInt8) (h : fr = [] ∨ Fraction fr) (hx : ex = [] ∨ Exponent ex) :
    fracSplit (fr ++ ex) = (decide (fr ≠ []), decide (2 ≤ fr.length), ex) := by
  rcases h with rfl | ⟨ds, rfl, hd⟩
  · rw [List.nil_append]
    cases ex with
    | nil => rfl
    | cons c ex =>
      have := not_digit_head_ex _ hx c rfl
      simp [fracSplit, this.2.1]
  · have ht := takeWhile_digits ds ex hd (fun c hc => (not_digit_head_ex ex hx c hc).1)
    rw [List.cons_append]
    simp only [fracSplit, beq_self_eq_true, if_true, ht.1, ht.2]
    cases ds <;> simp

theorem floatScan_iff (s : List UInt8) : floatScan s = true ↔ DecLit s := by
  constructor
  · intro h
    unfold floatScan at h
    dsimp only at h
    simp only [Bool.and_eq_true] at h
    obtain ⟨⟨⟨hv, hd⟩, hfe⟩, hend⟩ := h
    obtain ⟨sg, hsg, hs, _⟩ := skipSign_cases s
    obtain ⟨fr, hfr, hf⟩ := fracSplit_cases ((skipSign s).dropWhile isDigitC)
    obtain ⟨ex, hex, he⟩ := expPart_cases _ hv
    have hend' : (expPart (fracSplit ((skipSign s).dropWhile isDigitC)).2.2).2.2 = [] := by simpa using hend
    rw [hend', List.append_nil] at hex
    refine ⟨sg, (skipSign s).takeWhile isDigitC, fr, ex, ?_, hsg, digits_takeWhile _, ?_, ?_, ?_, ?_⟩
    · rw [hex] at hfr
      rw [← hfr, List.takeWhile_append_dropWhile]; exact hs
    · rcases hf with ⟨_, h, _⟩ | ⟨_, h, _⟩
      · exact .inl h
      · exact .inr h
    · rcases he with ⟨_, h⟩ | ⟨_, h⟩
      · exact .inl h
      · exact .inr h
    · rw [Bool.or_eq_true] at hd
      rcases hd with hd | hd
      · left; simpa using hd
      · right
        rcases hf with ⟨_, _, h⟩ | ⟨_, _, h⟩
        · rw [h] at hd; cases hd
        · exact h.1 hd
    · rw [Bool.or_eq_true] at hfe
      rcases hfe with h | h
      · left
        rcases hf with ⟨h', _⟩ | ⟨_, ⟨ds, h', _⟩, _⟩
        · rw [h'] at h; cases h
        · rw [h']; simp
      · right
        rcases he with ⟨h', _⟩ | ⟨_, ⟨e, sg', ds, h', _⟩⟩
        · rw [h'] at h; cases h
        · rw [h']; simp
  · rintro ⟨sg, ip, fr, ex, rfl, hsg, hip, hfr, hex, hd, hfe⟩
    have hhead : ∀ c, (fr ++ ex).head? = some c → ¬ IsDigit c ∧ c ≠ 43 ∧ c ≠ 45 := by
      intro c hc
      rcases hfr with rfl | ⟨ds, rfl, _⟩
      · have := not_digit_head_ex ex hex c (by simpa using hc)
        exact ⟨this.1, this.2.2⟩
      · simp at hc; subst hc; simp [IsDigit]
    have hs : skipSign (sg ++ (ip ++ (fr ++ ex))) = ip ++ (fr ++ ex) := by
      apply skipSign_append _ _ hsg
      intro c hc
      cases ip with
      | nil => exact (hhead c (by simpa using hc)).2
      | cons x ip => simp at hc; subst hc; have := digit_sign (hip x (by simp)); exact ⟨this.1, this.2.1⟩
    have ht := takeWhile_digits ip (fr ++ ex) hip (fun c hc => (hhead c hc).1)
    unfold floatScan
    dsimp only
    rw [hs, ht.1, ht.2, fracSplit_of fr ex hfr hex, expPart_of ex hex]
    simp only [Bool.and_eq_true, Bool.or_eq_true, decide_eq_true_eq, List.isEmpty_nil, and_true, true_and]
    refine ⟨?_, hfe⟩
    rcases hd with h | h
    · left; simpa using h
    · right; exact h

theorem two_digits {s : List UInt8} (h : Digits2 s) : ∃ a b, s = [a, b] ∧ IsDigit a ∧ IsDigit b := by
  obtain ⟨h1, h2⟩ := h
  match s, h1 with
  | [a, b], _ => exact ⟨a, b, rfl, h2 a (by simp), h2 b (by simp)⟩

theorem four_digits {s : List UInt8} (h : Digits4 s) : ∃ a b c d, s = [a, b, c, d] ∧ IsDigit a ∧ IsDigit b ∧ IsDigit c ∧ IsDigit d := by
  obtain ⟨h1, h2⟩ := h
  match s, h1 with
  | [a, b, c, d], _ => exact ⟨a, b, c, d, rfl, h2 a (by simp), h2 b (by simp), h2 c (by simp), h2 d (by simp)⟩

theorem digits2_mk {a b : UInt8} (ha : IsDigit a) (hb : IsDigit b) : Digits2 [a, b] := by
  refine ⟨rfl, ?_⟩
  intro d hd; simp at hd; rcases hd with rfl | rfl <;> assumption

theorem digits4_mk {a b c e : UInt8} (ha : IsDigit a) (hb : IsDigit b) (hc : IsDigit c) (he : IsDigit e) : Digits4 [a, b, c, e] := by
  refine ⟨rfl, ?_⟩
  intro d hd; simp at hd; rcases hd with rfl | rfl | rfl | rfl <;> assumption

theorem dateScan_iff (s : List UInt8) : dateScan s = true ↔ DateText s := by
  constructor
  · intro h
    unfold dateScan at h
    split at h
    · rename_i a0 a1 a2 a3 a4 a5 a6 a7 a8 a9
      simp only [Bool.or_eq_true, Bool.and_eq_true, isDigitC_iff, beq_iff_eq] at h
      rcases h with h | h
      · obtain ⟨⟨⟨⟨⟨⟨⟨⟨⟨h0, h1⟩, h2⟩, h3⟩, h4⟩, h5⟩, h6⟩, h7⟩, h8⟩, h9⟩ := h
        subst h7
        exact ⟨_, [a0, a1, a2, a3], [a5, a6], [a8, a9], h4, rfl, digits2_mk h5 h6, .inl ⟨digits4_mk h0 h1 h2 h3, digits2_mk h8 h9⟩⟩
      · obtain ⟨⟨⟨⟨⟨⟨⟨⟨⟨h0, h1⟩, h2⟩, h3⟩, h4⟩, h5⟩, h6⟩, h7⟩, h8⟩, h9⟩ := h
        subst h5
        exact ⟨_, [a0, a1], [a3, a4], [a6, a7, a8, a9], h2, rfl, digits2_mk h3 h4, .inr ⟨digits2_mk h0 h1, digits4_mk h6 h7 h8 h9⟩⟩
    · cases h
  · rintro ⟨sep, x, y, z, hsep, rfl, hy, h⟩
    obtain ⟨y0, y1, rfl, hy0, hy1⟩ := two_digits hy
    rcases h with ⟨hx, hz⟩ | ⟨hx, hz⟩
    · obtain ⟨x0, x1, x2, x3, rfl, h0, h1, h2, h3⟩ := four_digits hx
      obtain ⟨z0, z1, rfl, h4, h5⟩ := two_digits hz
      simp [dateScan, isDigitC_iff, *]
    · obtain ⟨x0, x1, rfl, h0, h1⟩ := two_digits hx
      obtain ⟨z0, z1, z2, z3, rfl, h2, h3, h4, h5⟩ := four_digits hz
      simp [dateScan, isDigitC_iff, *]

theorem timeScan_iff (s : List UInt8) : timeScan s = true ↔ TimeText s := by
  constructor
  · intro h
    unfold timeScan at h
    split at h
    · rename_i a0 a1 a2 a3 a4
      simp only [Bool.and_eq_true, isDigitC_iff, beq_iff_eq] at h
      obtain ⟨⟨⟨⟨h0, h1⟩, h2⟩, h3⟩, h4⟩ := h
      subst h2
      exact ⟨[a0, a1], [a3, a4], digits2_mk h0 h1, digits2_mk h3 h4, .inl rfl⟩
    · rename_i a0 a1 a2 a3 a4 a5 a6 a7
      simp only [Bool.and_eq_true, isDigitC_iff, beq_iff_eq] at h
      obtain ⟨⟨⟨⟨⟨⟨⟨h0, h1⟩, h2⟩, h3⟩, h4⟩, h5⟩, h6⟩, h7⟩ := h
      subst h2 h5
      exact ⟨[a0, a1], [a3, a4], digits2_mk h0 h1, digits2_mk h3 h4, .inr ⟨[a6, a7], digits2_mk h6 h7, rfl⟩⟩
    · cases h
  · rintro ⟨h, m, hh, hm, rfl | ⟨sec, hs, rfl⟩⟩
    · obtain ⟨x0, x1, rfl, h0, h1⟩ := two_digits hh
      obtain ⟨y0, y1, rfl, h2, h3⟩ := two_digits hm
      simp [timeScan, isDigitC_iff, *]
    · obtain ⟨x0, x1, rfl, h0, h1⟩ := two_digits hh
      obtain ⟨y0, y1, rfl, h2, h3⟩ := two_digits hm
      obtain ⟨z0, z1, rfl, h4, h5⟩ := two_digits hs
      simp [timeScan, isDigitC_iff, *]

theorem boolScan_iff (s : List UInt8) : boolScan s = true ↔ BoolText s := by
  simp [boolScan, BoolText, or_assoc]

theorem int_not_bool {s : List UInt8} (h : intScan s = true) : boolScan s = false := by
  cases hb : boolScan s with
  | false => rfl
  | true =>
    rw [boolScan_iff] at hb
    rcases hb with rfl | rfl | rfl | rfl | rfl | rfl <;> revert h <;> decide +kernel

theorem float_not_bool {s : List UInt8} (h : floatScan s = true) : boolScan s = false := by
  cases hb : boolScan s with
  | false => rfl
  | true =>
    rw [boolScan_iff] at hb
    rcases hb with rfl | rfl | rfl | rfl | rfl | rfl <;> revert h <;> decide +kernel

theorem date_not_bool {s : List UInt8} (h : dateScan s = true) : boolScan s = false := by
  cases hb : boolScan s with
  | false => rfl
  | true =>
    rw [boolScan_iff] at hb
    rcases hb with rfl | rfl | rfl | rfl | rfl | rfl <;> revert h <;> decide +kernel

theorem time_not_bool {s : List UInt8} (h : timeScan s = true) : boolScan s = false := by
  cases hb : boolScan s with
  | false => rfl
  | true =>
    rw [boolScan_iff] at hb
    rcases hb with rfl | rfl | rfl | rfl | rfl | rfl <;> revert h <;> decide +kernel

theorem float_not_int {s : List UInt8} (h : floatScan s = true) : intScan s = false := by
  cases hb : intScan s with
  | false => rfl
  | true =>
    unfold intScan at hb
    dsimp only at hb
    rw [Bool.and_eq_true, all_digits_iff] at hb
    have ht := takeWhile_digits (skipSign s) [] hb.2 (by simp)
    rw [List.append_nil] at ht
    unfold floatScan at h
    dsimp only at h
    rw [ht.1, ht.2] at h
    simp [fracSplit, expPart] at h

/-- A text that starts with a digit whose digits are followed by a byte other than `.`, `e`, `E` is no number. -/
theorem not_number (ds r : List UInt8) (c : UInt8) (hne : ds ≠ []) (hd : Digits ds) (hc : ¬ IsDigit c) (h1 : c ≠ 46) (h2 : c ≠ 101) (h3 : c ≠ 69) :
    intScan (ds ++ c :: r) = false ∧ floatScan (ds ++ c :: r) = false := by
  have hs : skipSign (ds ++ c :: r) = ds ++ c :: r := by
    cases ds with
    | nil => exact absurd rfl hne
    | cons x ds =>
      have := digit_sign (hd x (by simp))
      simp [skipSign, this.1, this.2.1]
  have ht := takeWhile_digits ds (c :: r) hd (by intro x hx; simp at hx; subst hx; exact hc)
  constructor
  · unfold intScan
    dsimp only
    rw [hs]
    have : (ds ++ c :: r).all isDigitC = false := by
      rw [List.all_eq_false]
      exact ⟨c, by simp, by rw [isDigitC_iff]; exact hc⟩
    rw [this, Bool.and_false]
  · unfold floatScan
    dsimp only
    rw [hs, ht.1, ht.2]
    simp [fracSplit, expPart, h1, h2, h3]

theorem date_not_number {s : List UInt8} (h : dateScan s = true) : intScan s = false ∧ floatScan s = false := by
  rw [dateScan_iff] at h
  obtain ⟨sep, x, y, z, hsep, rfl, hy, h⟩ := h
  have hx : x ≠ [] ∧ Digits x := by
    rcases h with ⟨⟨h1, h2⟩, _⟩ | ⟨⟨h1, h2⟩, _⟩ <;> exact ⟨by rintro rfl; simp at h1, h2⟩
  apply not_number x _ sep hx.1 hx.2 <;> rcases hsep with rfl | rfl <;> simp [IsDigit]

theorem time_not_number {s : List UInt8} (h : timeScan s = true) : intScan s = false ∧ floatScan s = false := by
  rw [timeScan_iff] at h
  obtain ⟨x, m, ⟨h1, h2⟩, hm, h⟩ := h
  have hx : x ≠ [] := by rintro rfl; simp at h1
  rcases h with rfl | ⟨sec, _, rfl⟩ <;> apply not_number x _ 58 hx h2 <;> simp [IsDigit]

theorem time_not_date {s : List UInt8} (h : timeScan s = true) : dateScan s = false := by
  unfold timeScan at h
  split at h
  · rfl
  · rfl
  · cases h

theorem scan_ne {s : List UInt8} (h : boolScan s = true ∨ intScan s = true ∨ floatScan s = true ∨ dateScan s = true ∨ timeScan s = true) : s.isEmpty = false := by
  cases s with
  | nil => revert h; decide +kernel
  | cons => rfl

/-- The kind of a trimmed cell other than a date-time. -/
theorem inferGo_simple (fuel : Nat) (s : List UInt8) :
    (inferGo fuel s = .EMPTY ↔ trimBy isSpaceLocale s = []) ∧
    (inferGo fuel s = .BOOLEAN ↔ boolScan (trimBy isSpaceLocale s) = true) ∧
    (inferGo fuel s = .INTEGER ↔ intScan (trimBy isSpaceLocale s) = true) ∧
    (inferGo fuel s = .FLOAT ↔ floatScan (trimBy isSpaceLocale s) = true) ∧
    (inferGo fuel s = .DATE ↔ dateScan (trimBy isSpaceLocale s) = true) ∧
    (inferGo fuel s = .TIME ↔ timeScan (trimBy isSpaceLocale s) = true) := by
  rw [inferGo.eq_def]
  dsimp only
  generalize trimBy isSpaceLocale s = t
  have hne := @scan_ne t
  by_cases h0 : t.isEmpty = true
  · rw [if_pos h0]
    have h0' : t = [] := by simpa using h0
    subst h0'
    decide +kernel
  have ht : t ≠ [] := by simpa using h0
  rw [if_neg h0]
  by_cases h1 : boolScan t = true
  · rw [if_pos h1]
    have a := @int_not_bool t
    have b := @float_not_bool t
    have c := @date_not_bool t
    have d := @time_not_bool t
    cases e1 : intScan t <;> cases e2 : floatScan t <;> cases e3 : dateScan t <;> cases e4 : timeScan t <;> simp_all
  rw [if_neg h1]
  by_cases h2 : intScan t = true
  · rw [if_pos h2]
    have b := @float_not_int t
    have c := @date_not_number t
    have d := @time_not_number t
    cases e2 : floatScan t <;> cases e3 : dateScan t <;> cases e4 : timeScan t <;> simp_all
  rw [if_neg h2]
  by_cases h3 : floatScan t = true
  · rw [if_pos h3]
    have c := @date_not_number t
    have d := @time_not_number t
    cases e3 : dateScan t <;> cases e4 : timeScan t <;> simp_all
  rw [if_neg h3]
  by_cases h4 : dateScan t = true
  · rw [if_pos h4]
    have d := @time_not_date t
    cases e4 : timeScan t <;> simp_all
  rw [if_neg h4]
  by_cases h5 : timeScan t = true
  · rw [if_pos h5]; simp_all
  rw [if_neg h5]
  have key : ∀ k : CellType, (k = .DATETIME ∨ k = .STRING) →
      (k = .EMPTY ↔ t = []) ∧ (k = .BOOLEAN ↔ boolScan t = true) ∧ (k = .INTEGER ↔ intScan t = true) ∧ (k = .FLOAT ↔ floatScan t = true) ∧
      (k = .DATE ↔ dateScan t = true) ∧ (k = .TIME ↔ timeScan t = true) := by
    rintro k (rfl | rfl) <;> simp [ht, h1, h2, h3, h4, h5]
  apply key
  cases fuel with
  | zero => right; rfl
  | succ n =>
    dsimp only
    by_cases g1 : t.length ≥ 16
    · rw [if_pos g1]
      cases sepPos t with
      | none => right; rfl
      | some p =>
        dsimp only
        by_cases g2 : p ≥ 8
        · rw [if_pos g2]
          split <;> simp
        · rw [if_neg g2]; right; rfl
    · rw [if_neg g1]; right; rfl

end Vroom
