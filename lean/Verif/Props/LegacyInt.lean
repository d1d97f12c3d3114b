import Verif.Props.Atoi
/-
C19, C20 for the integer parsers of the legacy column context (fast_column_context.h), characterised exactly.
-/
namespace Vroom.Spec

/-- What `std::from_chars` accepts for a signed type with `lim = 2^(N-1)`: a literal without `+`, in range. -/
def FromCharsLit (lim : Nat) (s : List UInt8) (v : Int) : Prop :=
  IntLit s v ∧ s.head? ≠ some 43 ∧ -(lim : Int) ≤ v ∧ v < lim

/-- A sign followed by a minus sign and exactly `n` digits. -/
inductive TwoSigns (n : Nat) : List UInt8 → Int → Prop
  | minus (ds) : ds.length = n → (∀ d ∈ ds, IsDigit d) → TwoSigns n (45 :: 45 :: ds) (decValue ds)
  | plus (ds) : ds.length = n → (∀ d ∈ ds, IsDigit d) → TwoSigns n (43 :: 45 :: ds) (-(decValue ds : Int))

end Vroom.Spec

namespace Vroom
open Spec

theorem decFold_eq (ds : Bytes) (h : ∀ d ∈ ds, IsDigit d) (a : Nat) :
    ds.foldl (fun a d => a * 10 + (d - 48).toNat) a = ds.foldl (fun a d => a * 10 + (d.toNat - 48)) a := by
  induction ds generalizing a with
  | nil => rfl
  | cons d ds ih =>
    have hd := h d (by simp)
    have hv : (d - 48).toNat = d.toNat - 48 := by
      have := digit_val d hd
      rwa [UInt8.toNat_toUInt64] at this
    rw [List.foldl_cons, List.foldl_cons, hv]
    exact ih (fun x hx => h x (by simp [hx])) _

theorem any_nondigit (ds : Bytes) : (ds.any (fun b => decide (b - 48 > 9)) = true) ↔ ¬ ∀ d ∈ ds, IsDigit d := by
  simp [digit_gt]

theorem not_digit_45 : ¬ IsDigit 45 := by decide
theorem not_digit_43 : ¬ IsDigit 43 := by decide

/-- The model of `std::from_chars` is its contract. -/
theorem C19_from_chars (lim : Nat) (hl : 0 < lim) (s : Bytes) (v : Int) : fromChars lim s = some v ↔ FromCharsLit lim s v := by
  unfold FromCharsLit
  have key : ∀ (neg : Bool) (ds : Bytes), (if ds.length = 0 ∨ ds.any (fun b => decide (b - 48 > 9)) then none
      else
        let v := ds.foldl (fun a d => a * 10 + (d - 48).toNat) 0
        if neg then (if v ≤ lim then some (-(v : Int)) else none) else (if v < lim then some (v : Int) else none)) = some v ↔
      ds ≠ [] ∧ (∀ d ∈ ds, IsDigit d) ∧ v = (if neg then -(decValue ds : Int) else decValue ds) ∧ -(lim : Int) ≤ v ∧ v < lim := by
    intro neg ds
    by_cases h : ds.length = 0 ∨ ds.any (fun b => decide (b - 48 > 9)) = true
    · rw [if_pos h]
      simp only [reduceCtorEq, false_iff]
      rintro ⟨h1, h2, _⟩
      rcases h with h | h
      · exact h1 (List.length_eq_zero_iff.1 h)
      · exact (any_nondigit ds).1 h h2
    · rw [if_neg h]
      have hd : ∀ d ∈ ds, IsDigit d := by
        by_contra hc
        exact h (Or.inr ((any_nondigit ds).2 hc))
      have hne : ds ≠ [] := fun hc => h (Or.inl (by rw [hc]; rfl))
      dsimp only
      rw [decFold_eq ds hd 0]
      change (if neg = true then if decValue ds ≤ lim then some (-(decValue ds : Int)) else none
        else if decValue ds < lim then some (decValue ds : Int) else none) = some v ↔ _
      generalize decValue ds = n
      cases neg
      · by_cases hc : n < lim
        · simp only [hc, Bool.false_eq_true, if_false, if_true, Option.some.injEq, hne, ne_eq, not_false_eq_true, true_and]
          constructor
          · intro h; exact ⟨hd, by omega, by omega, by omega⟩
          · rintro ⟨_, h, _⟩; omega
        · simp only [hc, Bool.false_eq_true, if_false, reduceCtorEq, false_iff]
          rintro ⟨_, _, h1, h2⟩; omega
      · by_cases hc : n ≤ lim
        · simp only [hc, if_true, Option.some.injEq, hne, ne_eq, not_false_eq_true, true_and]
          constructor
          · intro h; exact ⟨hd, by omega, by omega, by omega⟩
          · rintro ⟨_, h, _⟩; omega
        · simp only [hc, if_false, if_true, reduceCtorEq, false_iff]
          rintro ⟨_, _, h1, h2⟩; omega
  cases s with
  | nil =>
    have := key false []
    refine Iff.trans (b := _) this ?_
    simp only [ne_eq, not_true_eq_false, false_and, false_iff]
    rintro ⟨h, _⟩
    cases h; simp_all
  | cons b rest =>
    by_cases hb : b = 45
    · subst hb
      refine Iff.trans (key true rest) ?_
      constructor
      · rintro ⟨h1, h2, h3, h4⟩
        refine ⟨?_, by simp, h4⟩
        rw [if_pos rfl] at h3; rw [h3]; exact .minus rest h1 h2
      · rintro ⟨h1, h2, h3⟩
        cases h1 with
        | bare _ _ h => exact absurd (h 45 (by simp)) not_digit_45
        | minus _ h1 h2 => exact ⟨h1, h2, by rw [if_pos rfl], h3⟩
    · have : fromChars lim (b :: rest) = some v ↔ b :: rest ≠ [] ∧ (∀ d ∈ b :: rest, IsDigit d) ∧
          v = (if false then -(decValue (b :: rest) : Int) else decValue (b :: rest)) ∧ -(lim : Int) ≤ v ∧ v < lim := by
        rw [fromChars.eq_def]
        split
        next neg ds heq =>
          have e : (neg, ds) = (false, b :: rest) := by
            rw [← heq]
            split
            · next h => simp only [List.cons.injEq] at h; exact absurd h.1 hb
            · rfl
          simp only [Prod.mk.injEq] at e
          rw [e.1, e.2]
          exact key false (b :: rest)
      rw [this]
      constructor
      · rintro ⟨h1, h2, h3, h4⟩
        rw [if_neg (by decide)] at h3
        refine ⟨by rw [h3]; exact .bare _ h1 h2, ?_, h4⟩
        simp only [List.head?_cons, ne_eq, Option.some.injEq]
        rintro rfl
        exact not_digit_43 (h2 43 (by simp))
      · rintro ⟨h1, h2, h3⟩
        cases h1 with
        | bare _ h h' => exact ⟨h, h', by rw [if_neg (by decide)], h3⟩
        | plus => simp at h2
        | minus => exact absurd rfl hb

theorem decValue_lt_pow (ds : Bytes) (h : ∀ d ∈ ds, IsDigit d) : decValue ds < 10 ^ ds.length := by
  have := decFrom_lt 0 ds h
  simpa [decFrom, decValue] using this

/-- The legacy parsers, exactly. -/
theorem parseIntFast_spec (maxLen fast lim : Nat) (h1 : 10 ^ fast ≤ lim) (h2 : maxLen = fast + 2) (h3 : 0 < fast ∧ fast ≤ 18) (p : Bytes) :
    parseIntFast maxLen fast lim p ≠ .ub ∧
    ∀ v : Int, parseIntFast maxLen fast lim p = .ok v ↔
      (IntLit p v ∧ p.length ≤ maxLen ∧ -(lim : Int) < v ∧ v < lim) ∨ TwoSigns fast p v := by
  have hlim : 0 < lim := Nat.lt_of_lt_of_le (Nat.pow_pos (by decide)) h1
  unfold parseIntFast
  by_cases h0 : p.length = 0 ∨ p.length > maxLen
  · rw [if_pos h0]
    refine ⟨by simp, fun v => ?_⟩
    simp only [reduceCtorEq, false_iff]
    rintro (⟨ha, hb, _⟩ | h)
    · rcases h0 with h0 | h0
      · have : p = [] := by simpa using h0
        subst this; cases ha; simp_all
      · omega
    · cases h <;> simp at h0 <;> omega
  rw [if_neg h0]
  cases hs : takeSign p with
  | none =>
    refine ⟨by simp, fun v => ?_⟩
    simp only [reduceCtorEq, false_iff]
    rintro (⟨ha, _⟩ | h)
    · obtain ⟨neg, ds, hc, _⟩ := (intLit_iff p v).1 ha
      rw [hs] at hc; cases hc
    · rw [takeSign_none] at hs
      cases h <;> simp at hs
  | some r =>
    obtain ⟨neg, ds⟩ := r
    have hl := takeSign_length p ds neg hs
    have hts := (takeSign_some p ds neg).1 hs
    have hne := hts.1
    have hlit : ∀ v, IntLit p v ↔ (∀ d ∈ ds, IsDigit d) ∧ v = if neg then -(decValue ds : Int) else decValue ds := by
      intro v
      rw [intLit_iff]
      constructor
      · rintro ⟨n, d, e, hd, hv⟩
        rw [hs] at e
        simp only [Option.some.injEq, Prod.mk.injEq] at e
        obtain ⟨rfl, rfl⟩ := e
        exact ⟨hd, hv⟩
      · rintro ⟨hd, hv⟩; exact ⟨neg, ds, hs, hd, hv⟩
    have htwo : ∀ v, TwoSigns fast p v ↔ ∃ es : Bytes, ds = 45 :: es ∧ es.length = fast ∧ (∀ d ∈ es, IsDigit d) ∧
        p = (if neg then 45 else 43) :: ds ∧ v = if neg then (decValue es : Int) else -(decValue es : Int) := by
      intro v
      constructor
      · intro h
        cases h with
        | minus es ha hb =>
          have : takeSign (45 :: 45 :: es) = some (true, 45 :: es) := rfl
          rw [this] at hs
          simp only [Option.some.injEq, Prod.mk.injEq] at hs
          obtain ⟨rfl, rfl⟩ := hs
          exact ⟨es, rfl, ha, hb, rfl, rfl⟩
        | plus es ha hb =>
          have : takeSign (43 :: 45 :: es) = some (false, 45 :: es) := rfl
          rw [this] at hs
          simp only [Option.some.injEq, Prod.mk.injEq] at hs
          obtain ⟨rfl, rfl⟩ := hs
          exact ⟨es, rfl, ha, hb, rfl, rfl⟩
      · rintro ⟨es, rfl, ha, hb, hp, rfl⟩
        rw [hp]
        cases neg
        · exact .plus es ha hb
        · exact .minus es ha hb
    dsimp only
    by_cases hf : ds.length ≤ fast
    · rw [if_pos hf]
      have hno : ∀ v, ¬ TwoSigns fast p v := by
        intro v h
        obtain ⟨es, rfl, ha, _⟩ := (htwo v).1 h
        simp at hf; omega
      rcases scalarDigits_short ds (by omega) with ⟨hd, r, hr, hv⟩ | ⟨hd, hr⟩
      · rw [hr]
        refine ⟨by simp, fun v => ?_⟩
        have hb := decValue_lt_pow ds hd
        have hb2 : 10 ^ ds.length ≤ 10 ^ fast := pow10_le _ _ hf
        simp only [hno, or_false, hlit, hv, Outcome.ok.injEq]
        constructor
        · rintro rfl
          refine ⟨⟨hd, rfl⟩, by omega, ?_, ?_⟩ <;> (cases neg <;> simp <;> omega)
        · rintro ⟨⟨_, h⟩, _⟩; exact h.symm
      · rw [hr]
        refine ⟨by simp, fun v => ?_⟩
        simp only [hno, or_false, hlit, reduceCtorEq, false_iff]
        rintro ⟨⟨h, _⟩, _⟩; exact hd h
    · rw [if_neg hf]
      have hds : ds.length ≤ fast + 2 := by omega
      -- the literal seen by from_chars
      by_cases hd : ∀ d ∈ ds, IsDigit d
      · -- plain digits
        have hhead : ds.head? ≠ some 43 ∧ ds.head? ≠ some 45 := by
          cases ds with
          | nil => simp at hne
          | cons b rest =>
            have := hd b (by simp)
            constructor <;> (simp only [List.head?_cons, ne_eq, Option.some.injEq]; rintro rfl; revert this; decide)
        have hno : ∀ v, ¬ TwoSigns fast p v := by
          intro v h
          obtain ⟨es, rfl, _⟩ := (htwo v).1 h
          exact hhead.2 rfl
        have hfc : ∀ w, fromChars lim ds = some w ↔ w = (decValue ds : Int) ∧ w < lim := by
          intro w
          rw [C19_from_chars lim hlim]
          constructor
          · rintro ⟨ha, hb, hc, he⟩
            cases ha with
            | bare => exact ⟨rfl, he⟩
            | plus => exact absurd rfl hhead.1
            | minus => exact absurd rfl hhead.2
          · rintro ⟨rfl, he⟩
            exact ⟨.bare _ hne hd, hhead.1, by omega, he⟩
        cases hr : fromChars lim ds with
        | none =>
          refine ⟨by simp, fun v => ?_⟩
          have : ¬ ((decValue ds : Int) < lim) := fun hc => by
            have := (hfc _).2 ⟨rfl, hc⟩
            rw [hr] at this; cases this
          simp only [hno, or_false, hlit, reduceCtorEq, false_iff]
          rintro ⟨⟨_, h⟩, _, ha, hb⟩
          cases neg <;> simp at h <;> omega
        | some w =>
          obtain ⟨rfl, hw⟩ := (hfc w).1 hr
          have hmin : ¬ ((decValue ds : Int) = -(lim : Int)) := by omega
          dsimp only
          rw [if_neg hmin]
          refine ⟨by cases neg <;> simp, fun v => ?_⟩
          simp only [hno, or_false, hlit]
          constructor
          · intro h
            have hv : v = if neg then -(decValue ds : Int) else decValue ds := by
              cases neg <;> simp at h <;> simp [h]
            refine ⟨⟨hd, hv⟩, by omega, ?_, ?_⟩ <;> (cases neg <;> simp at hv <;> omega)
          · rintro ⟨⟨_, h⟩, _⟩
            rw [h]; cases neg <;> simp
      · have hlit0 : ∀ v, ¬ IntLit p v := fun v h => hd ((hlit v).1 h).1
        cases hr : fromChars lim ds with
        | none =>
          refine ⟨by simp, fun v => ?_⟩
          simp only [hlit0, false_and, false_or, reduceCtorEq, false_iff]
          intro h
          obtain ⟨es, rfl, ha, hb, hp, hv⟩ := (htwo v).1 h
          have hb2 := decValue_lt_pow es hb
          rw [ha] at hb2
          have hex : fromChars lim (45 :: es) = some (-(decValue es : Int)) := by
            rw [C19_from_chars lim hlim]
            refine ⟨.minus es ?_ hb, by simp, by omega, by omega⟩
            rintro rfl
            simp at ha
            omega
          rw [hr] at hex; cases hex
        | some w =>
          have hw := (C19_from_chars lim hlim ds w).1 hr
          obtain ⟨ha, hb, hc, he⟩ := hw
          cases ha with
          | bare _ _ h => exact absurd h hd
          | plus es => exact absurd rfl hb
          | minus es hes hdig =>
            have hpl : p = (if neg then 45 else 43) :: 45 :: es := by
              rcases hts.2 with ⟨rfl, h⟩ | ⟨rfl, h⟩ | ⟨rfl, h, h', _⟩
              · exact h
              · exact h
              · exact absurd rfl h'
            have hpn : p.length = es.length + 2 := by rw [hpl]; simp
            have hel : es.length = fast := by simp at hf; omega
            have hb2 := decValue_lt_pow es hdig
            rw [hel] at hb2
            have hmin : ¬ (-(decValue es : Int) = -(lim : Int)) := by omega
            dsimp only
            rw [if_neg hmin]
            refine ⟨by cases neg <;> simp, fun v => ?_⟩
            simp only [hlit0, false_and, false_or]
            rw [htwo v]
            constructor
            · intro h
              refine ⟨es, rfl, hel, hdig, hpl, ?_⟩
              cases neg <;> simp at h <;> simp [h]
            · rintro ⟨es', he', _, _, _, hv⟩
              simp only [List.cons.injEq, true_and] at he'
              subst he'
              rw [hv]; cases neg <;> simp

/-- C19 for the legacy context: never undefined; stores `v` exactly for a literal of at most 11 bytes with `-2^31 < v < 2^31`, and for
the one malformed shape of `C19_legacy_double_minus`. -/
theorem C19_legacy_int32_partial (p : Bytes) :
    parseInt32Fast p ≠ .ub ∧
    ∀ v : Int, parseInt32Fast p = .ok v ↔
      (IntLit p v ∧ p.length ≤ 11 ∧ -2147483648 < v ∧ v < 2147483648) ∨ TwoSigns 9 p v :=
  parseIntFast_spec 11 9 2147483648 (by decide) rfl (by decide) p

/-- C20 for the legacy context, likewise. -/
theorem C20_legacy_int64_partial (p : Bytes) :
    parseInt64Fast p ≠ .ub ∧
    ∀ v : Int, parseInt64Fast p = .ok v ↔
      (IntLit p v ∧ p.length ≤ 20 ∧ -9223372036854775808 < v ∧ v < 9223372036854775808) ∨ TwoSigns 18 p v :=
  parseIntFast_spec 20 18 9223372036854775808 (by decide) rfl (by decide) p

/-- C20: the two 64-bit parsers, the one in use and the legacy one, give the same number to every text both store a number for. -/
theorem C20_parsers_agree (lanes : Nat) (p : Bytes) (v w : Int) (h1 : parseInt64Simd lanes p = .ok v) (h2 : parseInt64Fast p = .ok w) : v = w := by
  have ha := ((C20_parse_int64 lanes p).1 v).1 h1
  rcases ((C20_legacy_int64_partial p).2 w).1 h2 with hb | hb
  · rw [intLit_iff] at ha hb
    obtain ⟨⟨n, d, e, _, rfl⟩, _⟩ := ha
    obtain ⟨⟨n', d', e', _, rfl⟩, _⟩ := hb
    rw [e] at e'
    simp only [Option.some.injEq, Prod.mk.injEq] at e'
    obtain ⟨rfl, rfl⟩ := e'
    rfl
  · exfalso
    obtain ⟨ha, _⟩ := ha
    cases hb with
    | minus ds _ _ =>
      cases ha with
      | bare _ _ h => exact not_digit_45 (h 45 (by simp))
      | minus _ _ h => exact not_digit_45 (h 45 (by simp))
    | plus ds _ _ =>
      cases ha with
      | bare _ _ h => exact not_digit_45 (h 45 (by simp))
      | plus _ _ h => exact not_digit_45 (h 45 (by simp))

example : parseInt64Fast [45, 49, 50] = .ok (-12) ∧ parseInt32Fast [45, 49, 50, 51, 52, 53, 54, 55, 56, 57, 48] = .ok (-1234567890) ∧
    fromChars 128 [45, 49, 50, 56] = some (-128) ∧ fromChars 128 [49, 50, 56] = none := by decide +kernel
example : TwoSigns 9 [43, 45, 49, 50, 51, 52, 53, 54, 55, 56, 57] (-123456789) := .plus [49, 50, 51, 52, 53, 54, 55, 56, 57] rfl (by decide)

end Vroom
