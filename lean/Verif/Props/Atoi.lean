import Verif.Lemmas.Atoi
/- C19, C20: integer parsing. -/
namespace Vroom
open Spec

/-- Signed finish on a digit string value. -/
theorem finishSigned_spec (lim : Nat) (hlim : 0 < lim) (neg : Bool) (r : UInt64) (n : Nat) (hr : r.toNat = n) :
    (∀ v : Int, finishSigned lim neg r = .ok v ↔ v = (if neg then -(n : Int) else n) ∧ -(lim : Int) < v ∧ v < lim) ∧
    (finishSigned lim neg r = .ub ↔ neg = true ∧ n = lim) := by
  unfold finishSigned
  rw [hr]
  cases neg
  · simp only [and_true, Bool.false_eq_true, and_false, if_false, false_and]
    split
    · refine ⟨fun v => ?_, by simp⟩
      simp only [reduceCtorEq, false_iff]; omega
    · refine ⟨fun v => ?_, by simp⟩
      simp only [Outcome.ok.injEq]; omega
  · simp only [Bool.true_eq_false, and_false, and_true, if_false, if_true, true_and]
    split
    · refine ⟨fun v => ?_, by simp; omega⟩
      simp only [reduceCtorEq, false_iff]; omega
    · split
      · refine ⟨fun v => ?_, by simp; omega⟩
        simp only [reduceCtorEq, false_iff]; omega
      · refine ⟨fun v => ?_, by simp; omega⟩
        simp only [Outcome.ok.injEq]; omega

/-- Common shape of the four parsers. -/
def signedParser (maxLen lim : Nat) (U : Bytes → Option UInt64) (p : Bytes) : Outcome Int :=
  if p.length = 0 ∨ p.length > maxLen then .reject
  else match takeSign p with
    | none => .reject
    | some (neg, ds) => match U ds with
      | none => .reject
      | some r => finishSigned lim neg r

theorem signedParser_spec (maxLen lim : Nat) (U : Bytes → Option UInt64) (hlim : 0 < lim)
    (hU : ∀ ds : Bytes, ds ≠ [] → ds.length ≤ maxLen →
      ((∀ d ∈ ds, IsDigit d) ∧ ∃ r, U ds = some r ∧ r.toNat = decValue ds) ∨
      ((¬ ((∀ d ∈ ds, IsDigit d) ∧ decValue ds < 2 ^ 64)) ∧ U ds = none))
    (hlim2 : lim < 2 ^ 64) (p : Bytes) :
    (∀ v : Int, signedParser maxLen lim U p = .ok v ↔ IntLit p v ∧ p.length ≤ maxLen ∧ -(lim : Int) < v ∧ v < lim) ∧
    (signedParser maxLen lim U p = .ub ↔ IntLit p (-(lim : Int)) ∧ p.length ≤ maxLen) := by
  unfold signedParser
  by_cases h0 : p.length = 0 ∨ p.length > maxLen
  · rw [if_pos h0]
    have hno : ∀ v, ¬ (IntLit p v ∧ p.length ≤ maxLen) := by
      rintro v ⟨hl, hle⟩
      rcases h0 with h0 | h0
      · have : p = [] := by simpa using h0
        subst this
        cases hl; simp_all
      · omega
    refine ⟨fun v => ?_, ?_⟩
    · simp only [reduceCtorEq, false_iff]
      rintro ⟨h1, h2, _⟩; exact hno v ⟨h1, h2⟩
    · simp only [reduceCtorEq, false_iff]; exact hno _
  · rw [if_neg h0]
    have hlen : p.length ≤ maxLen := by omega
    simp only [intLit_iff]
    cases hs : takeSign p with
    | none => simp
    | some r =>
      obtain ⟨neg, ds⟩ := r
      have hl := (takeSign_length p ds neg hs).1
      have hne := ((takeSign_some p ds neg).1 hs).1
      simp only [Option.some.injEq, Prod.mk.injEq]
      rcases hU ds hne (by omega) with ⟨hd, r, hr, hv⟩ | ⟨hd, hr⟩
      · rw [hr]
        dsimp only
        obtain ⟨f1, f2⟩ := finishSigned_spec lim hlim neg r (decValue ds) hv
        refine ⟨fun v => ?_, ?_⟩
        · rw [f1]
          constructor
          · rintro ⟨rfl, h2, h3⟩
            exact ⟨⟨neg, ds, ⟨rfl, rfl⟩, hd, rfl⟩, hlen, h2, h3⟩
          · rintro ⟨⟨_, _, ⟨rfl, rfl⟩, _, rfl⟩, _, h2, h3⟩
            exact ⟨rfl, h2, h3⟩
        · rw [f2]
          constructor
          · rintro ⟨rfl, h2⟩
            exact ⟨⟨true, ds, ⟨rfl, rfl⟩, hd, by simp [h2]⟩, hlen⟩
          · rintro ⟨⟨_, _, ⟨rfl, rfl⟩, _, h2⟩, _⟩
            cases neg
            · simp at h2; omega
            · simp at h2; exact ⟨rfl, by omega⟩
      · rw [hr]
        dsimp only
        have hno : ∀ v : Int, -(lim : Int) ≤ v → v < lim →
            ¬ ∃ neg' ds', (neg = neg' ∧ ds = ds') ∧ (∀ d ∈ ds', IsDigit d) ∧ v = if neg' then -(decValue ds' : Int) else decValue ds' := by
          rintro v hv1 hv2 ⟨_, _, ⟨rfl, rfl⟩, h2, h3⟩
          refine hd ⟨h2, ?_⟩
          cases neg <;> simp at h3 <;> omega
        refine ⟨fun v => ?_, ?_⟩
        · simp only [reduceCtorEq, false_iff]
          rintro ⟨h1, _, h2, h3⟩
          exact hno v (by omega) h3 h1
        · simp only [reduceCtorEq, false_iff]
          rintro ⟨h1, _⟩
          exact hno _ (Int.le_refl _) (by omega) h1

theorem uint_simd_ok (lanes maxLen : Nat) (hm : maxLen ≤ 16) (ds : Bytes) (hne : ds ≠ []) (h : ds.length ≤ maxLen) :
    ((∀ d ∈ ds, IsDigit d) ∧ ∃ r, parseUint64Simd lanes ds = some r ∧ r.toNat = decValue ds) ∨
      ((¬ ((∀ d ∈ ds, IsDigit d) ∧ decValue ds < 2 ^ 64)) ∧ parseUint64Simd lanes ds = none) := by
  have : ds.length ≠ 0 := by simpa using hne
  rw [parseUint64Simd_eq, if_neg (by omega)]
  rcases scalarDigits_short ds (by omega) with h | ⟨h1, h2⟩
  · exact Or.inl h
  · exact Or.inr ⟨fun h => h1 h.1, h2⟩

/-- C19: for every byte string and every vector width, the 32-bit parser stores `v` exactly when the string
is an integer literal for `v` of at most 11 bytes with `-2^31 < v < 2^31`; it runs into undefined behaviour
exactly on literals of `-2^31`; it rejects everything else. -/
theorem C19_parse_int32 (lanes : Nat) (s : Bytes) :
    (∀ v : Int, parseInt32Simd lanes s = .ok v ↔ IntLit s v ∧ s.length ≤ 11 ∧ -2147483648 < v ∧ v < 2147483648) ∧
    (parseInt32Simd lanes s = .ub ↔ IntLit s (-2147483648) ∧ s.length ≤ 11) :=
  signedParser_spec 11 2147483648 (parseUint64Simd lanes) (by decide)
    (fun ds hne h => uint_simd_ok lanes 11 (by decide) ds hne h) (by decide) s

/-- What a compiler with wrapping signed negation (`-fwrapv`) would return. -/
def Outcome.wrap (lim : Nat) : Outcome Int → Outcome Int
  | .ub => .ok (-(lim : Int))
  | o => o

/-- C19 in full, if signed negation wraps. -/
theorem C19_exact_if_wrapping (lanes : Nat) (s : Bytes) (v : Int) :
    (parseInt32Simd lanes s).wrap 2147483648 = .ok v ↔ IntLit s v ∧ s.length ≤ 11 ∧ -2147483648 ≤ v ∧ v < 2147483648 := by
  obtain ⟨h1, h2⟩ := C19_parse_int32 lanes s
  have huniq : ∀ v w, IntLit s v → IntLit s w → v = w := by
    intro v w hv hw
    rw [intLit_iff] at hv hw
    obtain ⟨n1, d1, e1, _, rfl⟩ := hv
    obtain ⟨n2, d2, e2, _, rfl⟩ := hw
    rw [e1] at e2
    simp only [Option.some.injEq, Prod.mk.injEq] at e2
    obtain ⟨rfl, rfl⟩ := e2
    rfl
  cases hp : parseInt32Simd lanes s with
  | ub =>
    obtain ⟨g1, g2⟩ := h2.1 hp
    simp only [Outcome.wrap, Outcome.ok.injEq]
    constructor
    · rintro rfl; exact ⟨g1, g2, by decide, by decide⟩
    · rintro ⟨g3, _⟩; exact huniq _ _ g1 g3
  | reject =>
    simp only [Outcome.wrap, reduceCtorEq, false_iff]
    rintro ⟨g1, g2, g3, g4⟩
    by_cases hv : v = -2147483648
    · subst hv; rw [h2.2 ⟨g1, g2⟩] at hp; cases hp
    · have := (h1 v).2 ⟨g1, g2, by omega, g4⟩
      rw [this] at hp; cases hp
  | ok w =>
    have g := (h1 w).1 hp
    simp only [Outcome.wrap, Outcome.ok.injEq]
    constructor
    · rintro rfl; exact ⟨g.1, g.2.1, by omega, g.2.2.2⟩
    · rintro ⟨g3, _⟩; exact huniq _ _ g.1 g3

/-- The full C19, as stated: no undefined behaviour either. -/
def C19_full : Prop := ∀ lanes s v, IntLit s v → s.length ≤ 11 → -2147483648 ≤ v → v < 2147483648 →
  parseInt32Simd lanes s = .ok v

/-- It is false of the code: "-2147483648". -/
theorem C19_full_fails : ¬ C19_full := by
  intro h
  have lit : IntLit [45, 50, 49, 52, 55, 52, 56, 51, 54, 52, 56] (-2147483648) :=
    .minus [50, 49, 52, 55, 52, 56, 51, 54, 52, 56] (by decide) (by decide)
  have := h 16 _ _ lit (by decide) (by decide) (by decide)
  rw [(C19_parse_int32 16 _).2.2 ⟨lit, by decide⟩] at this
  cases this

/-- C19: the scalar reference parser is the same function. -/
theorem C19_scalar_eq_simd (lanes : Nat) (s : Bytes) : parseInt32Scalar s = parseInt32Simd lanes s := by
  unfold parseInt32Scalar parseInt32Simd
  split
  · rfl
  · cases hs : takeSign s with
    | none => rfl
    | some r =>
      obtain ⟨neg, ds⟩ := r
      have := (takeSign_length s ds neg hs).1
      dsimp only
      rw [parseUint64Simd_eq]
      unfold parseUint64Scalar
      by_cases h0 : ds.length = 0
      · rw [if_pos (Or.inl h0), if_pos (Or.inl h0)]
      · rw [if_neg (by omega), if_neg (by omega)]

/-- C20: 64-bit analogue; no accepted string yields a wrapped value. -/
theorem C20_parse_int64 (lanes : Nat) (s : Bytes) :
    (∀ v : Int, parseInt64Simd lanes s = .ok v ↔
      IntLit s v ∧ s.length ≤ 20 ∧ -9223372036854775808 < v ∧ v < 9223372036854775808) ∧
    (parseInt64Simd lanes s = .ub ↔ IntLit s (-9223372036854775808) ∧ s.length ≤ 20) := by
  refine signedParser_spec 20 9223372036854775808
    (fun ds => if ds.length > 16 then checkedDigits 0 ds else parseUint64Simd lanes ds) (by decide) ?_ (by decide) s
  intro ds hne h
  split
  · rcases checkedDigits_spec 0 ds with ⟨h1, _, h3⟩ | ⟨h1, h2⟩
    · exact Or.inl ⟨h1, h3⟩
    · exact Or.inr ⟨h1, h2⟩
  · exact uint_simd_ok lanes 16 (Nat.le_refl _) ds hne (by omega)

/-- The full C20: every in-range literal of accepted length parses, with defined behaviour. -/
def C20_full : Prop := ∀ lanes s v, IntLit s v → s.length ≤ 20 → -9223372036854775808 ≤ v → v < 9223372036854775808 →
  parseInt64Simd lanes s = .ok v

/-- It is false of the code: "-9223372036854775808". -/
theorem C20_full_fails : ¬ C20_full := by
  intro h
  have lit : IntLit [45, 57, 50, 50, 51, 51, 55, 50, 48, 51, 54, 56, 53, 52, 55, 55, 53, 56, 48, 56] (-9223372036854775808) :=
    .minus [57, 50, 50, 51, 51, 55, 50, 48, 51, 54, 56, 53, 52, 55, 55, 53, 56, 48, 56] (by decide) (by decide)
  have := h 16 _ _ lit (by decide) (by decide) (by decide)
  rw [(C20_parse_int64 16 _).2.2 ⟨lit, by decide⟩] at this
  cases this

/-- The scalar 64-bit reference parser is exact for at most 19 digits. -/
theorem C20_scalar_partial (s : Bytes) (hs : s.length ≤ 19) (v : Int) :
    parseInt64Scalar s = .ok v ↔ IntLit s v ∧ -9223372036854775808 < v ∧ v < 9223372036854775808 := by
  have := (signedParser_spec 19 9223372036854775808 parseUint64Scalar (by decide) (by
    intro ds hne h
    unfold parseUint64Scalar
    have : ds.length ≠ 0 := by simpa using hne
    rw [if_neg (by omega)]
    rcases scalarDigits_short ds h with h | ⟨h1, h2⟩
    · exact Or.inl h
    · exact Or.inr ⟨fun h => h1 h.1, h2⟩) (by decide) s).1 v
  have e : parseInt64Scalar s = signedParser 19 9223372036854775808 parseUint64Scalar s := by
    unfold parseInt64Scalar signedParser
    by_cases h0 : s.length = 0
    · rw [if_pos (Or.inl h0), if_pos (Or.inl h0)]
    · rw [if_neg (by omega), if_neg (by omega)]; rfl
  rw [e, this]
  constructor
  · rintro ⟨a, _, b, c⟩; exact ⟨a, b, c⟩
  · rintro ⟨a, b, c⟩; exact ⟨a, hs, b, c⟩

/-- With 20 digits the scalar reference parser wraps: "99999999999999999999" is accepted. -/
theorem C20_scalar_wraps : parseInt64Scalar (List.replicate 20 57) = .ok 7766279631452241919 := by decide +kernel

/-- The legacy context parser accepts two minus signs: "--123456789" is read as 123456789. -/
theorem C19_legacy_double_minus :
    parseInt32Fast [45, 45, 49, 50, 51, 52, 53, 54, 55, 56, 57] = .ok 123456789 ∧
    ∀ v, ¬ IntLit [45, 45, 49, 50, 51, 52, 53, 54, 55, 56, 57] v := by
  refine ⟨by decide +kernel, ?_⟩
  intro v h
  rw [intLit_iff] at h
  obtain ⟨neg, ds, h1, h2, _⟩ := h
  have : takeSign [45, 45, 49, 50, 51, 52, 53, 54, 55, 56, 57] = some (true, [45, 49, 50, 51, 52, 53, 54, 55, 56, 57]) := by decide
  rw [this] at h1
  simp only [Option.some.injEq, Prod.mk.injEq] at h1
  obtain ⟨_, rfl⟩ := h1
  exact absurd (h2 45 (by simp)) (by decide)

/-- … and rejects the minimum 32-bit value while the main parser recognises it. -/
theorem C19_legacy_rejects_min :
    parseInt32Fast [45, 50, 49, 52, 55, 52, 56, 51, 54, 52, 56] = .reject := by decide +kernel

example : parseInt32Simd 32 [43, 48, 52, 50] = .ok 42 := by decide +kernel
example : parseInt32Simd 32 [50, 49, 52, 55, 52, 56, 51, 54, 52, 56] = .reject := by decide +kernel
example : parseInt64Simd 16 [45, 57, 50, 50, 51, 51, 55, 50, 48, 51, 54, 56, 53, 52, 55, 55, 53, 56, 48, 55] =
    .ok (-9223372036854775807) := by decide +kernel
example : IntLit [45, 55] (-7) := .minus [55] (by decide) (by decide)

end Vroom
