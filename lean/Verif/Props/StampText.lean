import Verif.Spec.StampText
import Verif.Props.Dates
/- C22: exactly which texts are accepted as timestamps, and their values. -/
namespace Vroom
open Spec

/-- The minutes of a zone (type_parsers.cpp, `parse_timezone`, after the two digits of the hours). -/
def zoneTail (r : Bytes) : Option Nat :=
  match r with
  | [] => some 0
  | c :: r' =>
    let q := if c = 58 then r' else c :: r'
    match q with
    | m1 :: m2 :: _ =>
      if isDigitB m1 ∧ isDigitB m2 then some ((m1.toNat - 48) * 10 + (m2.toNat - 48))
      else if isDigitB m1 then none else some 0
    | [m1] => if isDigitB m1 then none else some 0
    | [] => some 0

theorem timezone_offset (first h1 h2 : UInt8) (r : Bytes) (h90 : first ≠ 90) (hs : ¬ (first ≠ 43 ∧ first ≠ 45)) :
    parseTimezone (first :: h1 :: h2 :: r) = (digitsNat 0 [h1, h2]).bind fun a => (zoneTail r).bind fun b =>
      if a > 14 ∨ b > 59 then none else some (if first = 45 then -((a : Int) * 60 + b) else (a : Int) * 60 + b) := by
  unfold parseTimezone
  dsimp only
  rw [if_neg h90, if_neg hs]
  rfl

theorem zoneMinutes_iff (r : Bytes) (n : Nat) : zoneTail r = some n ↔ ZoneMinutes r n := by
  have two : ∀ m1 m2 : UInt8, isDigitB m1 = true → isDigitB m2 = true → [m1, m2] = show2 ((m1.toNat - 48) * 10 + (m2.toNat - 48)) ∧ (m1.toNat - 48) * 10 + (m2.toNat - 48) ≤ 99 := by
    intro m1 m2 h1 h2
    have g1 := (isDigitB_iff _).1 h1
    have g2 := (isDigitB_iff _).1 h2
    refine digitsNat_two m1 m2 _ ?_
    simp only [digitsNat]
    rw [if_neg ((isDigit_iff m1).2 g1), if_neg ((isDigit_iff m2).2 g2)]
    simp
  unfold zoneTail
  constructor
  · intro h
    cases r with
    | nil => simp at h; subst h; exact .none
    | cons c r =>
      dsimp only at h
      have core : ∀ (colon : Bool) (q : Bytes), (colon = false → q.head? ≠ some 58) → c :: r = (if colon then [58] else []) ++ q →
          (match q with
            | m1 :: m2 :: _ =>
              if isDigitB m1 ∧ isDigitB m2 then some ((m1.toNat - 48) * 10 + (m2.toNat - 48))
              else if isDigitB m1 then none else some 0
            | [m1] => if isDigitB m1 then none else some 0
            | [] => some 0) = some n → ZoneMinutes (c :: r) n := by
        intro colon q hq he h
        match q, h with
        | [], h =>
          simp at h; subst h
          cases colon with
          | false => simp at he
          | true => simp at he; rw [he.1, he.2]; exact .colon
        | [m1], h =>
          dsimp only at h
          split at h
          · simp at h
          · next h1 =>
            simp at h; subst h
            rw [he]
            exact .other colon m1 [] (fun hd => h1 ((isDigitB_iff _).2 hd)) (fun hc h58 => hq hc (by rw [h58]; rfl))
        | m1 :: m2 :: junk, h =>
          dsimp only at h
          split at h
          · next h1 =>
            simp only [Option.some.injEq] at h
            obtain ⟨t1, t2⟩ := two m1 m2 h1.1 h1.2
            rw [he, ← h]
            have := ZoneMinutes.digits colon _ junk t2
            rw [← t1] at this
            exact this
          · split at h
            · simp at h
            · next h1 =>
              simp at h; subst h
              rw [he]
              exact .other colon m1 (m2 :: junk) (fun hd => h1 ((isDigitB_iff _).2 hd)) (fun hc h58 => hq hc (by rw [h58]; rfl))
      by_cases hc : c = 58
      · rw [if_pos hc] at h
        exact core true r (by simp) (by simp [hc]) h
      · rw [if_neg hc] at h
        exact core false (c :: r) (by simp [hc]) (by simp) h
  · intro h
    cases h with
    | none => rfl
    | colon => rfl
    | digits colon m junk hm =>
      have d1 := dig_ok (n / 10) (by omega)
      have d2 := dig_ok (n % 10) (by omega)
      have b1 := dig_digit (n / 10) (by omega)
      have b2 := dig_digit (n % 10) (by omega)
      have hc : dig (n / 10) ≠ 58 := by
        intro hc
        have := dig_toNat (n / 10) (by omega)
        rw [hc] at this
        simp at this; omega
      have hval : n / 10 * 10 + n % 10 = n := by omega
      cases colon <;> simp [show2, hc, b1, b2, d1.2, d2.2, hval]
    | other colon c junk hd hc =>
      have hb : isDigitB c = false := by
        cases hx : isDigitB c with
        | false => rfl
        | true => exact absurd ((isDigitB_iff _).1 hx) hd
      cases colon with
      | false =>
        have := hc rfl
        cases junk <;> simp [this, hb]
      | true => cases junk <;> simp [hb]

theorem zonePart_iff (z : Bytes) (off : Int) : zonePart z = some off ↔ ZoneSuffix z off := by
  unfold zonePart
  constructor
  · intro h
    cases z with
    | nil => simp at h; subst h; exact .none
    | cons first rest =>
      rw [if_neg (by simp)] at h
      by_cases h90 : first = 90
      · subst h90; simp [parseTimezone] at h; subst h; exact .utc rest
      by_cases hs : first ≠ 43 ∧ first ≠ 45
      · unfold parseTimezone at h; dsimp only at h; rw [if_neg h90, if_pos hs] at h; simp at h
      match rest, h with
      | [], h => unfold parseTimezone at h; dsimp only at h; rw [if_neg h90, if_neg hs] at h; simp at h
      | [_], h => unfold parseTimezone at h; dsimp only at h; rw [if_neg h90, if_neg hs] at h; simp at h
      | h1 :: h2 :: r, h =>
        rw [timezone_offset _ _ _ _ h90 hs] at h
        simp only [Option.bind_eq_bind, Option.bind_eq_some_iff] at h
        obtain ⟨hh, e1, mm, e2, e3⟩ := h
        obtain ⟨t1, t2⟩ := digitsNat_two _ _ _ e1
        have hm := (zoneMinutes_iff r mm).1 e2
        split at e3
        · simp at e3
        · next hr =>
          simp only [Option.some.injEq] at e3
          subst e3
          have hf : first = if decide (first = 45) then 45 else 43 := by
            by_cases h45 : first = 45
            · simp [h45]
            · have : first = 43 := by tauto
              simp [this]
          have := ZoneSuffix.offset (decide (first = 45)) hh mm r (by omega) (by omega) hm
          rw [← hf, ← t1] at this
          simpa using this
  · intro h
    cases h with
    | none => rfl
    | utc junk => simp [parseTimezone]
    | offset neg hh mm tail h1 h2 hm =>
      have e1 := digits_show2 hh (by omega)
      have hz := (zoneMinutes_iff tail mm).2 hm
      rw [if_neg (by simp)]
      unfold show2 at e1
      simp only [show2, List.cons_append, List.nil_append]
      rw [timezone_offset _ _ _ _ (by cases neg <;> decide) (by cases neg <;> decide), e1, hz]
      simp only [Option.bind_some]
      rw [if_neg (by omega)]
      cases neg <;> simp

theorem fracLoop_app (k : Nat) (frac : Nat) (ds junk : Bytes) (h : ∀ d ∈ ds, IsDigit d) (hk : ds.length = k) :
    fracLoop k frac (ds ++ junk) = fracLoop k frac ds := by
  induction ds generalizing k frac with
  | nil => simp at hk; subst hk; cases junk <;> rfl
  | cons d ds ih =>
    cases k with
    | zero => simp at hk
    | succ k =>
      have hd := (isDigitB_iff d).2 (h d (by simp))
      simp only [List.cons_append, fracLoop, hd, if_true]
      exact ih _ _ (fun x hx => h x (by simp [hx])) (by simpa using hk)

theorem fracLoop_some (k frac m : Nat) (w : Bytes) (h : fracLoop k frac w = some m) :
    ∃ ds junk, w = ds ++ junk ∧ (∀ d ∈ ds, IsDigit d) ∧ (ds.length = k ∨ (junk = [] ∧ ds.length ≤ k)) := by
  induction w generalizing k frac with
  | nil => exact ⟨[], [], rfl, by simp, .inr ⟨rfl, by simp⟩⟩
  | cons b w ih =>
    cases k with
    | zero => exact ⟨[], b :: w, rfl, by simp, .inl rfl⟩
    | succ k =>
      unfold fracLoop at h
      split at h
      · next hb =>
        obtain ⟨ds, junk, e1, e2, e3⟩ := ih _ _ h
        refine ⟨b :: ds, junk, by rw [e1]; rfl, ?_, ?_⟩
        · intro d hd
          rcases List.mem_cons.1 hd with rfl | hd
          · exact (isDigitB_iff _).1 hb
          · exact e2 d hd
        · simp only [List.length_cons]
          rcases e3 with e | ⟨e, e'⟩
          · exact .inl (by omega)
          · exact .inr ⟨e, by omega⟩
      · simp at h

theorem zoneStart_iff (b : UInt8) : isZoneStart b = false ↔ b ≠ 90 ∧ b ≠ 43 ∧ b ≠ 45 := by
  unfold isZoneStart
  simp only [Bool.or_eq_false_iff, beq_eq_false_iff_ne]
  tauto

theorem suffix_head (z : Bytes) (off : Int) (h : ZoneSuffix z off) : z = [] ∨ ∃ c r, z = c :: r ∧ isZoneStart c = true ∧ c ≠ 46 := by
  cases h with
  | none => exact .inl rfl
  | utc junk => exact .inr ⟨90, junk, rfl, by decide, by decide⟩
  | offset neg hh mm tail => refine .inr ⟨_, _, rfl, ?_, ?_⟩ <;> cases neg <;> decide

/-- Fraction and zone of a timestamp. -/
theorem suffix_iff (r : Bytes) (m : Nat) (off : Int) :
    (∃ tz, fracPart r = some (m, tz) ∧ zonePart tz = some off) ↔ ∃ f z, r = f ++ z ∧ FracSuffix f m ∧ ZoneSuffix z off := by
  constructor
  · rintro ⟨tz, h1, h2⟩
    have hz := (zonePart_iff tz off).1 h2
    cases r with
    | nil =>
      simp [fracPart] at h1
      rw [← h1.1]
      exact ⟨[], tz, by rw [h1.2]; rfl, .none, hz⟩
    | cons c fr =>
      unfold fracPart at h1
      dsimp only at h1
      split at h1
      · next hc =>
        subst hc
        simp only [Option.map_eq_some_iff, Prod.mk.injEq] at h1
        obtain ⟨m', g1, rfl, g2⟩ := h1
        obtain ⟨ds, junk, e1, e2, e3⟩ := fracLoop_some _ _ _ _ g1
        have hval : m' = fracMicros ds := by
          have hs := fracLoop_spec 6 0 ds e2
          have : fracLoop 6 0 (ds ++ junk) = fracLoop 6 0 ds := by
            rcases e3 with e | ⟨e, -⟩
            · exact fracLoop_app 6 0 ds junk e2 e
            · rw [e, List.append_nil]
          rw [e1, this, hs, Option.some.injEq] at g1
          rw [← g1]; rfl
        refine ⟨46 :: (ds ++ junk), tz, ?_, ?_, hz⟩
        · rw [← e1, ← g2, List.cons_append, List.takeWhile_append_dropWhile]
        · rw [hval]
          refine .digits ds junk e2 e3 ?_
          intro b hb
          have : b ∈ fr.takeWhile (fun b => !isZoneStart b) := by rw [e1]; simp [hb]
          have hall := List.all_takeWhile (p := fun b => !isZoneStart b) (l := fr)
          rw [List.all_eq_true] at hall
          exact (zoneStart_iff b).1 (by simpa using hall b this)
      · simp only [Option.some.injEq, Prod.mk.injEq] at h1
        obtain ⟨rfl, rfl⟩ := h1
        exact ⟨[], _, rfl, .none, hz⟩
  · rintro ⟨f, z, rfl, hf, hz⟩
    refine ⟨z, ?_, (zonePart_iff z off).2 hz⟩
    have hh := suffix_head z off hz
    cases hf with
    | none =>
      rcases hh with rfl | ⟨c, r, rfl, -, h2⟩
      · rfl
      · simp [fracPart, h2]
    | digits ds junk h1 h2 h3 =>
      have hw := takeWhile_app (fun b => !isZoneStart b) (ds ++ junk) z
        (fun d hm => by
          rcases List.mem_append.1 hm with hm | hm
          · simp [digit_not_zone d (h1 d hm)]
          · simp [(zoneStart_iff d).2 (h3 d hm)])
        (by
          rcases hh with h | ⟨c, r, h, h1, _⟩
          · exact Or.inl h
          · exact Or.inr ⟨c, r, h, by simp [h1]⟩)
      have hl : fracLoop 6 0 (ds ++ junk) = some (fracMicros ds) := by
        have hs := fracLoop_spec 6 0 ds h1
        rcases h2 with e | ⟨e, -⟩
        · rw [fracLoop_app 6 0 ds junk h1 e, hs]; rfl
        · rw [e, List.append_nil, hs]; rfl
      simp only [List.cons_append, fracPart, if_true, hw.1, hw.2, hl, Option.map_some]

/-- **C22**, exactly: the texts accepted as timestamps are those of the grammar `StampText`, and the value is the day number of the date (C21) times 86 400 000 000
plus the microseconds of the day minus the zone. -/
theorem C22_exact (s : List UInt8) (v : Int) :
    parseTimestamp s = some v ↔ ∃ (t : Date) (sep : UInt8) (micros : Nat) (off days : Int), StampText s t sep micros off ∧ parseDate (t.text sep) = some days ∧
      v = days * 86400000000 + micros - off * 60000000 := by
  constructor
  · intro h
    unfold parseTimestamp at h
    split at h
    · next y1 y2 y3 y4 s1 m1 m2 s2 d1 d2 tee h1 h2 c1 n1 n2 c2 e1 e2 rest =>
      simp only [Option.bind_eq_bind, Option.bind_eq_some_iff] at h
      obtain ⟨days, hdays, h⟩ := h
      split at h
      · simp at h
      next htee =>
      split at h
      · simp at h
      next hc =>
      simp only [Option.bind_eq_some_iff] at h
      obtain ⟨hh, hhh, mm, hmm, ss, hss, h⟩ := h
      split at h
      · simp at h
      next hr =>
      simp only [Option.bind_eq_some_iff] at h
      obtain ⟨⟨micros, tz⟩, hf, off, ho, h⟩ := h
      obtain ⟨f, z, g1, g2, g3⟩ := (suffix_iff rest micros off).1 ⟨tz, hf, ho⟩
      obtain ⟨t, sep, t1, t2, t3, t4, t5⟩ := (parseDate_iff _ _).1 hdays
      refine ⟨t, sep, (hh * 3600 + mm * 60 + ss) * 1000000 + micros, off, days, ?_, ?_, ?_⟩
      · have := StampText.mk t sep tee hh mm ss f micros z off t1 t2 t3 (by by_contra hx; exact htee ⟨fun h => hx (.inl h), fun h => hx (.inr h)⟩) (by omega) (by omega) (by omega) g2 g3
        rw [← t4, ← g1, ← (digitsNat_two _ _ _ hhh).1, ← (digitsNat_two _ _ _ hmm).1, ← (digitsNat_two _ _ _ hss).1] at this
        have hcc : c1 = 58 ∧ c2 = 58 := by
          constructor
          · by_contra hx; exact hc (.inl hx)
          · by_contra hx; exact hc (.inr hx)
        rw [hcc.1, hcc.2]
        exact this
      · rw [← t4]; exact hdays
      · have := Option.some.inj h
        dsimp only at this
        rw [← this]; push_cast; omega
    · simp at h
  · rintro ⟨t, sep, mc, off, days, hst, hdays, rfl⟩
    cases hst with
    | mk _ _ tee hh mm ss f micros z _ h1 h2 h3 h4 h5 h6 h7 h8 h9 =>
      obtain ⟨tz, g1, g2⟩ := (suffix_iff (f ++ z) micros off).2 ⟨f, z, rfl, h8, h9⟩
      have e1 := digits_show2 hh (by omega)
      have e2 := digits_show2 mm (by omega)
      have e3 := digits_show2 ss (by omega)
      unfold Date.text show4 show2 at hdays
      unfold show2 at e1 e2 e3
      simp only [List.cons_append, List.nil_append] at hdays
      simp only [Date.text, show4, show2, List.cons_append, List.nil_append, parseTimestamp, hdays, Option.bind_eq_bind, Option.bind_some]
      rw [if_neg (by rcases h4 with rfl | rfl <;> simp), if_neg (by simp)]
      simp only [e1, e2, e3, Option.bind_some]
      rw [if_neg (by omega)]
      simp only [g1, g2, Option.bind_some, Option.some.injEq]
      push_cast; omega

/-- "2024-02-29 23:59:59.5x" is refused, and "…59.123456xyz+05:30!" is accepted: six digits, then anything up to the zone, then anything. -/
example : parseTimestamp "2024-02-29 23:59:59.5x".toUTF8.toList = none ∧ (parseTimestamp "2024-02-29 23:59:59.123456xyz+05:30!".toUTF8.toList).isSome = true := by decide +kernel

end Vroom
