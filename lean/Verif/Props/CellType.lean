import Verif.Lemmas.CellType
/-
C76: the type of a cell.
-/
namespace Vroom
open Spec

theorem exists_stripped (s : List UInt8) (P : List UInt8 → Prop) : (∃ t, Stripped whiteSpace s t ∧ P t) ↔ P (trimBy isSpaceLocale s) := by
  rw [trimBy_space]
  constructor
  · rintro ⟨t, h, hp⟩; rw [← (stripped_iff _ _ _).1 h]; exact hp
  · intro h; exact ⟨_, (stripped_iff _ _ _).2 rfl, h⟩

/-- **C76** A cell is empty exactly if it holds nothing but white space. -/
theorem C76_empty (s : List UInt8) : inferCellType s = .EMPTY ↔ ∀ c ∈ s, whiteSpace c = true := by
  unfold inferCellType
  rw [(inferGo_simple _ s).1, trimBy_space, trimBy_nil_iff]

/-- **C76** A cell is a truth value exactly if, without the white space around it, it is one of six words. -/
theorem C76_boolean (s : List UInt8) : inferCellType s = .BOOLEAN ↔ ∃ t, Stripped whiteSpace s t ∧ BoolText t := by
  rw [exists_stripped, ← boolScan_iff]; exact (inferGo_simple _ s).2.1

/-- **C76** A cell is an integer exactly if, without the white space around it, it is an optional sign and digits. -/
theorem C76_integer (s : List UInt8) : inferCellType s = .INTEGER ↔ ∃ t, Stripped whiteSpace s t ∧ ∃ v, IntLit t v := by
  rw [exists_stripped, ← intScan_iff]; exact (inferGo_simple _ s).2.2.1

/-- **C76** A cell is a float exactly if, without the white space around it, it is a decimal number with a point or an exponent. -/
theorem C76_float (s : List UInt8) : inferCellType s = .FLOAT ↔ ∃ t, Stripped whiteSpace s t ∧ DecLit t := by
  rw [exists_stripped, ← floatScan_iff]; exact (inferGo_simple _ s).2.2.2.1

/-- **C76** A cell is a date exactly if, without the white space around it, it has one of the four date forms. -/
theorem C76_date (s : List UInt8) : inferCellType s = .DATE ↔ ∃ t, Stripped whiteSpace s t ∧ DateText t := by
  rw [exists_stripped, ← dateScan_iff]; exact (inferGo_simple _ s).2.2.2.2.1

/-- **C76** A cell is a time exactly if, without the white space around it, it has one of the two time forms. -/
theorem C76_time (s : List UInt8) : inferCellType s = .TIME ↔ ∃ t, Stripped whiteSpace s t ∧ TimeText t := by
  rw [exists_stripped, ← timeScan_iff]; exact (inferGo_simple _ s).2.2.2.2.2

/-- Padded cells of every kind. -/
example : inferCellType [32, 9] = .EMPTY ∧ inferCellType [32, 84, 114, 117, 101, 13] = .BOOLEAN ∧ inferCellType [43, 52, 50, 32] = .INTEGER ∧
    inferCellType [45, 46, 53, 101, 43, 49] = .FLOAT ∧ inferCellType [50, 48, 50, 48, 45, 48, 49, 45, 48, 50] = .DATE ∧
    inferCellType [49, 48, 58, 48, 48] = .TIME ∧ inferCellType [97] = .STRING := by decide +kernel

/-! ### Date-times -/

theorem dropZone_le (r : List UInt8) : (dropZone r).length ≤ r.length := by
  unfold dropZone
  dsimp only
  have h : (if r.getLast? == some 90 then r.dropLast else r).length ≤ r.length := by split <;> simp
  generalize (if r.getLast? == some 90 then r.dropLast else r) = t at h
  have ht : ∀ k, (t.take k).length ≤ r.length := fun k => by rw [List.length_take]; omega
  split
  · split
    · exact ht _
    · split
      · split
        · exact ht _
        · exact h
      · exact h
  · split
    · exact ht _
    · exact h
  · exact h

theorem timeScan_len {t : List UInt8} (h : timeScan t = true) : 5 ≤ t.length := by
  unfold timeScan at h
  split at h
  · simp
  · simp
  · cases h

theorem trimBy_le (p : UInt8 → Bool) (s : List UInt8) : (trimBy p s).length ≤ s.length := by
  obtain ⟨a, b, e, _⟩ := (stripped_iff p s (trimBy p s)).2 rfl
  have := congrArg List.length e
  simp only [List.length_append] at this
  omega

theorem sepPos_spec {t : List UInt8} {p : Nat} (h : sepPos t = some p) : p < t.length ∧ (t[p]? = some 84 ∨ t[p]? = some 32) := by
  have key : ∀ b : UInt8, t.findIdx? (· == b) = some p → p < t.length ∧ t[p]? = some b := by
    intro b hb
    rw [List.findIdx?_eq_some_iff_getElem] at hb
    obtain ⟨h1, h2, _⟩ := hb
    refine ⟨h1, ?_⟩
    rw [List.getElem?_eq_getElem h1]
    simp at h2; rw [h2]
  unfold sepPos at h
  cases h1 : t.findIdx? (· == 84) with
  | some i =>
    rw [h1] at h
    simp at h; subst h
    exact ⟨(key 84 h1).1, .inl (key 84 h1).2⟩
  | none =>
    rw [h1] at h
    exact ⟨(key 32 h).1, .inr (key 32 h).2⟩

/-- **C76** A cell typed as a date-time starts (after white space) with a date, followed by a `T` or a space and at least five more bytes. -/
theorem C76_datetime_shape (s : List UInt8) (h : inferCellType s = .DATETIME) :
    ∃ t d w c r, Stripped whiteSpace s t ∧ t = d ++ (w ++ c :: r) ∧ DateText d ∧ (∀ x ∈ w, whiteSpace x = true) ∧ (c = 84 ∨ c = 32) ∧ 5 ≤ r.length := by
  have hs := (stripped_iff whiteSpace s (trimBy whiteSpace s)).2 rfl
  unfold inferCellType at h
  have hsimple := inferGo_simple s.length s
  rw [h] at hsimple
  rw [inferGo.eq_def] at h
  dsimp only at h
  rw [trimBy_space] at h hsimple
  obtain ⟨t, ht⟩ : ∃ t, t = trimBy whiteSpace s := ⟨_, rfl⟩
  rw [← ht] at h hsimple hs
  have e0 : ¬ t.isEmpty = true := by intro hh; have := hsimple.1.2 (by simpa using hh); simp at this
  have e1 : ¬ boolScan t = true := by intro hh; have := hsimple.2.1.2 hh; simp at this
  have e2 : ¬ intScan t = true := by intro hh; have := hsimple.2.2.1.2 hh; simp at this
  have e3 : ¬ floatScan t = true := by intro hh; have := hsimple.2.2.2.1.2 hh; simp at this
  have e4 : ¬ dateScan t = true := by intro hh; have := hsimple.2.2.2.2.1.2 hh; simp at this
  have e5 : ¬ timeScan t = true := by intro hh; have := hsimple.2.2.2.2.2.2 hh; simp at this
  rw [if_neg e0, if_neg e1, if_neg e2, if_neg e3, if_neg e4, if_neg e5] at h
  generalize s.length = fuel at h
  cases fuel with
  | zero => simp at h
  | succ n =>
    dsimp only at h
    by_cases g1 : t.length ≥ 16
    · rw [if_pos g1] at h
      cases hp : sepPos t with
      | none => rw [hp] at h; simp at h
      | some p =>
        rw [hp] at h
        dsimp only at h
        by_cases g2 : p ≥ 8
        · rw [if_pos g2] at h
          by_cases g3 : (inferGo n (t.take p) == CellType.DATE && (inferGo n (dropZone (t.drop (p + 1))) == CellType.TIME || decide ((dropZone (t.drop (p + 1))).length ≥ 5))) = true
          · rw [Bool.and_eq_true, Bool.or_eq_true] at g3
            obtain ⟨k1, k2⟩ := g3
            have k1 : dateScan (trimBy isSpaceLocale (t.take p)) = true := (inferGo_simple n (t.take p)).2.2.2.2.1.1 (by simpa using k1)
            rw [trimBy_space] at k1
            obtain ⟨a, b, e, ha, hb, hh, _⟩ := (stripped_iff whiteSpace (t.take p) _).2 rfl
            have k3 : 5 ≤ (dropZone (t.drop (p + 1))).length := by
              rcases k2 with k2 | k2
              · have k2 := (inferGo_simple n (dropZone (t.drop (p + 1)))).2.2.2.2.2.1 (by simpa using k2)
                have := timeScan_len k2
                have := trimBy_le isSpaceLocale (dropZone (t.drop (p + 1)))
                omega
              · simpa using k2
            have k4 := dropZone_le (t.drop (p + 1))
            obtain ⟨q1, q2⟩ := sepPos_spec hp
            have ea : a = [] := by
              cases a with
              | nil => rfl
              | cons x a =>
                exfalso
                obtain ⟨_, _, _, _, _, hhead, _⟩ := hs
                have hx := ha x (by simp)
                have : t.head? = some x := by
                  have h1 : (t.take p).head? = some x := by rw [e]; rfl
                  cases t with
                  | nil => simp at h1
                  | cons y t =>
                    cases p with
                    | zero => simp at h1
                    | succ p => simpa using h1
                rw [hhead x this] at hx; cases hx
            rw [ea, List.nil_append] at e
            rw [List.getElem?_eq_getElem q1] at q2
            refine ⟨t, _, b, t[p], t.drop (p + 1), hs, ?_, (dateScan_iff _).1 k1, hb, ?_, by omega⟩
            · rw [← List.append_assoc, ← e, ← List.drop_eq_getElem_cons q1, List.take_append_drop]
            · simpa using q2
          · rw [if_neg g3] at h; simp at h
        · rw [if_neg g2] at h; simp at h
    · rw [if_neg g1] at h; simp at h

/-- Text that survives the removal of a zone. -/
theorem dropZone_ge (r : List UInt8) (h5 : ∀ c ∈ r.take 5, c ≠ 43) (hl : 5 ≤ r.length) (hz : 6 ≤ r.length ∨ r.getLast? ≠ some 90) :
    5 ≤ (dropZone r).length := by
  unfold dropZone
  dsimp only
  obtain ⟨t, ht⟩ : ∃ t, t = (if r.getLast? == some 90 then r.dropLast else r) := ⟨_, rfl⟩
  rw [← ht]
  have hpre : 5 ≤ t.length ∧ t.take 5 = r.take 5 := by
    rw [ht]
    by_cases hg : (r.getLast? == some 90) = true
    · rw [if_pos hg]
      have hg' : r.getLast? = some 90 := by simpa using hg
      have h6 : 6 ≤ r.length := by
        rcases hz with h | h
        · exact h
        · exact absurd hg' h
      refine ⟨by simp; omega, ?_⟩
      rw [List.dropLast_eq_take, List.take_take]
      congr 1; omega
    · rw [if_neg hg]; exact ⟨hl, rfl⟩
  have hplus : ∀ p, t.findIdx? (· == 43) = some p → 5 ≤ p ∧ p < t.length := by
    intro p hp
    rw [List.findIdx?_eq_some_iff_getElem] at hp
    obtain ⟨h1, h2, _⟩ := hp
    refine ⟨?_, h1⟩
    by_contra hlt
    have : t[p] ∈ t.take 5 := by
      rw [List.mem_take_iff_getElem]
      exact ⟨p, by omega, rfl⟩
    rw [hpre.2] at this
    exact h5 _ this (by simpa using h2)
  have hminus : ∀ p, t.findIdx? (· == 45) = some p → p < t.length := by
    intro p hp
    rw [List.findIdx?_eq_some_iff_getElem] at hp
    exact hp.1
  split
  · rename_i p m hp
    have := hplus _ hp
    rw [if_pos (by omega), List.length_take]; omega
  · rename_i m hp hm
    have := hminus _ hm
    by_cases h : m > 5
    · rw [if_pos h, List.length_take]; omega
    · rw [if_neg h]; exact hpre.1
  · exact hpre.1

theorem findIdx_append_cons (a r : List UInt8) (b : UInt8) (h : b ∉ a) : (a ++ b :: r).findIdx? (· == b) = some a.length := by
  rw [List.findIdx?_eq_some_iff_getElem]
  refine ⟨by simp, by simp, ?_⟩
  intro j hj
  rw [List.getElem_append_left hj]
  simp only [beq_iff_eq]
  intro e
  exact h (e ▸ List.getElem_mem _)

theorem date_bytes {d : List UInt8} (h : DateText d) : d.length = 10 ∧ ∀ c ∈ d, IsDigit c ∨ c = 45 ∨ c = 47 := by
  obtain ⟨sep, x, y, z, hsep, rfl, hy, h⟩ := h
  have hx : x.length + z.length = 6 ∧ Digits x ∧ Digits z := by
    rcases h with ⟨⟨h1, h2⟩, ⟨h3, h4⟩⟩ | ⟨⟨h1, h2⟩, ⟨h3, h4⟩⟩ <;> exact ⟨by omega, h2, h4⟩
  refine ⟨by have := hy.1; simp; omega, ?_⟩
  intro c hc
  simp only [List.mem_append, List.mem_cons] at hc
  rcases hc with hc | rfl | hc | rfl | hc
  · exact .inl (hx.2.1 c hc)
  · exact .inr hsep
  · exact .inl (hy.2 c hc)
  · exact .inr hsep
  · exact .inl (hx.2.2 c hc)

theorem white_cases {c : UInt8} (h : whiteSpace c = true) : c = 32 ∨ c = 9 ∨ c = 10 ∨ c = 11 ∨ c = 12 ∨ c = 13 := by
  simpa [whiteSpace, or_assoc] using h

theorem date_byte_plain {c : UInt8} (h : IsDigit c ∨ c = 45 ∨ c = 47) : whiteSpace c = false ∧ c ≠ 84 ∧ c ≠ 32 := by
  have hw : whiteSpace c = false := by
    cases hc : whiteSpace c with
    | false => rfl
    | true =>
      rcases white_cases hc with rfl | rfl | rfl | rfl | rfl | rfl <;> rcases h with h | h | h <;> simp [IsDigit] at h
  refine ⟨hw, ?_, ?_⟩ <;> (rintro rfl; rcases h with h | h | h <;> simp [IsDigit] at h)

/-- What follows a date need not be a time. -/
theorem datetime_of (d r : List UInt8) (c : UInt8) (hd : DateText d) (hc : c = 84 ∨ (c = 32 ∧ (84 : UInt8) ∉ r)) (hl : 5 ≤ r.length)
    (h5 : ∀ x ∈ r.take 5, x ≠ 43) (hz : 6 ≤ r.length ∨ r.getLast? ≠ some 90) (hlast : ∀ x, r.getLast? = some x → whiteSpace x = false) :
    inferCellType (d ++ c :: r) = .DATETIME := by
  obtain ⟨hd1, hd2⟩ := date_bytes hd
  obtain ⟨s, hs⟩ : ∃ s, s = d ++ c :: r := ⟨_, rfl⟩
  have hlen : s.length = 11 + r.length := by rw [hs]; simp; omega
  have hhead : ∀ x, s.head? = some x → whiteSpace x = false := by
    intro x hx
    rw [hs, List.head?_append] at hx
    cases d with
    | nil => simp at hd1
    | cons y d => simp at hx; subst hx; exact (date_byte_plain (hd2 y (by simp))).1
  have htrim : trimBy isSpaceLocale s = s := by
    rw [trimBy_space]; symm; rw [← stripped_iff]
    refine ⟨[], [], by simp, by simp, by simp, hhead, ?_⟩
    intro x hx
    rw [hs] at hx
    have hr : r ≠ [] := by rintro rfl; simp at hl
    rw [List.getLast?_append_of_ne_nil _ (by simp), List.getLast?_cons_of_ne_nil hr] at hx
    exact hlast x hx
  have hdtrim : trimBy isSpaceLocale d = d := by
    rw [trimBy_space]; symm; rw [← stripped_iff]
    exact ⟨[], [], by simp, by simp, by simp, fun x hx => (date_byte_plain (hd2 x (List.mem_of_mem_head? hx))).1,
      fun x hx => (date_byte_plain (hd2 x (List.mem_of_getLast? hx))).1⟩
  have e0 : ¬ s.isEmpty = true := by intro h; have : s = [] := by simpa using h
                                     rw [this] at hlen; simp at hlen; omega
  have e1 : ¬ boolScan s = true := by
    rw [boolScan_iff]; intro h
    rcases h with h | h | h | h | h | h <;> rw [h] at hlen <;> simp at hlen <;> omega
  have e23 : intScan s = false ∧ floatScan s = false := by
    obtain ⟨sep, x, y, z, hsep, rfl, hy, h⟩ := hd
    have hx : x ≠ [] ∧ Digits x := by
      rcases h with ⟨⟨h1, h2⟩, _⟩ | ⟨⟨h1, h2⟩, _⟩ <;> exact ⟨by rintro rfl; simp at h1, h2⟩
    rw [hs, List.append_assoc, List.cons_append]
    apply not_number x _ sep hx.1 hx.2 <;> rcases hsep with rfl | rfl <;> simp [IsDigit]
  have e4 : ¬ dateScan s = true := by
    rw [dateScan_iff]; intro h; have := (date_bytes h).1; omega
  have e5 : ¬ timeScan s = true := by
    rw [timeScan_iff]
    rintro ⟨hh, m, h1, h2, h | ⟨sec, h3, h⟩⟩
    · rw [h] at hlen; have := h1.1; have := h2.1; simp at hlen; omega
    · rw [h] at hlen; have := h1.1; have := h2.1; have := h3.1; simp at hlen; omega
  have hsep : sepPos s = some 10 := by
    unfold sepPos
    rcases hc with rfl | ⟨rfl, hr⟩
    · rw [hs, findIdx_append_cons d r 84 (fun h => (date_byte_plain (hd2 _ h)).2.1 rfl), hd1]
    · have : s.findIdx? (· == 84) = none := by
        rw [List.findIdx?_eq_none_iff]
        intro x hx
        rw [hs] at hx
        simp only [List.mem_append, List.mem_cons] at hx
        rw [beq_eq_false_iff_ne]
        rcases hx with hx | rfl | hx
        · exact (date_byte_plain (hd2 x hx)).2.1
        · decide
        · rintro rfl; exact hr hx
      rw [this]
      dsimp only
      rw [hs, findIdx_append_cons d r 32 (fun h => (date_byte_plain (hd2 _ h)).2.2 rfl), hd1]
  have htake : s.take 10 = d := by rw [hs, ← hd1, List.take_left]
  have hdrop : s.drop 11 = r := by
    rw [hs, show (11 : Nat) = d.length + 1 by omega, List.drop_length_add_append]; rfl
  rw [← hs]
  unfold inferCellType
  rw [inferGo.eq_def]
  dsimp only
  rw [htrim, if_neg e0, if_neg e1, if_neg (by simp [e23.1]), if_neg (by simp [e23.2]), if_neg e4, if_neg e5, hlen,
    show 11 + r.length = (10 + r.length) + 1 by omega]
  dsimp only
  rw [if_pos (by omega), hsep]
  dsimp only
  rw [if_pos (by omega), htake, hdrop]
  have k1 : inferGo (10 + r.length) d = .DATE := by
    rw [(inferGo_simple _ d).2.2.2.2.1, hdtrim, dateScan_iff]; exact hd
  have k2 := dropZone_ge r h5 hl hz
  rw [k1]
  rw [if_pos]
  simp [k2]

/-- **C76** Every date-time written as a date, `T` or a space, a time with optional fraction and an optional zone is typed as a date-time. -/
theorem C76_datetime (d h f z : List UInt8) (c : UInt8) (hd : DateText d) (hc : c = 84 ∨ c = 32) (hh : TimeText h) (hf : f = [] ∨ Fraction f)
    (hz : ZoneText z) : inferCellType (d ++ c :: (h ++ (f ++ z))) = .DATETIME := by
  have hh1 : 5 ≤ h.length ∧ ∀ x ∈ h, IsDigit x ∨ x = 58 := by
    obtain ⟨a, m, ha, hm, rfl | ⟨sec, hs, rfl⟩⟩ := hh
    · refine ⟨by have := ha.1; have := hm.1; simp; omega, ?_⟩
      intro x hx
      simp only [List.mem_append, List.mem_cons] at hx
      rcases hx with hx | rfl | hx
      · exact .inl (ha.2 x hx)
      · exact .inr rfl
      · exact .inl (hm.2 x hx)
    · refine ⟨by have := ha.1; have := hm.1; have := hs.1; simp; omega, ?_⟩
      intro x hx
      simp only [List.mem_append, List.mem_cons] at hx
      rcases hx with hx | rfl | hx | rfl | hx
      · exact .inl (ha.2 x hx)
      · exact .inr rfl
      · exact .inl (hm.2 x hx)
      · exact .inr rfl
      · exact .inl (hs.2 x hx)
  have hf1 : ∀ x ∈ f, IsDigit x ∨ x = 46 := by
    rcases hf with rfl | ⟨ds, rfl, hds⟩
    · simp
    · intro x hx; rcases List.mem_cons.1 hx with rfl | hx
      · exact .inr rfl
      · exact .inl (hds x hx)
  have hz1 : ∀ x ∈ z, IsDigit x ∨ x = 58 ∨ x = 43 ∨ x = 45 ∨ x = 90 := by
    rcases hz with rfl | rfl | ⟨c, a, m, hc, ha, hm, rfl⟩
    · simp
    · intro x hx; simp at hx; subst hx; simp
    · intro x hx
      simp only [List.mem_append, List.mem_cons] at hx
      rcases hx with rfl | hx | rfl | hx
      · rcases hc with rfl | rfl <;> simp
      · exact .inl (ha.2 x hx)
      · exact .inr (.inl rfl)
      · exact .inl (hm.2 x hx)
  have hall : ∀ x ∈ h ++ (f ++ z), IsDigit x ∨ x = 58 ∨ x = 46 ∨ x = 43 ∨ x = 45 ∨ x = 90 := by
    intro x hx
    simp only [List.mem_append] at hx
    rcases hx with hx | hx | hx
    · rcases hh1.2 x hx with h | h <;> tauto
    · rcases hf1 x hx with h | h <;> tauto
    · rcases hz1 x hx with h | h | h | h | h <;> tauto
  have hT : (84 : UInt8) ∉ h ++ (f ++ z) := by
    intro hx; rcases hall _ hx with h | h | h | h | h | h <;> simp [IsDigit] at h
  apply datetime_of d _ c hd
  · rcases hc with h | h
    · exact .inl h
    · exact .inr ⟨h, hT⟩
  · simp; omega
  · intro x hx
    rw [List.take_append_of_le_length hh1.1] at hx
    rcases hh1.2 x (List.mem_of_mem_take hx) with h | rfl
    · exact (digit_sign h).1
    · decide
  · by_cases h6 : 6 ≤ (h ++ (f ++ z)).length
    · exact .inl h6
    · right
      have hz0 : f = [] ∧ z = [] := by
        simp only [List.length_append] at h6
        exact ⟨List.length_eq_zero_iff.1 (by omega), List.length_eq_zero_iff.1 (by omega)⟩
      obtain ⟨rfl, rfl⟩ := hz0
      simp only [List.append_nil]
      intro hl
      rcases hh1.2 90 (List.mem_of_getLast? hl) with h | h <;> simp [IsDigit] at h
  · intro x hx
    rcases hall x (List.mem_of_getLast? hx) with h | h | h | h | h | h
    · exact (date_byte_plain (.inl h)).1
    all_goals (subst h; decide)

/-- `2020-01-02T10:00:00.5+01:00` and `02/01/2020 10:00Z`. -/
example : inferCellType [50,48,50,48,45,48,49,45,48,50,84,49,48,58,48,48,58,48,48,46,53,43,48,49,58,48,48] = .DATETIME ∧
    inferCellType [48,50,47,48,49,47,50,48,50,48,32,49,48,58,48,48,90] = .DATETIME := by decide +kernel

/-- **C76 finding** Any text may follow the date: whatever `r` of six or more bytes without `T` or `+` whose last byte is no white space, a date, a space and `r` are
typed as a date-time, as is the row `2020-01-02 10:00,abc`. -/
theorem C76_datetime_text_refuted :
    (∀ d r : List UInt8, DateText d → 6 ≤ r.length → (84 : UInt8) ∉ r → (43 : UInt8) ∉ r → (∀ x, r.getLast? = some x → whiteSpace x = false) →
      inferCellType (d ++ 32 :: r) = .DATETIME) ∧
    inferCellType [50,48,50,48,45,48,49,45,48,50,32,49,48,58,48,48,44,97,98,99] = .DATETIME := by
  refine ⟨?_, by decide +kernel⟩
  intro d r hd h6 hT hp hl
  refine datetime_of d r 32 hd (.inr ⟨rfl, hT⟩) (by omega) ?_ (.inl h6) hl
  rintro x hx rfl
  exact hp (List.mem_of_mem_take hx)

/-- **C76 finding** No calendar is consulted: `9999-99-99` is a date and `99:99:99` a time. -/
theorem C76_calendar_refuted : inferCellType [57,57,57,57,45,57,57,45,57,57] = .DATE ∧ inferCellType [57,57,58,57,57,58,57,57] = .TIME := by decide +kernel

/-- **C76 finding** `nan` and `inf` count as numbers when dialects are scored but are strings when a cell is typed. -/
theorem C76_nan_refuted : couldBeFloat [110, 97, 110] = true ∧ inferCellType [110, 97, 110] = .STRING ∧
    couldBeFloat [45, 73, 110, 102] = true ∧ inferCellType [45, 73, 110, 102] = .STRING := by decide +kernel

/-- The six words that stand for special numbers, in any case and with an optional sign before the last two. -/
def SpecialText (s : List UInt8) : Prop :=
  s.map lowerC = [110, 97, 110] ∨ ∃ sg t, s = sg ++ t ∧ OptSign sg ∧ (t.map lowerC = [105, 110, 102] ∨ t.map lowerC = [105, 110, 102, 105, 110, 105, 116, 121])

/-- **C76** What the scoring takes for numbers: integers, decimal numbers and, other than cell typing, the special values; blanks around them do not matter. -/
theorem C76_numeric (s : List UInt8) :
    (couldBeInteger s = true ↔ ∃ t, Stripped (fun c => c == 32 || c == 9) s t ∧ ∃ v, IntLit t v) ∧
    (couldBeFloat s = true ↔ ∃ t, Stripped (fun c => c == 32 || c == 9) s t ∧ (SpecialText t ∨ DecLit t)) := by
  have hex : ∀ P : List UInt8 → Prop, (∃ t, Stripped (fun c => c == 32 || c == 9) s t ∧ P t) ↔ P (trimBy isBlankC s) := by
    intro P
    constructor
    · rintro ⟨t, h, hp⟩
      rw [(stripped_iff _ _ _).1 h] at hp
      exact hp
    · intro h; exact ⟨_, (stripped_iff _ _ _).2 rfl, h⟩
  rw [hex, hex]
  unfold couldBeInteger couldBeFloat
  dsimp only
  generalize trimBy isBlankC s = t
  constructor
  · rw [← intScan_iff, Bool.and_eq_true]
    exact ⟨fun h => h.2, fun h => ⟨by rw [scan_ne (.inr (.inl h))]; rfl, h⟩⟩
  · have hsp : specialScan t = true ↔ SpecialText t := by
      unfold specialScan SpecialText
      dsimp only
      rw [Bool.and_eq_true, Bool.or_eq_true, Bool.or_eq_true]
      simp only [beq_iff_eq, decide_eq_true_eq]
      constructor
      · rintro ⟨_, h | h⟩
        · exact .inl h
        · obtain ⟨sg, hsg, hs, _⟩ := skipSign_cases t
          exact .inr ⟨sg, _, hs, hsg, h⟩
      · rintro (h | ⟨sg, u, rfl, hsg, h⟩)
        · have := congrArg List.length h
          simp at this
          exact ⟨by omega, .inl h⟩
        · have hs : skipSign (sg ++ u) = u := by
            apply skipSign_append _ _ hsg
            intro c hc
            cases u with
            | nil => simp at hc
            | cons x u =>
              simp at hc; subst hc
              constructor <;> (rintro rfl; rcases h with h | h <;> simp [lowerC] at h)
          have hl : 3 ≤ u.length := by
            rcases h with h | h <;> (have := congrArg List.length h; simp at this; omega)
          rw [hs]
          exact ⟨by simp; omega, .inr h⟩
    rw [← floatScan_iff, ← hsp, Bool.and_eq_true, Bool.or_eq_true]
    refine ⟨fun h => h.2, fun h => ⟨?_, h⟩⟩
    cases t with
    | nil => revert h; decide +kernel
    | cons => rfl

/-- ` -Infinity`, `+7`, `1e5`. -/
example : couldBeFloat [32, 45, 73, 110, 102, 105, 110, 105, 116, 121] = true ∧ couldBeInteger [43, 55] = true ∧ couldBeFloat [49, 101, 53, 9] = true := by
  decide +kernel

end Vroom
