import Verif.Spec.QuotedTable
import Verif.Props.Detect
import Mathlib.Data.List.Induction
import Mathlib.Data.Nat.Sqrt
import Mathlib.Data.Rat.Floor
/-
C77 for tables with quoted fields.
-/
namespace Vroom
open Spec

/-- What a text says to a dialect whose escape character does not occur in it. -/
theorem live_noescape (Q : Quoting) : ∀ t : List UInt8, (∀ c ∈ t, Q.esc ≠ some c) →
    liveQuotes Q t = liveQuotes ⟨Q.quote, none⟩ t ∧ settled Q t = true
  | [], _ => ⟨rfl, rfl⟩
  | [a], h => by simp [liveQuotes, settled, h a (by simp)]
  | a :: b :: t, h => by
    obtain ⟨h1, h2⟩ := live_noescape Q (b :: t) (fun c hc => h c (List.mem_cons_of_mem _ hc))
    have ha := h a (by simp)
    simp only [liveQuotes, settled]
    rw [if_neg ha, if_neg ha, h1]
    exact ⟨by simp, h2⟩

theorem outside_noescape (Q : Quoting) (t : List UInt8) (h : ∀ c ∈ t, Q.esc ≠ some c) : outside Q t = outside ⟨Q.quote, none⟩ t := by
  obtain ⟨h1, h2⟩ := live_noescape Q t h
  unfold outside
  rw [h1, h2, settled_noesc ⟨Q.quote, none⟩ rfl t]

/-- The sample as seen by a dialect whose escape byte does not occur in it. -/
theorem allFields_noescape (o : DetectOptions) (hm : 1 ≤ o.maxRows) (d : Dialect) (hd : d.Sane) (t : List UInt8)
    (he : ∀ c ∈ t, d.quoting.esc ≠ some c) :
    allFields o d t = ((sampleRows ⟨d.quoting.quote, none⟩ o.commentChars o.maxRows t).map (sliceOf t)).map (fun l =>
      if l = [] then [] else (pieces l 0 (fieldCuts ⟨d.quoting.quote, none⟩ d.delimiter l)).map (unquote ⟨d.quoting.quote, none⟩)) := by
  have hsub : ∀ (i : Nat) (u : List UInt8), (∀ c ∈ u, c ∈ t) → outside d.quoting (u.take i) = outside ⟨d.quoting.quote, none⟩ (u.take i) := by
    intro i u hu
    exact outside_noescape _ _ (fun c hc => he c (hu c (List.mem_of_mem_take hc)))
  unfold allFields
  rw [findRows_spec o d hd hm]
  have hrows : sampleRows d.quoting o.commentChars o.maxRows t = sampleRows ⟨d.quoting.quote, none⟩ o.commentChars o.maxRows t := by
    unfold sampleRows lineEnds
    congr 4
    funext i
    rw [hsub i t (fun c hc => hc)]
  rw [hrows, List.map_map]
  apply List.map_congr_left
  intro r _
  rw [show (t.drop r.1).take (r.2 - r.1) = sliceOf t r from rfl]
  have hmem : ∀ c ∈ sliceOf t r, c ∈ t := fun c hc => List.mem_of_mem_drop (List.mem_of_mem_take hc)
  simp only [Function.comp]
  by_cases hne : sliceOf t r = []
  · rw [if_pos hne, hne]; rfl
  · rw [if_neg hne, extractFields_spec d hd _ hne]
    have hcuts : fieldCuts d.quoting d.delimiter (sliceOf t r) = fieldCuts ⟨d.quoting.quote, none⟩ d.delimiter (sliceOf t r) := by
      unfold fieldCuts
      congr 1
      funext i
      rw [hsub i _ hmem]
    rw [hcuts]
    rfl

theorem mem_of_escape {c : UInt8} (h34 : c ≠ 34) {b : List UInt8} (hc : c ∈ escape 34 b) : c ∈ b := by
  induction b with
  | nil => simp [escape] at hc
  | cons x b ih =>
    simp only [escape] at hc
    split at hc
    · simp only [List.mem_cons, h34, false_or] at hc
      exact List.mem_cons_of_mem _ (ih hc)
    · rw [List.mem_cons] at hc
      rcases hc with rfl | hc
      · simp
      · exact List.mem_cons_of_mem _ (ih hc)

/-- The bytes of a written table. -/
theorem quotedText_mem {d c : UInt8} {T : List WRow} (h : c ∈ quotedText d T) :
    c = 10 ∨ c = 13 ∨ c = d ∨ c = 34 ∨ ∃ r ∈ T, (∃ s, WField.plain s ∈ r.fields ∧ c ∈ s) ∨ ∃ b, WField.quoted b ∈ r.fields ∧ c ∈ b := by
  unfold quotedText at h
  rw [List.mem_flatMap] at h
  obtain ⟨r, hr, h⟩ := h
  rw [List.mem_append] at h
  rcases h with h | h
  · rcases join_mem h with rfl | ⟨f, hf, hc⟩
    · simp
    · rw [List.mem_map] at hf
      obtain ⟨g, hg, rfl⟩ := hf
      cases g with
      | plain s => exact .inr (.inr (.inr (.inr ⟨r, hr, .inl ⟨s, hg, hc⟩⟩)))
      | quoted b =>
        simp only [WField.render, List.mem_append, List.mem_cons, List.not_mem_nil, or_false] at hc
        rcases hc with (rfl | hc) | rfl
        · simp
        · by_cases h34 : c = 34
          · simp [h34]
          · refine .inr (.inr (.inr (.inr ⟨r, hr, .inr ⟨b, hg, ?_⟩⟩)))
            exact mem_of_escape h34 hc
        · simp
  · split at h <;> simp at h <;> rcases h with rfl | rfl <;> simp

theorem quotedText_terminated (d : UInt8) (T : List WRow) : quotedText d T = terminated (T.map (fun r => (quotedLine d r, r.crlf))) := by
  unfold quotedText
  induction T with
  | nil => rfl
  | cons r rs ih => rw [List.flatMap_cons, ih]; rfl

/-- A written field holds no line end and no foreign delimiter outside its quotes. -/
theorem field_whole {o : DetectOptions} {n : Nat} {T : List WRow} (hT : QuotedTable o n T) {r : WRow} (hr : r ∈ T)
    (h34 : (34 : UInt8) ∈ o.quoteChars) (stop : UInt8 → Bool) (hs : stop 34 = false)
    (hst : ∀ c, stop c = true → c = 10 ∨ c = 13 ∨ c ∈ o.delimiters) (f : WField) (hf : f ∈ r.fields) :
    Whole ⟨some 34, none⟩ stop (f.render 34) := by
  cases f with
  | plain s =>
    have hb := hT.bare r hr s hf
    refine whole_plain ⟨some 34, none⟩ 34 rfl rfl stop s ?_ (fun h => (hb 34 h).2.2.2.1 h34)
    intro c hc
    by_contra hcs
    have := hb c hc
    rcases hst c (by simpa using hcs) with h | h | h
    · exact this.1 h
    · exact this.2.1 h
    · exact this.2.2.1 h
  | quoted b => exact whole_quoted ⟨some 34, none⟩ 34 rfl rfl stop b hs

/-- The rows of a written table, as cut by a dialect that quotes with `"` and whose escape byte does not occur. -/
theorem quoted_rows (o : DetectOptions) (ho : OptionsOk o) (h34 : (34 : UInt8) ∈ o.quoteChars) (d : UInt8) (hd : d ∈ o.delimiters) (n : Nat) (hn : 2 ≤ n)
    (T : List WRow) (hT : QuotedTable o n T) (hc : ∀ r ∈ T, commentLine o.commentChars (quotedLine d r) = false) :
    (sampleRows ⟨some 34, none⟩ o.commentChars o.maxRows (quotedText d T)).map (sliceOf (quotedText d T)) =
      (T.take o.maxRows).map (quotedLine d) := by
  obtain ⟨kd0, kd10, kd13, kdq, kde⟩ := ho.delim_line d hd
  have h3410 := ho.quote_line 34 h34
  have hb : ∀ r ∈ T, Whole ⟨some 34, none⟩ isBreak (quotedLine d r) := by
    intro r hr
    refine whole_join _ _ _ rfl (by simp; rintro rfl; exact kdq h34) (by simp [isBreak, kd10, kd13]) _ ?_
    intro f hf
    rw [List.mem_map] at hf
    obtain ⟨g, hg, rfl⟩ := hf
    refine field_whole hT hr h34 isBreak (by decide) ?_ g hg
    intro c hc
    simp [isBreak] at hc
    tauto
  have ht := ranges_text ⟨some 34, none⟩ o.commentChars o.maxRows (by simp) (by simp) rfl (T.map (fun r => (quotedLine d r, r.crlf))) (by
    intro l hl
    rw [List.mem_map] at hl
    obtain ⟨r, hr, rfl⟩ := hl
    exact hb r hr)
  rw [← quotedText_terminated] at ht
  rw [ht, List.map_map, List.filter_eq_self.2, List.map_take]
  · rfl
  · intro l hl
    rw [List.mem_map] at hl
    obtain ⟨r, hr, rfl⟩ := hl
    have hne : quotedLine d r ≠ [] := by
      have := hT.width r hr
      unfold quotedLine
      match h : r.fields, this with
      | f :: g :: fs, _ => simp [joinFields]
      | [f], h2 => simp at h2; omega
      | [], h2 => simp at h2; omega
    simp only [Function.comp]
    rw [hc r hr, decide_eq_true hne]; rfl

theorem line_ne {o : DetectOptions} {n : Nat} {T : List WRow} (hT : QuotedTable o n T) (hn : 2 ≤ n) (d : UInt8) {r : WRow} (hr : r ∈ T) :
    quotedLine d r ≠ [] ∧ d ∈ quotedLine d r := by
  have := hT.width r hr
  unfold quotedLine
  match h : r.fields, this with
  | f :: g :: fs, _ => simp [joinFields]
  | [f], h2 => simp at h2; omega
  | [], h2 => simp at h2; omega

/-- The fields found by a dialect that quotes with `"`: with the right delimiter the fields without quotes, with another one the whole row. -/
theorem quoted_fields (o : DetectOptions) (ho : OptionsOk o) (h34 : (34 : UInt8) ∈ o.quoteChars) (d : UInt8) (hd : d ∈ o.delimiters) (n : Nat) (hn : 2 ≤ n)
    (T : List WRow) (hT : QuotedTable o n T) (hc : ∀ r ∈ T, commentLine o.commentChars (quotedLine d r) = false)
    (dd : Dialect) (hdd : dd ∈ generateCandidates o) (hq : dd.quote = 34) (he : ∀ c ∈ quotedText d T, dd.quoting.esc ≠ some c) :
    allFields o dd (quotedText d T) = (T.take o.maxRows).map (fun r =>
      if dd.delimiter = d then r.fields.map withoutQuotes else [unquote ⟨some 34, none⟩ (quotedLine d r)]) := by
  obtain ⟨kd0, kd10, kd13, kdq, kde⟩ := ho.delim_line d hd
  have hQ : dd.quoting.quote = some 34 := by simp [Dialect.quoting, hq]
  have hdel := (candidate_facts ho hdd).1
  obtain ⟨jd0, jd10, jd13, jdq, jde⟩ := ho.delim_line _ hdel
  have hd34 : d ≠ 34 := by rintro rfl; exact kdq h34
  have hdd34 : dd.delimiter ≠ 34 := by intro h; rw [h] at jdq; exact jdq h34
  rw [allFields_noescape o ho.rows dd (candidate_sane ho hdd) _ he, hQ, quoted_rows o ho h34 d hd n hn T hT hc, List.map_map]
  apply List.map_congr_left
  intro r hr
  have hr := List.mem_of_mem_take hr
  simp only [Function.comp]
  rw [if_neg (line_ne hT hn d hr).1]
  by_cases hde : dd.delimiter = d
  · rw [if_pos hde, hde]
    unfold quotedLine
    rw [pieces_join ⟨some 34, none⟩ d (by simp) (by simpa using fun h => hd34 h.symm)]
    · rw [List.map_map]
      apply List.map_congr_left
      intro f hf
      have hwf : f.WF ⟨d, 34, 10⟩ := by
        cases f with
        | plain s =>
          have hb := hT.bare r hr s hf
          exact ⟨fun h => (hb d h).2.2.1 hd, fun h => (hb 34 h).2.2.2.1 h34, fun h => (hb 10 h).1 rfl, fun h => (hb 13 h).2.1 rfl⟩
        | quoted b => trivial
      have := unquote_render ⟨some 34, none⟩ 34 rfl ⟨d, 34, 10⟩ rfl f hwf
      simp only [Function.comp]
      rw [this]
      cases f <;> rfl
    · intro h
      have := hT.width r hr
      rw [List.map_eq_nil_iff] at h
      rw [h] at this; simp at this; omega
    · intro f hf
      rw [List.mem_map] at hf
      obtain ⟨g, hg, rfl⟩ := hf
      refine field_whole hT hr h34 _ (by simpa using fun h => hd34 h.symm) ?_ g hg
      intro c hc
      right; right
      have : c = d := by simpa using hc
      rw [this]; exact hd
  · rw [if_neg hde]
    have hw : Whole ⟨some 34, none⟩ (· == dd.delimiter) (quotedLine d r) := by
      refine whole_join _ _ _ rfl (by simpa using fun h => hd34 h.symm) (by simpa using fun h => hde h.symm) _ ?_
      intro f hf
      rw [List.mem_map] at hf
      obtain ⟨g, hg, rfl⟩ := hf
      refine field_whole hT hr h34 _ (by simpa using fun h => hdd34 h.symm) ?_ g hg
      intro c hc
      right; right
      have : c = dd.delimiter := by simpa using hc
      rw [this]; exact hdel
    have := pieces_join ⟨some 34, none⟩ dd.delimiter (by simp) (by simpa using fun h => hdd34 h.symm) [quotedLine d r] (by simp) (by simpa using hw)
    simp only [joinFields] at this
    rw [this]; rfl

/-! ### Scores -/

/-- A text with a quote in it that looks typed starts with a date. -/
theorem typed_quote (s : List UInt8) (d : UInt8) (hd : d = 34) (hs : d ∈ s) (h : looksTyped s = true) : StartsWithDate s := by
  have hdig : ¬ IsDigit d := by subst hd; simp [IsDigit]
  have hblank : (d == 32 || d == 9) = false := by subst hd; decide
  have hwhite : whiteSpace d = false := by subst hd; decide
  have hint : ∀ t v, d ∈ t → ¬ IntLit t v := by
    intro t v hm hi
    rcases intLit_mem hi hm with h | h | h
    · exact hdig h
    · subst hd; simp at h
    · subst hd; simp at h
  have hdec : ∀ t, d ∈ t → ¬ DecLit t := by
    intro t hm hi
    rcases decLit_mem hi hm with h | h
    · exact hdig h
    · subst hd; simp at h
  have hspec : ∀ t, d ∈ t → ¬ SpecialText t := by
    intro t hm hi
    have hlow : ∀ u : List UInt8, d ∈ u → lowerC d ∈ u.map lowerC := fun u hu => List.mem_map_of_mem hu
    rcases hi with hi | ⟨sg, u, rfl, hsg, hi⟩
    · have := hlow t hm
      rw [hi] at this
      subst hd; simp [lowerC] at this
    · rw [List.mem_append] at hm
      rcases hm with hm | hm
      · subst hd; rcases sign_mem hsg hm with h | h <;> simp at h
      · have := hlow u hm
        subst hd; rcases hi with hi | hi <;> rw [hi] at this <;> simp [lowerC] at this
  unfold looksTyped at h
  rw [Bool.or_eq_true, Bool.or_eq_true] at h
  rcases h with (h | h) | h
  · rw [(C76_numeric s).1] at h
    obtain ⟨t, ht, v, hv⟩ := h
    exact absurd hv (hint t v (stripped_mem ht hs hblank))
  · rw [(C76_numeric s).2] at h
    obtain ⟨t, ht, hv⟩ := h
    have hm := stripped_mem ht hs hblank
    rcases hv with hv | hv
    · exact absurd hv (hspec t hm)
    · exact absurd hv (hdec t hm)
  · cases hk : inferCellType s with
    | EMPTY =>
      rw [C76_empty] at hk
      have := hk d hs; rw [hwhite] at this; cases this
    | BOOLEAN =>
      rw [C76_boolean] at hk
      obtain ⟨t, ht, hb⟩ := hk
      have hm := stripped_mem ht hs hwhite
      subst hd; rcases hb with rfl | rfl | rfl | rfl | rfl | rfl <;> simp at hm
    | INTEGER =>
      rw [C76_integer] at hk
      obtain ⟨t, ht, v, hv⟩ := hk
      exact absurd hv (hint t v (stripped_mem ht hs hwhite))
    | FLOAT =>
      rw [C76_float] at hk
      obtain ⟨t, ht, hv⟩ := hk
      exact absurd hv (hdec t (stripped_mem ht hs hwhite))
    | DATE =>
      rw [C76_date] at hk
      obtain ⟨t, ht, hv⟩ := hk
      rcases (date_bytes hv).2 d (stripped_mem ht hs hwhite) with h | h | h
      · exact absurd h hdig
      · subst hd; simp at h
      · subst hd; simp at h
    | TIME =>
      rw [C76_time] at hk
      obtain ⟨t, ht, hv⟩ := hk
      have hm := stripped_mem ht hs hwhite
      exfalso
      obtain ⟨a, m, ha, hmm, rfl | ⟨sec, hsec, rfl⟩⟩ := hv
      · simp only [List.mem_append, List.mem_cons] at hm
        rcases hm with hm | hm | hm
        · exact hdig (ha.2 d hm)
        · subst hd; simp at hm
        · exact hdig (hmm.2 d hm)
      · simp only [List.mem_append, List.mem_cons] at hm
        rcases hm with hm | hm | hm | hm | hm
        · exact hdig (ha.2 d hm)
        · subst hd; simp at hm
        · exact hdig (hmm.2 d hm)
        · subst hd; simp at hm
        · exact hdig (hsec.2 d hm)
    | DATETIME =>
      obtain ⟨t, dd, w, c, r, ⟨a, b, rfl, ha, _⟩, rfl, hdd, _⟩ := C76_datetime_shape s hk
      exact ⟨a, dd, w ++ c :: r ++ b, by simp [List.append_assoc], ha, hdd⟩
    | STRING => rw [hk] at h; simp at h

theorem date_not_quote {s : List UInt8} (h : StartsWithDate (34 :: s)) : False := by
  obtain ⟨w, d, r, he, hw, hd⟩ := h
  cases w with
  | nil =>
    have hdb := date_bytes hd
    cases d with
    | nil => simp at hdb
    | cons x d =>
      simp only [List.nil_append, List.cons_append, List.cons.injEq] at he
      have := hdb.2 x (by simp)
      rw [← he.1] at this
      rcases this with h | h | h
      · simp [IsDigit] at h
      · cases h
      · cases h
  | cons x w =>
    simp only [List.cons_append, List.cons.injEq] at he
    have := hw x (by simp)
    rw [← he.1] at this
    revert this; decide

/-- A quoted field with its quotes on never looks typed. -/
theorem quoted_not_typed (b : List UInt8) : looksTyped (34 :: b) = false := by
  by_contra h
  exact date_not_quote (typed_quote (34 :: b) 34 rfl (by simp) (by simpa using h))

theorem before_ge {a b : DialectCandidate} (h : b.score ≤ a.score) (ht : tieBefore a b = true) : a.before b = true := by
  by_cases hgt : a.score - b.score > 1 / 1000000000
  · exact before_of_gt hgt
  · rw [before_of_tie hgt (by linarith)]; exact ht

theorem escapePairs_fst (q e : UInt8) : ∀ t : List UInt8, e ∉ t → (escapePairs q e t).1 = 0
  | [], _ => rfl
  | [_], _ => rfl
  | a :: b :: t, h => by
    simp only [escapePairs]
    rw [escapePairs_fst q e (b :: t) (fun hb => h (List.mem_cons_of_mem _ hb))]
    have h1 : a ≠ e := fun hb => h (by simp [hb])
    simp [h1]

/-- The gain for doubled quotes. -/
def doubledGain (t : List UInt8) : Rat := if escapeSignal 34 34 t < 0 then 11 / 10 else 1

theorem escapePairs_doubled : ∀ t : List UInt8, (escapePairs 34 34 t).1 = 0 ∧ ((escapePairs 34 34 t).2 > 0 ↔ doubledQuotes t = true)
  | [] => by simp [escapePairs, doubledQuotes]
  | [_] => by simp [escapePairs, doubledQuotes]
  | a :: b :: t => by
    obtain ⟨h1, h2⟩ := escapePairs_doubled (b :: t)
    simp only [escapePairs, doubledQuotes]
    refine ⟨by rw [h1]; simp, ?_⟩
    rw [Bool.or_eq_true, ← h2]
    by_cases h : (a == 34 && b == 34) = true
    · rw [if_pos h]; simp [h]
    · rw [if_neg h]; simp [h]

theorem doubledGain_eq (t : List UInt8) : doubledGain t = if doubledQuotes t = true then 11 / 10 else 1 := by
  obtain ⟨h1, h2⟩ := escapePairs_doubled t
  have hsig : escapeSignal 34 34 t < 0 ↔ doubledQuotes t = true := by
    rw [← h2]
    unfold escapeSignal
    dsimp only
    split_ifs <;> omega
  unfold doubledGain
  simp only [hsig]

theorem doubledGain_ge (t : List UInt8) : 1 ≤ doubledGain t := by unfold doubledGain; split <;> norm_num

/-- The score of a candidate that quotes with `"`. -/
theorem score_quoted (A : ScoreFns) (o : DetectOptions) (dd : Dialect) (s : List UInt8) (hq : dd.quote = 34)
    (he : dd.doubleQuote = false → dd.escape = 0 ∨ dd.escape ∉ s) (F : List (List (List UInt8)))
    (hF : allFields o dd s = F) (hrows : o.minRows ≤ F.length) (hne : F ≠ []) :
    scoreDialect A o dd s = ⟨dd, A.combine (A.pattern (F.map List.length)) (A.modal (F.map List.length)) (A.types (dataRows F)) *
      (if dd.doubleQuote = true then doubledGain s else 1), A.modal (F.map List.length)⟩ := by
  unfold scoreDialect
  dsimp only
  rw [hF, if_neg (by simp only [not_or, not_lt]; exact ⟨hrows, by simpa using hne⟩)]
  congr 1
  rw [if_pos (by rw [hq]; decide)]
  cases hdq : dd.doubleQuote with
  | true =>
    simp only [if_true, ne_eq, not_true_eq_false, if_false]
    unfold doubledGain
    rw [hq]
    split
    · rfl
    · rw [mul_one]; rfl
  | false =>
    simp only [Bool.false_eq_true, if_false, and_false, mul_one]
    split
    · rename_i h0
      rw [if_neg]
      · rfl
      · rintro ⟨h, -⟩
        have hns := (he hdq).resolve_left h0
        unfold escapeSignal at h
        simp only [escapePairs_fst _ _ _ hns] at h
        simp at h
        split at h <;> omega
    · rfl

/-- Too few rows score nothing. -/
theorem score_short (A : ScoreFns) (o : DetectOptions) (dd : Dialect) (s : List UInt8) (F : List (List (List UInt8)))
    (hF : allFields o dd s = F) (h : ¬ (o.minRows ≤ F.length ∧ F ≠ [])) : scoreDialect A o dd s = { dialect := dd } := by
  unfold scoreDialect
  dsimp only
  rw [hF, if_pos]
  by_contra hc
  simp only [not_or, not_lt] at hc
  exact h ⟨hc.1, by simpa using hc.2⟩

/-- Cutting at every delimiter gives one field more than there are delimiters. -/
theorem pieces_len (t : List UInt8) : ∀ (cuts : List Nat) (s : Nat), (pieces t s cuts).length = cuts.length + 1
  | [], _ => rfl
  | c :: cs, s => by simp [pieces, pieces_len t cs]

theorem filter_getElem_count (d : UInt8) (t : List UInt8) : ((List.range t.length).filter (fun i => t[i]? == some d)).length = t.count d := by
  induction t with
  | nil => rfl
  | cons a t ih =>
    rw [List.length_cons, List.range_succ_eq_map, List.filter_cons, List.filter_map]
    have : ((fun i => (a :: t)[i]? == some d) ∘ Nat.succ) = (fun i => t[i]? == some d) := by funext i; simp
    rw [this]
    by_cases h : a = d
    · simp [h, ih]
    · simp [h, ih]

theorem bare_cuts (d : UInt8) (t : List UInt8) : (pieces t 0 (fieldCuts ⟨none, none⟩ d t)).length = t.count d + 1 := by
  rw [pieces_len]
  unfold fieldCuts
  have : (fun i => t[i]? == some d && outside ⟨none, none⟩ (t.take i)) = (fun i => t[i]? == some d) := by
    funext i
    rw [outside_free ⟨none, none⟩ (t.take i) (by simp) (by simp), Bool.and_true]
  rw [this, filter_getElem_count]

/-- The sample as seen by a dialect none of whose quote and escape bytes occur in it, line by line. -/
theorem bare_fields (o : DetectOptions) (hm : 1 ≤ o.maxRows) (d : Dialect) (hd : d.Sane) (t : List UInt8)
    (hq : ∀ c ∈ t, d.quoting.quote ≠ some c) (he : ∀ c ∈ t, d.quoting.esc ≠ some c) :
    allFields o d t = (bareLines o t).map (fun l => pieces l 0 (fieldCuts ⟨none, none⟩ d.delimiter l)) := by
  rw [allFields_free o hm d hd t hq he]
  unfold bareLines
  rw [List.map_map]
  apply List.map_congr_left
  intro r hr
  unfold sampleRows at hr
  have hr := List.mem_of_mem_take hr
  rw [List.mem_filter] at hr
  have h1 := hr.2
  simp only [Bool.and_eq_true, decide_eq_true_eq] at h1
  have hb := (lineRanges_order t (lineEnds ⟨none, none⟩ t) 0 (lineEnds_sorted _ _)
    (by intro e he; unfold lineEnds at he; rw [List.mem_filter, List.mem_range] at he; exact ⟨Nat.zero_le _, he.1⟩)).1 r hr.1
  rw [if_neg]
  · rfl
  · intro h
    have := congrArg List.length h
    simp only [sliceOf, List.length_take, List.length_drop, List.length_nil] at this
    omega

/-- What is reported when the sort puts a candidate with a positive score first. -/
theorem detect_first (A : ScoreFns) (sort : List DialectCandidate → List DialectCandidate) (o : DetectOptions) (ho : OptionsOk o) (buf t : List UInt8)
    (hbuf : ((textLines buf).dropWhile (commentLine o.commentChars)).flatten = t) (h10 : (10 : UInt8) ∈ t)
    (hsz : t.length ≤ o.sampleSize ∧ t.length ≤ 1048576) (D : Dialect) (x : Rat) (n : Nat) (hx : 0 < x)
    (hfirst : (sort (scoredCandidates A o t)).head? = some ⟨D, x, n⟩) :
    let r := detect A sort o buf
    r.dialect.delimiter = D.delimiter ∧ r.dialect.quote = D.quote ∧ r.dialect.doubleQuote = D.doubleQuote ∧ r.columns = n ∧
      r.rows = (allFields o D t).length ∧ r.confidence = x ∧ r.hasHeader = headerOf (allFields o D t) := by
  intro r
  have hsample : sampleOf o buf = t := by
    unfold sampleOf
    dsimp only
    rw [skip_whole o ho buf _ hbuf h10, sample_whole o _ hsz.1 hsz.2]
  rcases detect_cases A sort o buf with h | ⟨best, others, hsort, hpos, h1, h2, h3, h4, h5⟩
  · exfalso
    have hbne : ¬ buf.isEmpty = true := by
      intro hb
      have hb : buf = [] := by simpa using hb
      rw [hb] at hbuf
      have hbuf : [] = t := hbuf
      rw [← hbuf] at h10; simp at h10
    have hc := h.1
    unfold detect at hc
    rw [if_neg hbne] at hc
    dsimp only at hc
    rw [skip_whole o ho buf _ hbuf h10] at hc
    have hne : ¬ t.isEmpty = true := by
      intro hb
      have hb : t = [] := by simpa using hb
      rw [hb] at h10; simp at h10
    rw [if_neg hne, sample_whole o _ hsz.1 hsz.2] at hc
    cases hl : sort (scoredCandidates A o t) with
    | nil => rw [hl] at hfirst; simp at hfirst
    | cons b bs =>
      rw [hl] at hfirst hc
      simp only [List.head?_cons, Option.some.injEq] at hfirst
      rw [hfirst] at hc
      dsimp only at hc
      rw [if_pos hx] at hc
      dsimp only at hc
      linarith
  · rw [hsample] at hsort h4 h5
    rw [hsort] at hfirst
    simp only [List.head?_cons, Option.some.injEq] at hfirst
    rw [hfirst] at h1 h2 h3 h4 h5
    dsimp only at h1 h2 h3 h4 h5
    refine ⟨?_, ?_, ?_, h2, ?_, h1, ?_⟩
    · show (detect _ _ _ _).dialect.delimiter = _; rw [h3]
    · show (detect _ _ _ _).dialect.quote = _; rw [h3]
    · show (detect _ _ _ _).dialect.doubleQuote = _; rw [h3]
    · show (detect _ _ _ _).rows = _
      rw [h5]; simp [allFields]
    · show (detect _ _ _ _).hasHeader = _
      rw [h4]; rfl

theorem combine_mono (sq : Rat → Rat) (hmono : SqrtMono sq) (n : Nat) (t t' : Rat) (h : t' ≤ t) (h1 : t ≤ 1) (hn : 2 ≤ n) :
    combineScore sq 1 n t' ≤ combineScore sq 1 n t := by
  unfold combineScore
  rw [if_pos ⟨by norm_num, by omega⟩, if_pos ⟨by norm_num, by omega⟩, one_mul, one_mul]
  apply max_le_max_left
  apply hmono
  · exact le_trans (by norm_num) (le_max_left _ _)
  · exact max_le_max_left _ h
  · exact max_le (by norm_num) h1

theorem flatten_fields (g : WField → List UInt8) (L : List WRow) : (L.map (fun r => r.fields.map g)).flatten = (L.flatMap WRow.fields).map g := by
  induction L with
  | nil => rfl
  | cons r L ih => simp [ih]

/-- Leaving the quotes on does not make more cells look typed. -/
theorem typeScore_quotes (L : List WRow) : typeScore (L.map (fun r => r.fields.map (·.render 34))) ≤ typeScore (L.map (fun r => r.fields.map withoutQuotes)) := by
  unfold typeScore
  dsimp only
  rw [flatten_fields, flatten_fields, typedCells_eq, typedCells_eq]
  simp only [List.length_map, List.countP_map]
  split
  · exact le_refl _
  · rename_i hl
    have h2 : (0 : Rat) < ((L.flatMap WRow.fields).length : Rat) := by exact_mod_cast (by omega)
    apply max_le_max_left
    rw [div_le_div_iff_of_pos_right h2]
    have : List.countP (looksTyped ∘ fun x => x.render 34) (L.flatMap WRow.fields) ≤ List.countP (looksTyped ∘ withoutQuotes) (L.flatMap WRow.fields) := by
      apply List.countP_mono_left
      intro f _ hf
      cases f with
      | plain s => exact hf
      | quoted b =>
        exfalso
        have hq := quoted_not_typed (escape 34 b ++ [34])
        simp only [Function.comp, WField.render] at hf
        rw [List.cons_append] at hf
        rw [hq] at hf; cases hf
    exact_mod_cast this

/-- The candidates compared with the right one. -/
theorem quoted_best (sq : Rat → Rat) (hmono : SqrtMono sq) (modal : List Nat → Nat) (hm : ModalOk modal)
    (o : DetectOptions) (ho : OptionsOk o) (d : UInt8) (hd : d ∈ o.delimiters) (h34 : (34 : UInt8) ∈ o.quoteChars) (h34e : (34 : UInt8) ∉ o.escapeChars)
    (T : List WRow) (hT0 : T ≠ []) (n : Nat) (hn : 2 ≤ n) (hT : QuotedTable o n T) (hcom : ∀ r ∈ T, commentLine o.commentChars (quotedLine d r) = false)
    (hmin : o.minRows ≤ T.length ∧ o.minRows ≤ o.maxRows)
    (hrow : 10 * (dataRows (T.take o.maxRows)).countP (fun r => looksTyped (unquote ⟨some 34, none⟩ (quotedLine d r))) ≤ 6 * (dataRows (T.take o.maxRows)).length)
    (hno : ∀ d' ∈ o.delimiters, NoBetter o d d' T) :
    ∃ (D : Dialect) (x : Rat), D = { delimiter := d, quote := 34, escape := 34, doubleQuote := true } ∧
      (3 / 5 ≤ x ∧ x = tableConfidence sq ((T.take o.maxRows).map (fun r => r.fields.map withoutQuotes)) * (if doubledQuotes (quotedText d T) = true then 11 / 10 else 1)) ∧
      (⟨D, x, n⟩ : DialectCandidate) ∈ scoredCandidates (detectFns sq modal) o (quotedText d T) ∧
      (∀ y ∈ scoredCandidates (detectFns sq modal) o (quotedText d T), y = ⟨D, x, n⟩ ∨ DialectCandidate.before ⟨D, x, n⟩ y = true) ∧
      allFields o D (quotedText d T) = (T.take o.maxRows).map (fun r => r.fields.map withoutQuotes) := by
  obtain ⟨kd0, kd10, kd13, kdq, kde⟩ := ho.delim_line d hd
  have hmem : ∀ c ∈ quotedText d T, (c = 34 ∨ c ∉ o.quoteChars) ∧ c ∉ o.escapeChars := by
    intro c hc
    rcases quotedText_mem hc with rfl | rfl | rfl | rfl | ⟨r, hr, ⟨s, hs, hcs⟩ | ⟨b, hb, hcb⟩⟩
    · exact ⟨.inr (fun h => (ho.quote_line _ h).1 rfl), fun h => (ho.esc_line _ h).1 rfl⟩
    · exact ⟨.inr (fun h => (ho.quote_line _ h).2 rfl), fun h => (ho.esc_line _ h).2 rfl⟩
    · exact ⟨.inr kdq, kde⟩
    · exact ⟨.inl rfl, h34e⟩
    · have := hT.bare r hr s hs c hcs
      exact ⟨.inr this.2.2.2.1, this.2.2.2.2⟩
    · exact hT.inner r hr b hb c hcb
  have hesc : ∀ dd ∈ generateCandidates o, (dd.doubleQuote = false → dd.escape = 0 ∨ dd.escape ∉ quotedText d T) ∧
      ∀ c ∈ quotedText d T, dd.quoting.esc ≠ some c := by
    intro dd hdd
    obtain ⟨h1, h2, h3, h4, h5⟩ := candidate_facts ho hdd
    have ha : dd.doubleQuote = false → dd.escape = 0 ∨ dd.escape ∉ quotedText d T := by
      intro hdq
      rcases h4 hdq with h | h
      · exact .inl h
      · exact .inr (fun hc => (hmem _ hc).2 h.1)
    refine ⟨ha, ?_⟩
    intro c hc hee
    simp only [Dialect.quoting] at hee
    by_cases hg : dd.doubleQuote = true ∨ dd.escape = 0
    · rw [if_pos hg] at hee; simp at hee
    · rw [if_neg hg] at hee
      simp only [not_or] at hg
      simp at hee; subst hee
      exact ((ha (by simpa using hg.1)).resolve_left hg.2) hc
  have htake : T.take o.maxRows ≠ [] := by
    intro h
    have := congrArg List.length h
    simp only [List.length_take, List.length_nil] at this
    have h1 := ho.rows
    have h2 : T.length ≠ 0 := by simpa using hT0
    omega
  have hlenT : o.minRows ≤ (T.take o.maxRows).length := by rw [List.length_take]; omega
  obtain ⟨tD, htD⟩ : ∃ tD, tD = typeScore (dataRows ((T.take o.maxRows).map (fun r => r.fields.map withoutQuotes))) := ⟨_, rfl⟩
  obtain ⟨c0, hc0⟩ : ∃ c0, c0 = combineScore sq 1 n tD := ⟨_, rfl⟩
  have hc6 : 6 / 10 ≤ c0 := by
    rw [hc0]; unfold combineScore
    rw [if_pos ⟨by norm_num, by omega⟩, one_mul]
    exact le_max_left _ _
  have hg := doubledGain_ge (quotedText d T)
  -- the candidates with the right delimiter and quote
  have hown : ∀ dd ∈ generateCandidates o, dd.quote = 34 → dd.delimiter = d →
      scoreDialect (detectFns sq modal) o dd (quotedText d T) = ⟨dd, c0 * (if dd.doubleQuote = true then doubledGain (quotedText d T) else 1), n⟩ := by
    intro dd hdd hq34 hde
    have hF := quoted_fields o ho h34 d hd n hn T hT hcom dd hdd hq34 (hesc dd hdd).2
    simp only [hde, if_true] at hF
    have hne : (T.take o.maxRows).map (fun r => r.fields.map withoutQuotes) ≠ [] := by simpa using htake
    rw [score_quoted _ o dd _ hq34 (hesc dd hdd).1 _ hF (by rw [List.length_map]; exact hlenT) hne]
    have hall : ∀ c ∈ ((T.take o.maxRows).map (fun r => r.fields.map withoutQuotes)).map List.length, c = n := by
      intro c hc
      rw [List.map_map, List.mem_map] at hc
      obtain ⟨r, hr, rfl⟩ := hc
      simp only [Function.comp, List.length_map]
      exact hT.width r (List.mem_of_mem_take hr)
    have hne2 : ((T.take o.maxRows).map (fun r => r.fields.map withoutQuotes)).map List.length ≠ [] := by simpa using htake
    have hmod := hall _ (hm.member _ hne2)
    have hpat := pattern_const _ n hne2 hall
    show (⟨dd, combineScore sq (patternScore _) (modal _) (typeScore _) * _, modal _⟩ : DialectCandidate) = _
    rw [hmod, hpat, ← htD, ← hc0]
  -- another delimiter with the right quote
  have hother : ∀ dd ∈ generateCandidates o, dd.quote = 34 → dd.delimiter ≠ d → ∃ t', t' ≤ 6 / 10 ∧ 0 ≤ t' ∧
      scoreDialect (detectFns sq modal) o dd (quotedText d T) = ⟨dd, t' * (if dd.doubleQuote = true then doubledGain (quotedText d T) else 1), 1⟩ := by
    intro dd hdd hq34 hde
    have hF := quoted_fields o ho h34 d hd n hn T hT hcom dd hdd hq34 (hesc dd hdd).2
    simp only [hde, if_false] at hF
    have hF : allFields o dd (quotedText d T) = ((T.take o.maxRows).map (fun r => unquote ⟨some 34, none⟩ (quotedLine d r))).map (fun b => [b]) := by
      rw [hF, List.map_map]; rfl
    have hne : ((T.take o.maxRows).map (fun r => unquote ⟨some 34, none⟩ (quotedLine d r))).map (fun b => [b]) ≠ [] := by simpa using htake
    rw [score_quoted _ o dd _ hq34 (hesc dd hdd).1 _ hF (by simpa using hlenT) hne]
    have hall : ∀ c ∈ (((T.take o.maxRows).map (fun r => unquote ⟨some 34, none⟩ (quotedLine d r))).map (fun b => [b])).map List.length, c = 1 := by
      intro c hc
      rw [List.map_map, List.mem_map] at hc
      obtain ⟨r, hr, rfl⟩ := hc
      rfl
    have hne2 : (((T.take o.maxRows).map (fun r => unquote ⟨some 34, none⟩ (quotedLine d r))).map (fun b => [b])).map List.length ≠ [] := by simpa using htake
    have hmod := hall _ (hm.member _ hne2)
    have hpat := pattern_const _ 1 hne2 hall
    refine ⟨typeScore (dataRows (((T.take o.maxRows).map (fun r => unquote ⟨some 34, none⟩ (quotedLine d r))).map (fun b => [b]))), ?_, (typeScore_range _).1, ?_⟩
    · rw [dataRows_map, dataRows_map]
      apply typeScore_single
      · simpa using dataRows_ne _ htake
      · rw [List.countP_map, List.length_map]
        exact hrow
    · show (⟨dd, combineScore sq (patternScore _) (modal _) (typeScore _) * _, modal _⟩ : DialectCandidate) = _
      rw [hmod, hpat]
      unfold combineScore
      rw [if_neg (by omega), if_neg (by omega), one_mul]
  obtain ⟨D, hD⟩ : ∃ D : Dialect, D = { delimiter := d, quote := 34, escape := 34, doubleQuote := true } := ⟨_, rfl⟩
  have hDm : D ∈ generateCandidates o := by
    unfold generateCandidates
    simp only [List.mem_flatMap, List.mem_append, List.mem_cons, List.not_mem_nil, or_false, List.mem_map, List.mem_filter]
    exact ⟨d, hd, .inl ⟨34, h34, .inl hD⟩⟩
  have hDs := hown D hDm (by rw [hD]) (by rw [hD])
  rw [show D.doubleQuote = true by rw [hD], if_pos rfl] at hDs
  obtain ⟨x, hx⟩ : ∃ x, x = c0 * doubledGain (quotedText d T) := ⟨_, rfl⟩
  rw [← hx] at hDs
  have hxc : c0 ≤ x := by rw [hx]; nlinarith
  have hDf := quoted_fields o ho h34 d hd n hn T hT hcom D hDm (by rw [hD]) (hesc D hDm).2
  simp only [show D.delimiter = d by rw [hD], if_true] at hDf
  refine ⟨D, x, hD, ⟨by linarith, by rw [hx, hc0, htD, combine_table sq n hn, doubledGain_eq]⟩, ?_, ?_, hDf⟩
  · rw [← hDs]; exact List.mem_map_of_mem hDm
  · intro y hy
    unfold scoredCandidates at hy
    rw [List.mem_map] at hy
    obtain ⟨dd, hdd, rfl⟩ := hy
    by_cases hq34 : dd.quote = 34
    · by_cases hde : dd.delimiter = d
      · rw [hown dd hdd hq34 hde]
        by_cases hdq : dd.doubleQuote = true
        · left
          have hdD : dd = D := by
            obtain ⟨h1, h2, h3, h4, h5⟩ := candidate_facts ho hdd
            rw [hD, ← hq34]
            have := h5 hdq
            cases dd
            simp_all
          rw [hdq, if_pos rfl, ← hx, hdD]
        · right
          have hdq : dd.doubleQuote = false := by simpa using hdq
          apply before_ge
          · rw [hdq, if_neg (by simp), mul_one]; exact hxc
          · unfold tieBefore
            dsimp only
            rw [if_neg (by simp), if_neg (by rw [hD, hq34]; simp), if_pos (by rw [hD, hdq]; simp), hD]
      · obtain ⟨t', ht6, ht0, hs⟩ := hother dd hdd hq34 hde
        rw [hs]
        right
        apply before_ge
        · dsimp only
          rw [hx]
          split
          · exact mul_le_mul_of_nonneg_right (by linarith) (by linarith)
          · rw [mul_one]; nlinarith
        · unfold tieBefore
          dsimp only
          rw [if_pos (by omega)]
          simp; omega
    · -- a candidate for which `"` is an ordinary byte
      right
      have hsane := candidate_sane ho hdd
      obtain ⟨h1, h2, h3, h4, h5⟩ := candidate_facts ho hdd
      have hqfree : dd.quote = 0 ∨ dd.quote ∉ quotedText d T := by
        rcases h3 with h3 | h3
        · exact .inl h3
        · right; intro hc
          rcases (hmem _ hc).1 with h | h
          · exact hq34 h
          · exact h h3
      have hqn : ∀ c ∈ quotedText d T, dd.quoting.quote ≠ some c := by
        intro c hc hqq
        have := (quote_facts hsane hqq).2.2.2
        subst this
        rcases hqfree with h | h
        · simp [Dialect.quoting, h] at hqq
        · exact h hc
      have hF := bare_fields o ho.rows dd hsane _ hqn (hesc dd hdd).2
      by_cases hrows : o.minRows ≤ (allFields o dd (quotedText d T)).length ∧ allFields o dd (quotedText d T) ≠ []
      · have hs := score_free (detectFns sq modal) o dd _ hqfree _ rfl hrows.1 hrows.2
        rw [hs]
        have hcounts : (allFields o dd (quotedText d T)).map List.length = bareCounts o dd.delimiter (quotedText d T) := by
          rw [hF]; unfold bareCounts
          rw [List.map_map]
          apply List.map_congr_left
          intro l _
          exact bare_cuts dd.delimiter l
        have hbl : bareLines o (quotedText d T) ≠ [] := by
          intro h; apply hrows.2; rw [hF, h]; rfl
        show DialectCandidate.before ⟨D, x, n⟩ ⟨dd, combineScore sq (patternScore _) (modal _) (typeScore _), modal _⟩ = true
        rcases hno _ h1 with h | ⟨h, ht⟩ | ⟨h, hb⟩
        · -- irregular
          have hp : patternScore ((allFields o dd (quotedText d T)).map List.length) ≤ 1 / 2 := by
            rw [hcounts]
            unfold patternScore
            have hl : (bareCounts o dd.delimiter (quotedText d T)).length = (bareLines o (quotedText d T)).length := by simp [bareCounts]
            have hpos : (0 : Rat) < ((bareCounts o dd.delimiter (quotedText d T)).length : Rat) := by
              rw [hl]; exact_mod_cast List.length_pos_iff.2 hbl
            rw [div_le_iff₀ hpos]
            have : modalFreq (bareCounts o dd.delimiter (quotedText d T)) * 2 ≤ (bareCounts o dd.delimiter (quotedText d T)).length := by
              have : modalFreq (bareCounts o dd.delimiter (quotedText d T)) ≤ (bareCounts o dd.delimiter (quotedText d T)).length / 2 := by
                unfold modalFreq
                apply foldl_max_le _ _ _ (by omega)
                intro v hv
                rw [List.mem_map] at hv
                obtain ⟨k, _, rfl⟩ := hv
                have := h k
                omega
              omega
            have : (modalFreq (bareCounts o dd.delimiter (quotedText d T)) : Rat) * 2 ≤ ((bareCounts o dd.delimiter (quotedText d T)).length : Rat) := by exact_mod_cast this
            linarith
          have hp0 := (patternScore_range ((allFields o dd (quotedText d T)).map List.length)).1
          have htr := typeScore_range (dataRows (allFields o dd (quotedText d T)))
          apply before_of_gt
          dsimp only
          unfold combineScore
          rw [if_neg (by rintro ⟨h, _⟩; linarith), if_neg (by rintro ⟨h, _⟩; linarith)]
          have : patternScore ((allFields o dd (quotedText d T)).map List.length) * typeScore (dataRows (allFields o dd (quotedText d T))) ≤ 1 / 2 := by nlinarith
          linarith
        · -- the delimiter does not occur
          have hF1 : allFields o dd (quotedText d T) = (bareLines o (quotedText d T)).map (fun l => [l]) := by
            rw [hF]
            apply List.map_congr_left
            intro l hl
            apply pieces_other
            intro hdl
            apply h
            unfold bareLines at hl
            rw [List.mem_map] at hl
            obtain ⟨r, _, rfl⟩ := hl
            exact List.mem_of_mem_drop (List.mem_of_mem_take hdl)
          rw [hF1]
          have hall : ∀ c ∈ ((bareLines o (quotedText d T)).map (fun l => [l])).map List.length, c = 1 := by
            intro c hc
            rw [List.map_map, List.mem_map] at hc
            obtain ⟨r, hr, rfl⟩ := hc
            rfl
          have hne2 : ((bareLines o (quotedText d T)).map (fun l => [l])).map List.length ≠ [] := by simpa using hbl
          rw [hall _ (hm.member _ hne2), pattern_const _ 1 hne2 hall, dataRows_map]
          have := typeScore_single (dataRows (bareLines o (quotedText d T))) (dataRows_ne _ hbl) ht
          apply before_ge
          · dsimp only
            unfold combineScore
            rw [if_neg (by omega), if_neg (by omega), one_mul]
            linarith
          · unfold tieBefore
            dsimp only
            rw [if_pos (by omega)]
            simp; omega
        · -- the same delimiter
          obtain ⟨P, hP⟩ : ∃ P : PlainTable, P = T.map (fun r => (r.fields.map (·.render 34), r.crlf)) := ⟨_, rfl⟩
          have hPt : P.text d = quotedText d T := by
            rw [hP]; unfold PlainTable.text quotedText
            rw [List.flatMap_map]
            rfl
          have hclean : ∀ r ∈ T, ∀ f ∈ r.fields.map (·.render 34), ∀ c ∈ f, c ≠ 10 ∧ c ≠ 13 ∧ c ≠ d := by
            intro r hr f hf c hc
            rw [List.mem_map] at hf
            obtain ⟨g, hg, rfl⟩ := hf
            cases g with
            | plain s =>
              have := hT.bare r hr s hg c hc
              exact ⟨this.1, this.2.1, fun h => this.2.2.1 (h ▸ hd)⟩
            | quoted b =>
              have hin : c = 34 ∨ c ∈ b := by
                by_cases h34c : c = 34
                · exact .inl h34c
                · right
                  simp only [WField.render, List.mem_append, List.mem_cons, List.not_mem_nil, or_false] at hc
                  rcases hc with (hc | hc) | hc
                  · exact absurd hc h34c
                  · exact mem_of_escape h34c hc
                  · exact absurd hc h34c
              have hbb := hb r hr b hg
              rcases hin with rfl | hin
              · exact ⟨by decide, by decide, fun h => kdq (h ▸ h34)⟩
              · exact ⟨fun h => hbb.2.1 (h ▸ hin), fun h => hbb.2.2 (h ▸ hin), fun h => hbb.1 (h ▸ hin)⟩
          have hF3 : allFields o dd (quotedText d T) = (T.take o.maxRows).map (fun r => r.fields.map (·.render 34)) := by
            have hr := rows_of_text o ho.rows dd hsane d P ⟨kd10, kd13⟩ (by
              intro r hr
              rw [hP, List.mem_map] at hr
              obtain ⟨w, hw, rfl⟩ := hr
              refine ⟨by rw [List.length_map, hT.width w hw]; exact hn, ?_⟩
              intro f hf c hc
              have := hclean w hw f hf c hc
              exact ⟨this.1, this.2.1⟩) (by
              intro r hr
              rw [hP, List.mem_map] at hr
              obtain ⟨w, hw, rfl⟩ := hr
              exact hcom w hw) (by rw [hPt]; exact hqn) (by rw [hPt]; exact (hesc dd hdd).2)
            rw [hPt] at hr
            rw [hr, hP, ← List.map_take, List.map_map]
            apply List.map_congr_left
            intro w hw
            have hw := List.mem_of_mem_take hw
            simp only [Function.comp]
            rw [h]
            apply pieces_own
            · intro he
              have := hT.width w hw
              rw [List.map_eq_nil_iff] at he
              rw [he] at this; simp at this; omega
            · intro f hf hdf
              exact (hclean w hw f hf d hdf).2.2 rfl
          rw [hF3]
          have hall : ∀ c ∈ ((T.take o.maxRows).map (fun r => r.fields.map (·.render 34))).map List.length, c = n := by
            intro c hc
            rw [List.map_map, List.mem_map] at hc
            obtain ⟨r, hr, rfl⟩ := hc
            simp only [Function.comp, List.length_map]
            exact hT.width r (List.mem_of_mem_take hr)
          have hne2 : ((T.take o.maxRows).map (fun r => r.fields.map (·.render 34))).map List.length ≠ [] := by simpa using htake
          rw [hall _ (hm.member _ hne2), pattern_const _ n hne2 hall, dataRows_map]
          apply before_ge
          · dsimp only
            refine le_trans ?_ hxc
            rw [hc0, htD, dataRows_map]
            exact combine_mono sq hmono n _ _ (typeScore_quotes _) (typeScore_range _).2 hn
          · unfold tieBefore
            dsimp only
            rw [if_neg (by simp), if_pos (by rw [hD]; exact fun h => hq34 h.symm), hD]; simp
      · rw [score_short _ o dd _ _ rfl hrows]
        apply before_of_gt
        dsimp only
        linarith

/-- **C77** A table with quoted fields is recognised: if, after leading comment lines, the input is a table of `n ≥ 2` bare or quoted fields per row separated by a
candidate delimiter, it fits the sample, has enough rows, at most six in ten of its data rows look like a single typed value, and cutting it without regard
to the quotes does not look better, then its delimiter, quoting by doubled `"`, its number of columns and its rows are found, with the confidence a regular table earns, raised by a tenth if `""` occurs. -/
theorem C77_quoted (sq : Rat → Rat) (hmono : SqrtMono sq) (modal : List Nat → Nat) (hm : ModalOk modal)
    (sort : List DialectCandidate → List DialectCandidate) (hs : SortOk sort)
    (o : DetectOptions) (ho : OptionsOk o) (d : UInt8) (hd : d ∈ o.delimiters) (h34 : (34 : UInt8) ∈ o.quoteChars) (h34e : (34 : UInt8) ∉ o.escapeChars)
    (T : List WRow) (hT0 : T ≠ []) (n : Nat) (hn : 2 ≤ n) (hT : QuotedTable o n T) (hcom : ∀ r ∈ T, commentLine o.commentChars (quotedLine d r) = false)
    (hmin : o.minRows ≤ T.length ∧ o.minRows ≤ o.maxRows)
    (hrow : 10 * (dataRows (T.take o.maxRows)).countP (fun r => looksTyped (unquote ⟨some 34, none⟩ (quotedLine d r))) ≤ 6 * (dataRows (T.take o.maxRows)).length)
    (hno : ∀ d' ∈ o.delimiters, NoBetter o d d' T)
    (buf : List UInt8) (hbuf : ((textLines buf).dropWhile (commentLine o.commentChars)).flatten = quotedText d T)
    (hsz : (quotedText d T).length ≤ o.sampleSize ∧ (quotedText d T).length ≤ 1048576) :
    let r := detect (detectFns sq modal) sort o buf
    r.dialect.delimiter = d ∧ r.dialect.quote = 34 ∧ r.dialect.doubleQuote = true ∧ r.columns = n ∧ r.rows = min T.length o.maxRows ∧
      (3 / 5 ≤ r.confidence ∧ r.confidence = tableConfidence sq ((T.take o.maxRows).map (fun r => r.fields.map withoutQuotes)) *
        (if doubledQuotes (quotedText d T) = true then 11 / 10 else 1)) ∧ r.success = true ∧
      r.hasHeader = headerOf ((T.take o.maxRows).map (fun r => r.fields.map withoutQuotes)) := by
  intro r
  have h10 : (10 : UInt8) ∈ quotedText d T := by
    cases T with
    | nil => exact absurd rfl hT0
    | cons r T => unfold quotedText; rw [List.flatMap_cons]; simp only [List.mem_append]; left; right; split <;> simp
  obtain ⟨D, x, hD, hx, hmem, hbest, hF⟩ := quoted_best sq hmono modal hm o ho d hd h34 h34e T hT0 n hn hT hcom hmin hrow hno
  obtain ⟨r1, r2, r3, r4, r5, r6, r7⟩ := detect_first (detectFns sq modal) sort o ho buf _ hbuf h10 hsz D x n (by linarith [hx.1]) (hs.first _ _ hmem hbest)
  rw [hD] at r1 r2 r3
  refine ⟨r1, r2, r3, r4, ?_, ?_, ?_, ?_⟩
  · show (detect _ _ _ _).rows = _
    rw [r5, hF, List.length_map, List.length_take, Nat.min_comm]
  · show _ ≤ (detect _ _ _ _).confidence ∧ (detect _ _ _ _).confidence = _
    rw [r6]; exact hx
  · show (detect _ _ _ _).success = true
    unfold DetectResult.success
    rw [r6, decide_eq_true_eq]; linarith [hx.1]
  · show (detect _ _ _ _).hasHeader = _
    rw [r7, hF]

/-! ### Quoted fields without delimiters -/

/-- The lines of a table whose quoted fields hold no line end are its rows. -/
theorem bareLines_clean (o : DetectOptions) (ho : OptionsOk o) (d : UInt8) (hd : d ∈ o.delimiters) (n : Nat) (hn : 2 ≤ n) (T : List WRow)
    (hT : QuotedTable o n T) (hcom : ∀ r ∈ T, commentLine o.commentChars (quotedLine d r) = false)
    (hb : ∀ r ∈ T, ∀ b, WField.quoted b ∈ r.fields → (10 : UInt8) ∉ b ∧ (13 : UInt8) ∉ b) :
    bareLines o (quotedText d T) = (T.take o.maxRows).map (quotedLine d) := by
  obtain ⟨kd0, kd10, kd13, kdq, kde⟩ := ho.delim_line d hd
  have hw : ∀ l ∈ T.map (fun r => (quotedLine d r, r.crlf)), Whole ⟨none, none⟩ isBreak l.1 := by
    intro l hl
    rw [List.mem_map] at hl
    obtain ⟨r, hr, rfl⟩ := hl
    apply whole_free
    intro c hc
    by_contra hbr
    have hbr : c = 10 ∨ c = 13 := by
      simp only [isBreak, Bool.or_eq_false_iff, not_and_or, Bool.not_eq_false, beq_iff_eq] at hbr
      exact hbr
    have hne : c ≠ d ∧ c ≠ 34 := by rcases hbr with rfl | rfl <;> exact ⟨by first | exact fun h => kd10 h.symm | exact fun h => kd13 h.symm, by decide⟩
    rcases join_mem hc with h | ⟨f, hf, hcf⟩
    · exact hne.1 h
    · rw [List.mem_map] at hf
      obtain ⟨g, hg, rfl⟩ := hf
      cases g with
      | plain s =>
        have := hT.bare r hr s hg c hcf
        rcases hbr with h | h
        · exact this.1 h
        · exact this.2.1 h
      | quoted b =>
        have hcb : c ∈ b := by
          simp only [WField.render, List.mem_append, List.mem_cons, List.not_mem_nil, or_false] at hcf
          rcases hcf with (hcf | hcf) | hcf
          · exact absurd hcf hne.2
          · exact mem_of_escape hne.2 hcf
          · exact absurd hcf hne.2
        have := hb r hr b hg
        rcases hbr with rfl | rfl
        · exact this.1 hcb
        · exact this.2 hcb
  have ht := ranges_text ⟨none, none⟩ o.commentChars o.maxRows (by simp) (by simp) rfl _ hw
  rw [← quotedText_terminated] at ht
  unfold bareLines
  rw [show (fun r : Nat × Nat => ((quotedText d T).drop r.1).take (r.2 - r.1)) = sliceOf (quotedText d T) from rfl, ht, List.map_map,
    List.filter_eq_self.2, List.map_take]
  · rfl
  · intro l hl
    rw [List.mem_map] at hl
    obtain ⟨r, hr, rfl⟩ := hl
    simp only [Function.comp]
    rw [hcom r hr, decide_eq_true (line_ne hT hn d hr).1]; rfl

theorem mem_unquote {c : UInt8} {l : List UInt8} (hc : c ∈ l) (h34 : c ≠ 34) : c ∈ unquote ⟨some 34, none⟩ l := by
  unfold unquote
  dsimp only
  split
  · rename_i h
    obtain ⟨h1, h2, h3⟩ := h
    cases l with
    | nil => simp at h1
    | cons a l =>
      simp only [List.head?_cons, Option.some.injEq] at h2
      subst h2
      rw [List.mem_cons] at hc
      have hc := hc.resolve_left h34
      rw [List.drop_one, List.tail_cons]
      obtain ⟨l', rfl⟩ : ∃ l', l = l' ++ [34] := by
        cases l using List.reverseRecOn with
        | nil => simp at h1
        | append_singleton l' x =>
          rw [← List.cons_append, List.getLast?_concat] at h3
          exact ⟨l', by rw [Option.some.inj h3]⟩
      rw [List.dropLast_concat]
      simpa [h34] using hc
  · exact hc

/-- **C77** In particular, a table separated by commas, semicolons or bars whose quoted fields hold no line end and no candidate delimiter is recognised if none of its
data rows starts with a date, quoted or not. -/
theorem C77_quoted_common (sq : Rat → Rat) (hmono : SqrtMono sq) (modal : List Nat → Nat) (hm : ModalOk modal)
    (sort : List DialectCandidate → List DialectCandidate) (hs : SortOk sort)
    (o : DetectOptions) (ho : OptionsOk o) (d : UInt8) (hd : d ∈ o.delimiters) (hdc : d = 44 ∨ d = 59 ∨ d = 124)
    (h34 : (34 : UInt8) ∈ o.quoteChars) (h34e : (34 : UInt8) ∉ o.escapeChars)
    (T : List WRow) (hT0 : T ≠ []) (n : Nat) (hn : 2 ≤ n) (hT : QuotedTable o n T) (hcom : ∀ r ∈ T, commentLine o.commentChars (quotedLine d r) = false)
    (hb : ∀ r ∈ T, ∀ b, WField.quoted b ∈ r.fields → ∀ c ∈ b, c ≠ 10 ∧ c ≠ 13 ∧ c ∉ o.delimiters)
    (hmin : o.minRows ≤ T.length ∧ o.minRows ≤ o.maxRows)
    (hdata : ∀ r ∈ dataRows (T.take o.maxRows), ¬ StartsWithDate (unquote ⟨some 34, none⟩ (quotedLine d r)))
    (buf : List UInt8) (hbuf : ((textLines buf).dropWhile (commentLine o.commentChars)).flatten = quotedText d T)
    (hsz : (quotedText d T).length ≤ o.sampleSize ∧ (quotedText d T).length ≤ 1048576) :
    let r := detect (detectFns sq modal) sort o buf
    r.dialect.delimiter = d ∧ r.dialect.quote = 34 ∧ r.dialect.doubleQuote = true ∧ r.columns = n ∧ r.rows = min T.length o.maxRows ∧
      (3 / 5 ≤ r.confidence ∧ r.confidence = tableConfidence sq ((T.take o.maxRows).map (fun r => r.fields.map withoutQuotes)) *
        (if doubledQuotes (quotedText d T) = true then 11 / 10 else 1)) ∧ r.success = true ∧
      r.hasHeader = headerOf ((T.take o.maxRows).map (fun r => r.fields.map withoutQuotes)) := by
  have hd34 : d ≠ 34 := by rcases hdc with rfl | rfl | rfl <;> decide
  have hdataT : ∀ r ∈ dataRows (T.take o.maxRows), r ∈ T := by
    intro r hr
    unfold dataRows at hr
    split at hr
    · exact List.mem_of_mem_take (List.mem_of_mem_drop hr)
    · exact List.mem_of_mem_take hr
  refine C77_quoted sq hmono modal hm sort hs o ho d hd h34 h34e T hT0 n hn hT hcom hmin ?_ ?_ buf hbuf hsz
  · have : (dataRows (T.take o.maxRows)).countP (fun r => looksTyped (unquote ⟨some 34, none⟩ (quotedLine d r))) = 0 := by
      rw [List.countP_eq_zero]
      intro r hr hty
      exact hdata r hr (typed_row _ d hdc (mem_unquote (line_ne hT hn d (hdataT r hr)).2 hd34) hty)
    rw [this]; omega
  · intro d' hd'
    by_cases hdd : d' = d
    · refine .own hdd (fun r hr b hbm => ⟨fun h => (hb r hr b hbm d h).2.2 hd, fun h => (hb r hr b hbm 10 h).1 rfl, fun h => (hb r hr b hbm 13 h).2.1 rfl⟩)
    · have hbl := bareLines_clean o ho d hd n hn T hT hcom (fun r hr b hbm => ⟨fun h => (hb r hr b hbm 10 h).1 rfl, fun h => (hb r hr b hbm 13 h).2.1 rfl⟩)
      refine .absent ?_ ?_
      · intro h
        obtain ⟨k0, k10, k13, kq, ke⟩ := ho.delim_line d' hd'
        rcases quotedText_mem h with h | h | h | h | ⟨r, hr, ⟨s, hsm, hc⟩ | ⟨b, hbm, hc⟩⟩
        · exact k10 h
        · exact k13 h
        · exact hdd h
        · exact kq (h ▸ h34)
        · exact (hT.bare r hr s hsm d' hc).2.2.1 hd'
        · exact (hb r hr b hbm d' hc).2.2 hd'
      · rw [hbl, dataRows_map, List.countP_map, List.length_map]
        have : (dataRows (T.take o.maxRows)).countP (looksTyped ∘ quotedLine d) = 0 := by
          rw [List.countP_eq_zero]
          intro r hr hty
          have hsd := typed_row _ d hdc (line_ne hT hn d (hdataT r hr)).2 hty
          refine hdata r hr ?_
          have : unquote ⟨some 34, none⟩ (quotedLine d r) = quotedLine d r := by
            unfold unquote
            dsimp only
            rw [if_neg]
            rintro ⟨-, h, -⟩
            cases hl : quotedLine d r with
            | nil => rw [hl] at h; simp at h
            | cons a l =>
              rw [hl] at h hsd
              simp only [List.head?_cons, Option.some.injEq] at h
              subst h
              exact date_not_quote hsd
          rw [this]; exact hsd
        rw [this]; omega

/-! ### Cases that meet the hypotheses -/

/-- A square root to six decimals. -/
def sqrtDown (x : Rat) : Rat := (Nat.sqrt (x * 10 ^ 12).floor.toNat : Rat) / 10 ^ 6

theorem sqrtDown_mono : SqrtMono sqrtDown := by
  intro x y hx hxy _
  unfold sqrtDown
  have h1 : (x * 10 ^ 12).floor ≤ (y * 10 ^ 12).floor := Rat.floor_monotone (by linarith)
  have h2 : Nat.sqrt (x * 10 ^ 12).floor.toNat ≤ Nat.sqrt (y * 10 ^ 12).floor.toNat := Nat.sqrt_le_sqrt (Int.toNat_le_toNat h1)
  have h3 : (Nat.sqrt (x * 10 ^ 12).floor.toNat : Rat) ≤ Nat.sqrt (y * 10 ^ 12).floor.toNat := by exact_mod_cast h2
  exact div_le_div_of_nonneg_right h3 (by norm_num)

/-- `"id","name"` over `1,"ann ""a"""` and `2,bob`, the first row ended by CRLF. -/
def quotedDemo : List WRow :=
  [⟨[.quoted [105, 100], .quoted [110, 97, 109, 101]], true⟩,
   ⟨[.plain [49], .quoted [97, 110, 110, 32, 34, 97, 34]], false⟩,
   ⟨[.plain [50], .plain [98, 111, 98]], false⟩]

/-- `name,city` over `"Roe, Jane",Rome`, `"Poe, A, B",Bari` and `Moe,Pisa`: quoted commas. -/
def quotedCommas : List WRow :=
  [⟨[.plain [110, 97, 109, 101], .plain [99, 105, 116, 121]], true⟩,
   ⟨[.quoted [82, 111, 101, 44, 32, 74, 97, 110, 101], .plain [82, 111, 109, 101]], false⟩,
   ⟨[.quoted [80, 111, 101, 44, 32, 65, 44, 32, 66], .plain [66, 97, 114, 105]], false⟩,
   ⟨[.plain [77, 111, 101], .plain [80, 105, 115, 97]], false⟩]

theorem quotedDemo_table : QuotedTable {} 2 quotedDemo := by
  constructor <;> simp [quotedDemo]

theorem quotedCommas_table : QuotedTable {} 2 quotedCommas := by
  constructor <;> simp [quotedCommas]

/-- The comma is regular in no cut that ignores the quotes; the other candidates do not occur. -/
theorem quotedCommas_noBetter : ∀ d' ∈ ({} : DetectOptions).delimiters, NoBetter {} 44 d' quotedCommas := by
  intro d' hd'
  by_cases h : d' = 44
  · subst h
    refine .irregular (fun k => ?_)
    have h1 : bareCounts {} 44 (quotedText 44 quotedCommas) = [2, 3, 4, 2] := by decide +kernel
    have h2 : (bareLines {} (quotedText 44 quotedCommas)).length = 4 := by decide +kernel
    rw [h1, h2]
    simp only [List.count_cons, List.count_nil, beq_iff_eq]
    split_ifs <;> omega
  · have hmem : d' = 44 ∨ d' = 59 ∨ d' = 9 ∨ d' = 124 ∨ d' = 58 := by
      have : ({} : DetectOptions).delimiters = [44, 59, 9, 124, 58] := rfl
      rw [this] at hd'
      simpa using hd'
    refine .absent ?_ (by decide +kernel)
    rcases hmem with rfl | rfl | rfl | rfl | rfl
    · exact absurd rfl h
    all_goals decide +kernel

/-- The remaining hypotheses of `C77_quoted_common` hold of `quotedDemo`. -/
example : (∀ r ∈ quotedDemo, commentLine ({} : DetectOptions).commentChars (quotedLine 44 r) = false) ∧
    (∀ r ∈ dataRows (quotedDemo.take ({} : DetectOptions).maxRows), looksTyped (unquote ⟨some 34, none⟩ (quotedLine 44 r)) = false) ∧
    ((textLines (quotedText 44 quotedDemo)).dropWhile (commentLine ({} : DetectOptions).commentChars)).flatten = quotedText 44 quotedDemo ∧
    (quotedText 44 quotedDemo).length ≤ ({} : DetectOptions).sampleSize := by decide +kernel

/-- So `quotedDemo` is recognised. -/
example : let r := detect (detectFns sqrtDown firstModal) sortCandidates {} (quotedText 44 quotedDemo)
    r.dialect.delimiter = 44 ∧ r.dialect.quote = 34 ∧ r.dialect.doubleQuote = true ∧ r.columns = 2 ∧ r.rows = 3 ∧ r.success = true := by decide +kernel

/-- The whole of `C77_quoted` for `quotedCommas`, whose quoted fields hold commas. -/
example : let r := detect (detectFns sqrtDown firstModal) sortCandidates {} (quotedText 44 quotedCommas)
    r.dialect.delimiter = 44 ∧ r.dialect.quote = 34 ∧ r.dialect.doubleQuote = true ∧ r.columns = 2 ∧ r.rows = 4 ∧
      (3 / 5 ≤ r.confidence ∧ r.confidence = tableConfidence sqrtDown (quotedCommas.map (fun r => r.fields.map withoutQuotes)) *
        (if doubledQuotes (quotedText 44 quotedCommas) = true then 11 / 10 else 1)) ∧ r.success = true ∧
      r.hasHeader = headerOf (quotedCommas.map (fun r => r.fields.map withoutQuotes)) :=
  C77_quoted sqrtDown sqrtDown_mono firstModal firstModal_ok sortCandidates sortCandidates_ok {} options_default_ok 44 (by decide) (by decide) (by decide)
    quotedCommas (by simp [quotedCommas]) 2 (by omega) quotedCommas_table (by decide +kernel) (by decide +kernel) (by decide +kernel)
    quotedCommas_noBetter _ (by decide +kernel) (by decide +kernel)

/-- **C77 finding** A regular table of quoted fields need not be recognised: when every row holds the same number of quoted delimiters, the cut that
ignores the quotes scores as high. `"Doe, John",x` over `"Roe, Jane",y` and `"Poe, Ann",z` is reported, as a success, as three columns and no quoting. -/
theorem C77_quoted_comma_refuted : ¬ ∀ (T : List WRow) (n : Nat), 2 ≤ n → 3 ≤ T.length → QuotedTable {} n T →
    (detect (detectFns sqrtDown firstModal) sortCandidates {} (quotedText 44 T)).success = true →
    (detect (detectFns sqrtDown firstModal) sortCandidates {} (quotedText 44 T)).columns = n := by
  intro hall
  have hT : QuotedTable {} 2 [⟨[.quoted [68, 111, 101, 44, 32, 74, 111, 104, 110], .plain [120]], false⟩, ⟨[.quoted [82, 111, 101, 44, 32, 74, 97, 110, 101], .plain [121]], false⟩, ⟨[.quoted [80, 111, 101, 44, 32, 65, 110, 110], .plain [122]], false⟩] := by
    constructor <;> simp
  have h := hall _ 2 (by omega) (by simp) hT (by decide +kernel)
  revert h
  decide +kernel

end Vroom
