import Verif.Lemmas.Reader
/- Reading whole written files. -/
namespace Vroom
open Spec

/-! ### Null spellings -/

theorem commaPieces_ne (l : Bytes) : commaPieces l ≠ [] := by
  cases l with
  | nil => simp [commaPieces]
  | cons c r =>
    unfold commaPieces
    split
    · simp
    · split <;> simp

theorem commaPieces_split (l : Bytes) :
    commaPieces l = l.take (findComma l) ::
      (if findComma l < l.length then commaPieces (l.drop (findComma l + 1)) else []) := by
  induction l with
  | nil => rfl
  | cons c r ih =>
    rw [commaPieces, findComma]
    by_cases h : c = 44
    · subst h
      simp
    · rw [if_neg h, if_neg (show ¬ c = COMMA from h)]
      rw [ih, Nat.add_comm 1 (findComma r)]
      simp

theorem findComma_le (l : Bytes) : findComma l ≤ l.length := by
  induction l with
  | nil => simp [findComma]
  | cons c r ih => unfold findComma; split <;> simp; omega

/-- Invariant of the built checker. -/
theorem build_vals (nc : NullChecker) (rest : Bytes) (hmax : ∀ v ∈ nc.vals, v.length ≤ nc.maxLen) :
    (∀ v, v ∈ (NullChecker.build nc rest).vals ↔ v ∈ nc.vals ∨ (v ≠ [] ∧ v ∈ commaPieces rest)) ∧
    (∀ v ∈ (NullChecker.build nc rest).vals, v.length ≤ (NullChecker.build nc rest).maxLen) := by
  induction hn : rest.length using Nat.strongRecOn generalizing nc rest with
  | _ n ih =>
  subst hn
  rw [NullChecker.build]
  split
  · next h0 =>
    have : rest = [] := List.length_eq_zero_iff.1 h0
    subst this
    refine ⟨?_, hmax⟩
    intro v
    simp [commaPieces]
  · next h0 =>
    dsimp only
    have hlt : (rest.drop (findComma rest + 1)).length < rest.length := by simp; omega
    have hfl := findComma_le rest
    by_cases hv : rest.take (findComma rest) ≠ []
    · rw [if_pos hv]
      obtain ⟨h1, h2⟩ := ih _ hlt
        { nc with vals := nc.vals ++ [rest.take (findComma rest)], maxLen := max nc.maxLen (rest.take (findComma rest)).length }
        (rest.drop (findComma rest + 1)) (by
          intro v hv
          rcases List.mem_append.1 hv with h | h
          · have := hmax v h; simp only; omega
          · rw [List.mem_singleton.1 h]; simp only; omega) rfl
      refine ⟨?_, h2⟩
      intro v
      rw [h1 v, commaPieces_split rest]
      simp only [List.mem_append, List.mem_cons, List.not_mem_nil, or_false]
      constructor
      · rintro ((h | h) | h)
        · exact Or.inl h
        · exact Or.inr ⟨h ▸ hv, Or.inl h⟩
        · refine Or.inr ⟨h.1, Or.inr ?_⟩
          split
          · exact h.2
          · rw [List.drop_eq_nil_of_le (by omega)] at h
            simp [commaPieces] at h
      · rintro (h | ⟨h, h' | h'⟩)
        · exact Or.inl (Or.inl h)
        · exact Or.inl (Or.inr h')
        · split at h'
          · exact Or.inr ⟨h, h'⟩
          · simp at h'
    · rw [if_neg hv]
      obtain ⟨h1, h2⟩ := ih _ hlt { nc with emptyIsNull := true } (rest.drop (findComma rest + 1)) hmax rfl
      refine ⟨?_, h2⟩
      intro v
      rw [h1 v, commaPieces_split rest]
      simp only [List.mem_cons]
      have hv' : rest.take (findComma rest) = [] := Decidable.not_not.1 hv
      constructor
      · rintro (h | h)
        · exact Or.inl h
        · refine Or.inr ⟨h.1, Or.inr ?_⟩
          split
          · exact h.2
          · rw [List.drop_eq_nil_of_le (by omega)] at h
            simp [commaPieces] at h
      · rintro (h | ⟨h, h' | h'⟩)
        · exact Or.inl h
        · exact absurd (h'.trans hv') h
        · split at h'
          · exact Or.inr ⟨h, h'⟩
          · simp at h'

theorem isNull_iff (nullValues v : Bytes) :
    (NullChecker.mk' nullValues).isNull v = true ↔ v = [] ∨ v ∈ commaPieces nullValues := by
  unfold NullChecker.mk' NullChecker.isNull
  have hb := build_vals {} nullValues (by simp)
  have he := build_empty {} nullValues rfl
  by_cases hv : v = []
  · simp [hv, he]
  · rw [if_neg hv]
    have h1 := hb.1 v
    simp only [List.not_mem_nil, false_or] at h1
    split
    · next hlen =>
      have : v ∉ (NullChecker.build {} nullValues).vals := by
        intro h; have := hb.2 v h; omega
      rw [h1] at this
      simp only [Bool.false_eq_true, false_iff, not_or]
      exact ⟨hv, fun h => this ⟨hv, h⟩⟩
    · rw [List.any_eq_true]
      constructor
      · rintro ⟨x, hx, hxv⟩
        have := eq_of_beq hxv
        subst this
        exact Or.inr (h1.1 hx).2
      · rintro (h | h)
        · exact absurd h hv
        · exact ⟨v, h1.2 ⟨hv, h⟩, by simp⟩

/-! ### Quoting -/

theorem escape_count (q : UInt8) (b : Bytes) : (escape q b).count q = 2 * b.count q := by
  induction b with
  | nil => rfl
  | cons c r ih =>
    unfold escape
    split
    · next h => subst h; simp [ih]; omega
    · next h => simp [ih, h]

/-- Before a non-quote byte of an escaped text there is an even number of quotes. -/
theorem escape_parity (q : UInt8) (b : Bytes) (k : Nat) (c : UInt8) (h : (escape q b)[k]? = some c) (hc : c ≠ q) :
    ((escape q b).take k).count q % 2 = 0 := by
  induction b generalizing k with
  | nil => simp [escape] at h
  | cons d r ih =>
    unfold escape at h ⊢
    split at h
    · next hd =>
      rw [if_pos hd]
      match k with
      | 0 => rfl
      | 1 => simp at h; exact absurd h.symm hc
      | k + 2 =>
        have h' : (escape q r)[k]? = some c := by simpa using h
        have := ih k h'
        simp only [List.take_succ_cons, List.count_cons_self]
        omega
    · next hd =>
      rw [if_neg hd]
      match k with
      | 0 => rfl
      | k + 1 =>
        have h' : (escape q r)[k]? = some c := by simpa using h
        have := ih k h'
        simp only [List.take_succ_cons, List.count_cons, beq_iff_eq, hd, if_false]
        simpa using this

theorem unescapeGo_escape (q : UInt8) (b : Bytes) : unescapeGo q (escape q b) = b := by
  induction b with
  | nil => rfl
  | cons c r ih =>
    unfold escape
    split
    · next h => subst h; rw [unescapeGo]; simp [ih]
    · next h =>
      cases hr : escape q r with
      | nil =>
        have : r = [] := by
          cases r with
          | nil => rfl
          | cons d r => unfold escape at hr; split at hr <;> simp at hr
        subst this; rfl
      | cons d r' =>
        rw [unescapeGo, if_neg (by simp [h]), ← hr, ih]

theorem unescape_escape (q : UInt8) (b : Bytes) : unescapeQuotes (escape q b) q = b := by
  unfold unescapeQuotes
  split
  · next h =>
    have h0 : (escape q b).count q = 0 := List.count_eq_zero.2 h
    rw [escape_count] at h0
    have hb : q ∉ b := List.count_eq_zero.1 (by omega)
    clear h h0
    induction b with
    | nil => rfl
    | cons c r ih =>
      simp only [List.mem_cons, not_or] at hb
      unfold escape
      rw [if_neg (fun h => hb.1 h.symm), ih hb.2]
  · exact unescapeGo_escape q b

/-! ### Raw fields of a written row -/

/-- Marks used for reading: the line end is LF, and CR is none of the marks. -/
structure ReadSane (M : Marks) : Prop extends M.Sane where
  eol_lf : M.eol = 10
  sep_cr : M.sep ≠ 13
  quote_cr : M.quote ≠ 13

/-- The raw field texts of a row: the CR of a CRLF is part of the last one. -/
def rawTexts (M : Marks) (crlf : Bool) : List WField → List Bytes
  | [] => []
  | [f] => [f.render M.quote ++ (if crlf then [13] else [])]
  | f :: g :: fs => f.render M.quote :: rawTexts M crlf (g :: fs)

theorem rawTexts_join (M : Marks) (crlf : Bool) (fs : List WField) (h : fs ≠ []) :
    joinFields M.sep (rawTexts M crlf fs) =
      joinFields M.sep (fs.map (·.render M.quote)) ++ (if crlf then [13] else []) := by
  induction fs with
  | nil => exact absurd rfl h
  | cons f fs ih =>
    cases fs with
    | nil => simp [rawTexts, joinFields]
    | cons g gs =>
      rw [rawTexts, joinFields_cons _ _ (rawTexts M crlf (g :: gs)) (by cases gs <;> simp [rawTexts]), ih (by simp),
        show List.map (fun x : WField => x.render M.quote) (f :: g :: gs) =
          f.render M.quote :: List.map (fun x : WField => x.render M.quote) (g :: gs) from rfl,
        joinFields_cons _ (f.render M.quote) (List.map _ (g :: gs)) (by simp)]
      simp

theorem rawTexts_ne (M : Marks) (crlf : Bool) (fs : List WField) (h : fs ≠ []) : rawTexts M crlf fs ≠ [] := by
  match fs with
  | [] => exact absurd rfl h
  | [f] => simp [rawTexts]
  | f :: g :: gs => simp [rawTexts]

/-- Text of a single raw field. -/
def rawText (M : Marks) (cr : Bool) (f : WField) : Bytes := f.render M.quote ++ (if cr then [13] else [])

theorem rawTexts_get (M : Marks) (crlf : Bool) (fs : List WField) (j : Nat) :
    (rawTexts M crlf fs)[j]? = (fs[j]?).map (rawText M (crlf && decide (j + 1 = fs.length))) := by
  induction fs generalizing j with
  | nil => rfl
  | cons f fs ih =>
    cases fs with
    | nil =>
      cases j with
      | zero => simp [rawTexts, rawText]
      | succ j => simp [rawTexts]
    | cons g gs =>
      rw [rawTexts]
      cases j with
      | zero => simp [rawText]
      | succ j =>
        rw [List.getElem?_cons_succ, ih]
        simp

theorem rawText_plain (M : Marks) (hM : ReadSane M) (cr : Bool) (s : Bytes) (h : (WField.plain s).WF M) :
    PlainField M (rawText M cr (.plain s)) := by
  obtain ⟨h1, h2, h3, h4⟩ := h
  have e1 := hM.sep_cr
  have e2 := hM.quote_cr
  have e3 : M.eol ≠ 13 := by rw [hM.eol_lf]; decide
  unfold rawText PlainField WField.render
  cases cr <;> simp [h1, h2, h3, e1, e2, e3]

theorem rawText_quoted (M : Marks) (hM : ReadSane M) (cr : Bool) (b : Bytes) :
    QuotedField M (rawText M cr (.quoted b)) := by
  have e2 := hM.quote_cr
  have e3 : M.eol ≠ 13 := by rw [hM.eol_lf]; decide
  unfold rawText WField.render
  refine ⟨by simp, ?_, ?_⟩
  · have : (if cr = true then [(13 : UInt8)] else []).count M.quote = 0 := by
      cases cr <;> simp [Ne.symm e2]
    simp only [List.count_append, List.count_cons_self, this, List.count_nil, escape_count, List.cons_append]
    omega
  · intro k c hk hc
    have hcq : c ≠ M.quote := by
      rcases hc with h | h
      · rw [h]; exact hM.sep_quote
      · rw [h]; exact hM.eol_quote
    have hcr : c ≠ 13 := by
      rcases hc with h | h
      · rw [h]; exact hM.sep_cr
      · rw [h]; exact e3
    cases k with
    | zero => simp at hk; exact absurd hk.symm hcq
    | succ k =>
      by_cases hlt : k < (escape M.quote b).length
      · have hk' : (escape M.quote b)[k]? = some c := by
          simpa [List.getElem?_append_left hlt] using hk
        have := escape_parity M.quote b k c hk' hcq
        simp only [List.cons_append, List.take_succ_cons, List.count_cons_self, List.append_assoc,
          List.take_append_of_le_length (Nat.le_of_lt hlt)]
        omega
      · exfalso
        have hmem : c ∈ [M.quote] ++ (if cr = true then [(13 : UInt8)] else []) := by
          simp only [List.cons_append, List.getElem?_cons_succ, List.append_assoc] at hk
          rw [List.getElem?_append_right (by omega)] at hk
          exact List.mem_of_getElem? hk
        cases cr <;> simp [hcq, hcr] at hmem

theorem rawText_raw (M : Marks) (hM : ReadSane M) (cr : Bool) (f : WField) (h : f.WF M) :
    RawField M (rawText M cr f) := by
  cases f with
  | plain s => exact Or.inl (rawText_plain M hM cr s h)
  | quoted b => exact Or.inr (rawText_quoted M hM cr b)

theorem mem_escape (q c : UInt8) (b : Bytes) (hc : c ≠ q) : c ∈ escape q b ↔ c ∈ b := by
  induction b with
  | nil => rfl
  | cons d r ih =>
    unfold escape
    split
    · next h => subst h; simp [hc, ih]
    · simp [ih]

theorem rawText_simple (M : Marks) (hM : ReadSane M) (cr : Bool) (f : WField) (h : f.WF M) (ht : f.Tame M) :
    Simple M (rawText M cr f) := by
  have e3 : M.eol ≠ 13 := by rw [hM.eol_lf]; decide
  cases f with
  | plain s =>
    have := rawText_plain M hM cr s h
    exact ⟨this.1, this.2.2⟩
  | quoted b =>
    obtain ⟨h1, h2⟩ := ht
    have e1 := hM.sep_cr
    unfold rawText WField.render
    constructor
    · cases cr <;> simp [mem_escape _ _ _ hM.sep_quote, h1, hM.sep_quote, e1]
    · cases cr <;> simp [mem_escape _ _ _ hM.eol_quote, h2, hM.eol_quote, e3]

theorem mem_rawTexts (M : Marks) (crlf : Bool) (fs : List WField) (t : Bytes) (h : t ∈ rawTexts M crlf fs) :
    ∃ f ∈ fs, ∃ cr, t = rawText M cr f := by
  obtain ⟨j, hj⟩ := List.getElem?_of_mem h
  rw [rawTexts_get] at hj
  cases hf : fs[j]? with
  | none => rw [hf] at hj; simp at hj
  | some f =>
    rw [hf] at hj
    exact ⟨f, List.mem_of_getElem? hf, _, (Option.some.inj hj).symm⟩

theorem rawTexts_cons (M : Marks) (crlf : Bool) (f : WField) (fs : List WField) :
    ∃ cr, rawTexts M crlf (f :: fs) = rawText M cr f :: rawTexts M crlf fs := by
  cases fs with
  | nil => exact ⟨crlf, by simp [rawTexts, rawText]⟩
  | cons g gs => exact ⟨false, by simp [rawTexts, rawText]⟩

theorem rawTexts_order (M : Marks) (hM : ReadSane M) (crlf : Bool) (fs : List WField)
    (hwf : ∀ f ∈ fs, f.WF M) (ht : TameAfterPlain M fs) : QuotedSepsFirst M (rawTexts M crlf fs) := by
  induction fs with
  | nil => trivial
  | cons f fs ih =>
    obtain ⟨cr, h⟩ := rawTexts_cons M crlf f fs
    rw [h]
    cases f with
    | plain s =>
      refine ⟨?_, ih (fun f hf => hwf f (by simp [hf])) ht.2⟩
      intro _ g hg
      obtain ⟨f, hf, cr', rfl⟩ := mem_rawTexts M crlf fs g hg
      exact rawText_simple M hM cr' f (hwf f (by simp [hf])) (ht.1 f hf)
    | quoted b =>
      refine ⟨?_, ih (fun f hf => hwf f (by simp [hf])) ht⟩
      intro hp
      exfalso
      have hq := rawText_quoted M hM cr b
      have := List.mem_of_head? hq.1
      exact hp.2.1 this

/-! ### Cells -/

/-- The value appended for a written field. -/
def Cell.toOption : Cell → Option Bytes
  | .null => none
  | .text v => some v

theorem stripCR_append (f : Bytes) : stripCR (f ++ [13]) = f := by
  simp [stripCR]

theorem stripCR_id (f : Bytes) (h : f.getLast? ≠ some 13) : stripCR f = f := by
  unfold stripCR; rw [if_neg h]

theorem stripCR_rawText (M : Marks) (hM : ReadSane M) (cr : Bool) (f : WField) (h : f.WF M) :
    stripCR (rawText M cr f) = f.render M.quote := by
  unfold rawText
  cases cr with
  | true => exact stripCR_append _
  | false =>
    simp only [Bool.false_eq_true, if_false, List.append_nil]
    apply stripCR_id
    cases f with
    | plain s =>
      intro hl
      exact h.2.2.2 (List.mem_of_getLast? hl)
    | quoted b =>
      unfold WField.render
      rw [List.getLast?_append]
      simpa using hM.quote_cr

theorem cellOf_value (cfg : ReadCfg) (hM : ReadSane cfg.dial) (cr : Bool) (f : WField) (h : f.WF cfg.dial) (needs : Bool)
    (hn : rawText cfg.dial cr f ≠ [] → needs = ((rawText cfg.dial cr f).head? == some cfg.quote)) :
    (cellOf cfg.nc cfg.quote (rawText cfg.dial cr f) needs).toOption =
      f.value cfg.quote (commaPieces cfg.nullValues) := by
  unfold cellOf
  dsimp only
  rw [stripCR_rawText _ hM cr f h]
  have hnull := isNull_iff cfg.nullValues (f.render cfg.dial.quote)
  change (cfg.nc.isNull (f.render cfg.dial.quote) = true ↔ _) at hnull
  have hquote : cfg.dial.quote = cfg.quote := rfl
  rw [hquote] at hnull ⊢
  cases f with
  | plain s =>
    have hren : WField.render cfg.quote (.plain s) = s := rfl
    rw [hren] at hnull ⊢
    rw [WField.value]
    by_cases hs : s = [] ∨ s ∈ commaPieces cfg.nullValues
    · rw [if_pos (hnull.2 hs), if_pos hs]; rfl
    · rw [if_neg (fun h => hs (hnull.1 h)), if_neg hs]
      have hne : s ≠ [] := fun h => hs (Or.inl h)
      have hraw : rawText cfg.dial cr (.plain s) ≠ [] := by
        unfold rawText WField.render; simp [hne]
      have hp := rawText_plain _ hM cr s h
      have : needs = false := by
        rw [hn hraw]
        cases hr : rawText cfg.dial cr (.plain s) with
        | nil => exact absurd hr hraw
        | cons c r =>
          rw [hr] at hp
          have : c ≠ cfg.quote := by
            intro hc; apply hp.2.1; rw [← hquote] at hc; rw [← hc]; simp
          simpa using this
      rw [this]; rfl
  | quoted b =>
    have hne : (WField.quoted b).render cfg.quote ≠ [] := by simp [WField.render]
    by_cases hs : (WField.quoted b).render cfg.quote ∈ commaPieces cfg.nullValues
    · rw [if_pos (hnull.2 (Or.inr hs))]
      rw [WField.value, if_pos hs]; rfl
    · rw [if_neg (fun h => (hnull.1 h).elim hne hs)]
      rw [WField.value, if_neg hs]
      have hq := rawText_quoted _ hM cr b
      have : needs = true := by
        rw [hn (by intro h; rw [h] at hq; simp [QuotedField] at hq), hq.1]
        simp [hquote]
      rw [this, if_pos rfl]
      have hcond : ((WField.quoted b).render cfg.quote).length ≥ 2 ∧ ((WField.quoted b).render cfg.quote).head? = some cfg.quote ∧
          ((WField.quoted b).render cfg.quote).getLast? = some cfg.quote := by
        unfold WField.render
        refine ⟨by simp, by simp, ?_⟩
        rw [List.getLast?_append]; simp
      rw [if_pos hcond]
      have : (((WField.quoted b).render cfg.quote).drop 1).take (((WField.quoted b).render cfg.quote).length - 2) =
          escape cfg.quote b := by
        unfold WField.render; simp
      rw [this, unescape_escape]; rfl

/-! ### Whole files -/

theorem skipBlank_lf (d : Bytes) : skipBlank (10 :: d) = skipBlank d := by
  conv_lhs => unfold skipBlank
  simp

theorem skipBlank_crlf (d : Bytes) : skipBlank (13 :: 10 :: d) = skipBlank d := by
  conv_lhs => unfold skipBlank
  rw [if_neg (show ¬ (13 : UInt8) = LF by decide), if_pos (show (13 : UInt8) = CR from rfl)]
  simp

theorem skipBlank_cr : skipBlank [13] = [] := by
  unfold skipBlank
  rw [if_neg (show ¬ (13 : UInt8) = LF by decide), if_pos (show (13 : UInt8) = CR from rfl)]

theorem skipBlank_cons (c : UInt8) (d : Bytes) (h1 : c ≠ 10) (h2 : c ≠ 13) : skipBlank (c :: d) = c :: d := by
  unfold skipBlank; simp [h1, h2]

/-- Head of a non-blank written row is neither LF nor CR. -/
theorem row_head (M : Marks) (hM : ReadSane M) (r : WRow) (hne : r.fields ≠ []) (hwf : ∀ f ∈ r.fields, f.WF M) (hb : r.blank = false) (t : Bytes) :
    ∃ c d, r.render M ++ t = c :: d ∧ c ≠ 10 ∧ c ≠ 13 := by
  obtain ⟨fs, crlf⟩ := r
  simp only at hne hwf
  have hl := hM.eol_lf
  cases fs with
  | nil => exact absurd rfl hne
  | cons f fs =>
    have hf := hwf f (by simp)
    unfold WRow.render
    simp only [List.map_cons]
    cases f with
    | quoted b =>
      cases fs with
      | nil => exact ⟨M.quote, _, by simp only [List.map_nil, joinFields, WField.render, List.cons_append]; rfl,
          by rw [← hl]; exact fun h => hM.eol_quote h.symm, hM.quote_cr⟩
      | cons g gs =>
        exact ⟨M.quote, _, by simp only [List.map_cons, joinFields, WField.render, List.cons_append]; rfl,
          by rw [← hl]; exact fun h => hM.eol_quote h.symm, hM.quote_cr⟩
    | plain s =>
      cases s with
      | nil =>
        cases fs with
        | nil => simp [WRow.blank] at hb
        | cons g gs =>
          exact ⟨M.sep, _, by simp only [List.map_cons, joinFields, WField.render, List.nil_append, List.cons_append]; rfl,
            by rw [← hl]; exact hM.sep_eol, hM.sep_cr⟩
      | cons c s =>
        have hc : c ≠ 10 ∧ c ≠ 13 := by
          obtain ⟨_, _, h3, h4⟩ := hf
          constructor
          · intro h; apply h3; rw [hl, h]; simp
          · intro h; apply h4; rw [h]; simp
        cases fs with
        | nil => exact ⟨c, _, by simp only [List.map_nil, joinFields, WField.render, List.cons_append]; rfl, hc⟩
        | cons g gs => exact ⟨c, _, by simp only [List.map_cons, joinFields, WField.render, List.cons_append]; rfl, hc⟩

/-- Reading one written row followed by a line end or the end of the data. -/
theorem splitRow_wrow (cfg : ReadCfg) (hM : ReadSane cfg.dial) (r : WRow) (h : r.WF cfg.dial) (t : Bytes)
    (ht : t = [] ∨ t.head? = some 10) :
    ∃ out, splitRow cfg.cpu cfg.dial cfg.junk (r.render cfg.dial ++ t) = some (out, t.drop 1) ∧
      out.map Prod.fst = rawTexts cfg.dial r.crlf r.fields ∧
      ∀ fn ∈ out, fn.1 ≠ [] → fn.2 = (fn.1.head? == some cfg.quote) := by
  unfold splitRow
  have hjoin : r.render cfg.dial ++ t = joinFields cfg.dial.sep (rawTexts cfg.dial r.crlf r.fields) ++ t := by
    rw [rawTexts_join _ _ _ h.ne]; rfl
  obtain ⟨out, h1, h2⟩ := collect_row cfg.cpu cfg.dial hM.toSane (rawTexts cfg.dial r.crlf r.fields)
    (rawTexts_ne _ _ _ h.ne) t (by rw [hM.eol_lf]; exact ht)
    (by
      intro f hf
      obtain ⟨g, hg, cr, rfl⟩ := mem_rawTexts _ _ _ _ hf
      exact rawText_raw _ hM cr g (h.wf g hg))
    ((r.render cfg.dial ++ t).length + 2) { rest := r.render cfg.dial ++ t } cfg.junk false rfl (CacheOK.zero _ _) hjoin
    (Or.inl ⟨rfl, Or.inr (rawTexts_order _ hM _ _ h.wf h.tame)⟩) (by simp)
  obtain ⟨fs, tail, g1, _, _, g4⟩ := collect_total cfg.cpu cfg.dial ((r.render cfg.dial ++ t).length + 2)
    { rest := r.render cfg.dial ++ t } cfg.junk false rfl (CacheOK.zero _ _) (by simp)
  rw [h1] at g1
  obtain ⟨rfl, _⟩ : out = fs ∧ _ := by simpa using g1
  refine ⟨out, h1, h2, ?_⟩
  intro fn hfn hne
  rw [g4 fn hfn hne]
  have : decide (cfg.dial.quote ≠ 0) = true := by simp [hM.quote_nz]
  rw [this, Bool.true_and]; rfl

/-- The cells of a row read back from a written row. -/
theorem cellAt_wrow (cfg : ReadCfg) (hM : ReadSane cfg.dial) (r : WRow) (hwf : ∀ f ∈ r.fields, f.WF cfg.dial) (out : List (Bytes × Bool))
    (h1 : out.map Prod.fst = rawTexts cfg.dial r.crlf r.fields)
    (h2 : ∀ fn ∈ out, fn.1 ≠ [] → fn.2 = (fn.1.head? == some cfg.quote)) (j : Nat) :
    (cellAt cfg.nc cfg.quote out j).toOption = r.valueAt cfg.quote (commaPieces cfg.nullValues) j := by
  unfold cellAt WRow.valueAt
  have hj := congrArg (fun l => l[j]?) h1
  simp only [List.getElem?_map, rawTexts_get] at hj
  cases ho : out[j]? with
  | none =>
    rw [ho] at hj
    cases hf : r.fields[j]? with
    | none => rfl
    | some f => rw [hf] at hj; simp at hj
  | some fn =>
    rw [ho] at hj
    cases hf : r.fields[j]? with
    | none => rw [hf] at hj; simp at hj
    | some f =>
      rw [hf] at hj
      have he : fn.1 = rawText cfg.dial (r.crlf && decide (j + 1 = r.fields.length)) f := by simpa using hj
      dsimp only
      rw [he]
      apply cellOf_value cfg hM _ f (hwf f (List.mem_of_getElem? hf))
      rw [← he]
      exact h2 fn (List.mem_of_getElem? ho)

/-- Raw rows `rs` carry the values of the written rows. -/
def RowsMatch (cfg : ReadCfg) (rs : List (List (Bytes × Bool))) (rows : List WRow) : Prop :=
  ∀ j, rs.map (fun fs => (cellAt cfg.nc cfg.quote fs j).toOption) =
    (rows.filter (fun r => !r.blank)).map (fun r => r.valueAt cfg.quote (commaPieces cfg.nullValues) j)

theorem blank_render (M : Marks) (r : WRow) (hb : r.blank = true) :
    r.render M = [] ∨ r.render M = [13] := by
  obtain ⟨fs, crlf⟩ := r
  have : fs = [.plain []] := by simpa [WRow.blank] using hb
  subst this
  unfold WRow.render
  cases crlf <;> simp [joinFields, WField.render]

theorem rawRows_nil (cfg : ReadCfg) (fuel : Nat) : rawRows cfg (fuel + 1) [] = some [] := by
  unfold rawRows
  have : skipBlank [] = [] := by rw [skipBlank]
  simp [this]

/-- Every row that is not blank is cut into its fields where it stands. -/
def CutsWhole (cfg : ReadCfg) : List WRow → Prop
  | [] => True
  | r :: rows => (r.blank = false → ∃ out, splitRow cfg.cpu cfg.dial cfg.junk (renderFile cfg.dial (r :: rows)) = some (out, renderFile cfg.dial rows) ∧
      out.map Prod.fst = rawTexts cfg.dial r.crlf r.fields) ∧ CutsWhole cfg rows

theorem splitRow_flags (cfg : ReadCfg) (hM : ReadSane cfg.dial) (data : Bytes) (out tail) (h : splitRow cfg.cpu cfg.dial cfg.junk data = some (out, tail)) :
    ∀ fn ∈ out, fn.1 ≠ [] → fn.2 = (fn.1.head? == some cfg.quote) := by
  obtain ⟨fs, tail, g1, _, _, g4⟩ := collect_total cfg.cpu cfg.dial (data.length + 2) { rest := data } cfg.junk false rfl (CacheOK.zero _ _) (by simp)
  unfold splitRow at h
  rw [h] at g1
  obtain ⟨rfl, _⟩ : out = fs ∧ _ := by simpa using g1
  intro fn hfn hne
  rw [g4 fn hfn hne]
  have : decide (cfg.dial.quote ≠ 0) = true := by simp [hM.quote_nz]
  rw [this, Bool.true_and]; rfl

theorem rawRows_file_of (cfg : ReadCfg) (hM : ReadSane cfg.dial) (rows : List WRow) (hne : ∀ r ∈ rows, r.fields ≠ [])
    (hwf : ∀ r ∈ rows, ∀ f ∈ r.fields, f.WF cfg.dial) (hcut : CutsWhole cfg rows)
    (fuel : Nat) (hfuel : (renderFile cfg.dial rows).length + 1 ≤ fuel) :
    ∃ rs, rawRows cfg fuel (renderFile cfg.dial rows) = some rs ∧ RowsMatch cfg rs rows := by
  induction rows generalizing fuel with
  | nil =>
    obtain ⟨fuel, rfl⟩ : ∃ k, fuel = k + 1 := ⟨fuel - 1, by omega⟩
    exact ⟨[], rawRows_nil cfg fuel, fun j => rfl⟩
  | cons r rows ih =>
    have hr := hwf r (by simp)
    have hrn : ∀ x ∈ rows, x.fields ≠ [] := fun x hx => hne x (by simp [hx])
    have hrest : ∀ x ∈ rows, ∀ f ∈ x.fields, f.WF cfg.dial := fun x hx => hwf x (by simp [hx])
    have heol : cfg.dial.eol = 10 := rfl
    obtain ⟨t, ht1, ht2, ht3⟩ : ∃ t, renderFile cfg.dial (r :: rows) = r.render cfg.dial ++ t ∧
        (t = [] ∨ t.head? = some 10) ∧ (t.drop 1 = renderFile cfg.dial rows ∧ (t = [] ∨ t = 10 :: renderFile cfg.dial rows)) := by
      cases rows with
      | nil => exact ⟨[], by simp [renderFile, joinFields], Or.inl rfl, by simp [renderFile, joinFields]⟩
      | cons a l => exact ⟨10 :: renderFile cfg.dial (a :: l), by simp [renderFile, joinFields, heol], by simp, by simp⟩
    obtain ⟨fuel, rfl⟩ : ∃ k, fuel = k + 1 := ⟨fuel - 1, by omega⟩
    have hlen := congrArg List.length ht1
    rw [List.length_append] at hlen
    have htl := congrArg List.length ht3.1
    rw [List.length_drop] at htl
    cases hb : r.blank with
    | true =>
      have hskip : skipBlank (renderFile cfg.dial (r :: rows)) = skipBlank (renderFile cfg.dial rows) := by
        rw [ht1]
        have h0 : skipBlank [] = [] := by rw [skipBlank]
        have h13 : skipBlank [13] = [] := skipBlank_cr
        rcases blank_render cfg.dial r hb with hbr | hbr <;> rw [hbr] <;> rcases ht3.2 with h | h
        · rw [h] at ht3; rw [h, ← ht3.1]; rfl
        · rw [h]; exact skipBlank_lf _
        · rw [h] at ht3; rw [h, ← ht3.1]; simp [h13, h0]
        · rw [h]; exact skipBlank_crlf _
      rw [rawRows_congr cfg _ _ _ hskip]
      obtain ⟨rs, g1, g2⟩ := ih hrn hrest hcut.2 (fuel + 1) (by
        rcases ht3.2 with h | h
        · rw [h] at htl; simp at htl; omega
        · rw [h] at hlen; simp at hlen; omega)
      refine ⟨rs, g1, ?_⟩
      intro j
      rw [g2 j]
      simp [hb]
    | false =>
      obtain ⟨c, d, hcd, hc1, hc2⟩ := row_head cfg.dial hM r (hne r (by simp)) hr hb t
      have hskip : skipBlank (renderFile cfg.dial (r :: rows)) = r.render cfg.dial ++ t := by
        rw [ht1, hcd]; exact skipBlank_cons c d hc1 hc2
      unfold rawRows
      rw [hskip, if_neg (by rw [hcd]; simp)]
      obtain ⟨out, h1, h2⟩ := hcut.1 hb
      have h3 := splitRow_flags cfg hM _ _ _ h1
      rw [ht1] at h1
      rw [h1]
      dsimp only
      have hpos : 0 < (r.render cfg.dial ++ t).length := by rw [hcd]; simp
      rw [List.length_append] at hpos
      obtain ⟨rs, g1, g2⟩ := ih hrn hrest hcut.2 fuel (by
        rcases ht3.2 with h | h
        · rw [h] at htl hpos; simp at htl hpos; omega
        · rw [h] at hlen; simp at hlen; omega)
      rw [g1]
      refine ⟨out :: rs, rfl, ?_⟩
      intro j
      have := cellAt_wrow cfg hM r hr out h2 h3 j
      simp [hb, this, g2 j]


theorem cutsWhole_tame (cfg : ReadCfg) (hM : ReadSane cfg.dial) (rows : List WRow) (hwf : ∀ r ∈ rows, r.WF cfg.dial) : CutsWhole cfg rows := by
  induction rows with
  | nil => trivial
  | cons r rows ih =>
    refine ⟨fun _ => ?_, ih fun x hx => hwf x (by simp [hx])⟩
    have heol : cfg.dial.eol = 10 := rfl
    obtain ⟨t, ht1, ht2, ht3⟩ : ∃ t, renderFile cfg.dial (r :: rows) = r.render cfg.dial ++ t ∧ (t = [] ∨ t.head? = some 10) ∧ t.drop 1 = renderFile cfg.dial rows := by
      cases rows with
      | nil => exact ⟨[], by simp [renderFile, joinFields], Or.inl rfl, by simp [renderFile, joinFields]⟩
      | cons a l => exact ⟨10 :: renderFile cfg.dial (a :: l), by simp [renderFile, joinFields, heol], by simp, by simp⟩
    obtain ⟨out, h1, h2, -⟩ := splitRow_wrow cfg hM r (hwf r (by simp)) t ht2
    rw [ht1, ← ht3]
    exact ⟨out, h1, h2⟩

theorem rawRows_file (cfg : ReadCfg) (hM : ReadSane cfg.dial) (rows : List WRow) (hwf : ∀ r ∈ rows, r.WF cfg.dial)
    (fuel : Nat) (hfuel : (renderFile cfg.dial rows).length + 1 ≤ fuel) :
    ∃ rs, rawRows cfg fuel (renderFile cfg.dial rows) = some rs ∧ RowsMatch cfg rs rows :=
  rawRows_file_of cfg hM rows (fun r hr => (hwf r hr).ne) (fun r hr => (hwf r hr).wf) (cutsWhole_tame cfg hM rows hwf) fuel hfuel

end Vroom
