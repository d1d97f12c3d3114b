import Verif.Lemmas.DialectTable
import Verif.Lemmas.DialectComments

/-!
C46-C49: dialect detection.
-/
namespace Vroom
open Spec

/-! ### C46: the ranking of candidates -/

/-- The scores of two candidates are equal or differ by more than the tie tolerance of the ranking. -/
def Separated (a b : DialectCandidate) : Prop := a.score = b.score ∨ a.score - b.score > 1 / 1000000000 ∨ b.score - a.score > 1 / 1000000000

/-- Ranking of candidates of equal score. -/
def tieBefore (a b : DialectCandidate) : Bool :=
  if a.columns ≠ b.columns then decide (a.columns > b.columns)
  else if a.dialect.quote ≠ b.dialect.quote then decide (a.dialect.quote = 34)
  else if a.dialect.doubleQuote ≠ b.dialect.doubleQuote then a.dialect.doubleQuote
  else if a.dialect.delimiter ≠ b.dialect.delimiter then decide (a.dialect.delimiter = 44)
  else false

theorem before_of_gt {a b : DialectCandidate} (h : a.score - b.score > 1 / 1000000000) : a.before b = true := by
  simp only [DialectCandidate.before]; rw [if_pos h]

theorem before_of_lt {a b : DialectCandidate} (h : b.score - a.score > 1 / 1000000000) : a.before b = false := by
  simp only [DialectCandidate.before]; rw [if_neg (by grind), if_pos (by grind)]

theorem before_of_tie {a b : DialectCandidate} (h1 : ¬ a.score - b.score > 1 / 1000000000) (h2 : ¬ b.score - a.score > 1 / 1000000000) :
    a.before b = tieBefore a b := by
  simp only [DialectCandidate.before, tieBefore]; rw [if_neg h1, if_neg (by grind)]

theorem tie_asymm {a b : DialectCandidate} (h : tieBefore a b = true) : tieBefore b a = false := by
  unfold tieBefore at *
  grind

theorem tie_trans {a b c : DialectCandidate} (h1 : tieBefore a b = true) (h2 : tieBefore b c = true) : tieBefore a c = true := by
  unfold tieBefore at *
  grind

/-- No candidate ranks before itself. -/
theorem C46_irreflexive (a : DialectCandidate) : a.before a = false := by
  rw [before_of_tie (by grind) (by grind)]; unfold tieBefore; simp

/-- Two candidates never both rank before each other. -/
theorem C46_asymmetric (a b : DialectCandidate) (h : a.before b = true) : b.before a = false := by
  by_cases h1 : a.score - b.score > 1 / 1000000000
  · exact before_of_lt h1
  · by_cases h2 : b.score - a.score > 1 / 1000000000
    · rw [before_of_lt h2] at h; simp at h
    · rw [before_of_tie h1 h2] at h
      rw [before_of_tie h2 h1]; exact tie_asymm h

/-- Ranking is transitive as long as scores are equal or further apart than the tolerance.
Missing for a strict weak order: transitivity for close scores, and transitivity of "neither ranks before the other", which both
fail (`C46_tolerance_refuted`, `C46_sort_precondition_refuted`). -/
theorem C46_transitive_partial (a b c : DialectCandidate) (hab : Separated a b) (hbc : Separated b c) (hac : Separated a c)
    (h1 : a.before b = true) (h2 : b.before c = true) : a.before c = true := by
  have key : ∀ x y : DialectCandidate, Separated x y → x.before y = true →
      x.score - y.score > 1 / 1000000000 ∨ (x.score = y.score ∧ tieBefore x y = true) := by
    intro x y hs h
    rcases hs with h0 | h0 | h0
    · right; refine ⟨h0, ?_⟩; rw [← before_of_tie (by grind) (by grind)]; exact h
    · exact Or.inl h0
    · rw [before_of_lt h0] at h; simp at h
  rcases key a b hab h1 with k1 | ⟨e1, t1⟩ <;> rcases key b c hbc h2 with k2 | ⟨e2, t2⟩
  · exact before_of_gt (by grind)
  · exact before_of_gt (by grind)
  · exact before_of_gt (by grind)
  · rw [before_of_tie (by grind) (by grind)]; exact tie_trans t1 t2

/-- With close scores the ranking goes round in a circle. -/
theorem C46_tolerance_refuted : ∃ a b c : DialectCandidate, a.before b = true ∧ b.before c = true ∧ c.before a = true := by
  refine ⟨⟨{}, 0, 3⟩, ⟨{}, 1 / 1500000000, 2⟩, ⟨{}, 2 / 1500000000, 1⟩, ?_, ?_, ?_⟩ <;> decide +kernel

/-- Text free of apostrophes and backslashes reads the same under three of the dialects. -/
theorem outside_free (Q : Quoting) (t : List UInt8) (hq : ∀ c ∈ t, Q.quote ≠ some c) (he : ∀ c ∈ t, Q.esc ≠ some c) : outside Q t = true := by
  have h : ∀ t : List UInt8, (∀ c ∈ t, Q.quote ≠ some c) → (∀ c ∈ t, Q.esc ≠ some c) → settled Q t = true ∧ liveQuotes Q t = 0 := by
    intro t
    induction t with
    | nil => intro _ _; exact ⟨rfl, rfl⟩
    | cons a t ih =>
      intro hq he
      have ih' := ih (fun c hc => hq c (List.mem_cons_of_mem _ hc)) (fun c hc => he c (List.mem_cons_of_mem _ hc))
      have h1 := hq a (by simp)
      have h2 := he a (by simp)
      cases t with
      | nil => simp [settled, liveQuotes, h1, h2]
      | cons b t => simp only [settled, liveQuotes]; rw [if_neg h2, if_neg h2, if_neg h1]; exact ⟨ih'.1, by rw [ih'.2]⟩
  have := h t hq he
  simp [outside, this.1, this.2]

/-- The sample as seen by a dialect none of whose quote and escape bytes occur in it. -/
theorem allFields_free (o : DetectOptions) (hm : 1 ≤ o.maxRows) (d : Dialect) (hd : d.Sane) (t : List UInt8)
    (hq : ∀ c ∈ t, d.quoting.quote ≠ some c) (he : ∀ c ∈ t, d.quoting.esc ≠ some c) :
    allFields o d t = (sampleRows ⟨none, none⟩ o.commentChars o.maxRows t).map (fun r =>
      if sliceOf t r = [] then [] else pieces (sliceOf t r) 0 (fieldCuts ⟨none, none⟩ d.delimiter (sliceOf t r))) := by
  have hsub : ∀ (i : Nat) (u : List UInt8), (∀ c ∈ u, c ∈ t) → outside d.quoting (u.take i) = outside ⟨none, none⟩ (u.take i) := by
    intro i u hu
    rw [outside_free d.quoting (u.take i) (fun c hc => hq c (hu c (List.mem_of_mem_take hc))) (fun c hc => he c (hu c (List.mem_of_mem_take hc))),
      outside_free ⟨none, none⟩ (u.take i) (by simp) (by simp)]
  unfold allFields
  rw [findRows_spec o d hd hm]
  have hrows : sampleRows d.quoting o.commentChars o.maxRows t = sampleRows ⟨none, none⟩ o.commentChars o.maxRows t := by
    unfold sampleRows lineEnds
    congr 4
    funext i
    rw [hsub i t (fun c hc => hc)]
  rw [hrows]
  apply List.map_congr_left
  intro r _
  rw [show (t.drop r.1).take (r.2 - r.1) = sliceOf t r from rfl]
  have hmem : ∀ c ∈ sliceOf t r, c ∈ t := fun c hc => List.mem_of_mem_drop (List.mem_of_mem_take hc)
  by_cases hne : sliceOf t r = []
  · rw [if_pos hne, hne]; rfl
  · rw [if_neg hne, extractFields_spec d hd _ hne]
    have hcuts : fieldCuts d.quoting d.delimiter (sliceOf t r) = fieldCuts ⟨none, none⟩ d.delimiter (sliceOf t r) := by
      unfold fieldCuts
      congr 1
      funext i
      rw [hsub i _ hmem]
    rw [hcuts]
    have hp : ∀ (cuts : List Nat) (s : Nat) (f : List UInt8), f ∈ pieces (sliceOf t r) s cuts → ∀ c ∈ f, c ∈ t := by
      intro cuts
      induction cuts with
      | nil => intro s f hf c hc; simp [pieces] at hf; subst hf; exact hmem c (List.mem_of_mem_drop hc)
      | cons k ks ih =>
        intro s f hf c hc
        simp only [pieces, List.mem_cons] at hf
        rcases hf with rfl | hf
        · exact hmem c (List.mem_of_mem_drop (List.mem_of_mem_take hc))
        · exact ih _ f hf c hc
    conv_rhs => rw [← List.map_id (pieces (sliceOf t r) 0 _)]
    apply List.map_congr_left
    intro f hf
    have hfm := hp _ _ f hf
    unfold unquote
    cases hqq : d.quoting.quote with
    | none => rfl
    | some q =>
      dsimp only
      rw [if_neg]
      · rfl
      · rintro ⟨_, h, _⟩
        exact hq q (hfm q (List.mem_of_mem_head? h)) hqq

theorem escapePairs_free (q e : UInt8) : ∀ t : List UInt8, q ∉ t → escapePairs q e t = (0, 0)
  | [], _ => rfl
  | [_], _ => rfl
  | a :: b :: t, h => by
    simp only [escapePairs]
    rw [escapePairs_free q e (b :: t) (fun hb => h (List.mem_cons_of_mem _ hb))]
    have h1 : b ≠ q := fun hb => h (by simp [hb])
    simp [h1]

/-- For every text without apostrophes and backslashes (that is, nearly every CSV file) and any scoring arithmetic, the candidates
that detection sorts break the precondition of the sort: there are `a`, `b`, `c` with `a` tied with `b` and `b` tied with `c`, but `a` ranked before `c`. -/
theorem C46_sort_precondition_refuted (A : ScoreFns) (t : List UInt8) (h39 : (39 : UInt8) ∉ t) (h92 : (92 : UInt8) ∉ t) :
    ∃ a ∈ scoredCandidates A {} t, ∃ b ∈ scoredCandidates A {} t, ∃ c ∈ scoredCandidates A {} t,
      (a.before b = false ∧ b.before a = false) ∧ (b.before c = false ∧ c.before b = false) ∧ a.before c = true := by
  obtain ⟨da, hda⟩ : ∃ d : Dialect, d = ⟨44, 39, 39, true, 0⟩ := ⟨_, rfl⟩
  obtain ⟨db, hdb⟩ : ∃ d : Dialect, d = ⟨44, 0, 0, false, 0⟩ := ⟨_, rfl⟩
  obtain ⟨dc, hdc⟩ : ∃ d : Dialect, d = ⟨44, 39, 92, false, 0⟩ := ⟨_, rfl⟩
  have hm : ∀ d ∈ generateCandidates {}, scoreDialect A {} d t ∈ scoredCandidates A {} t := fun d hd => List.mem_map_of_mem hd
  have sane : ∀ d : Dialect, d = da ∨ d = db ∨ d = dc → d.Sane := by
    rintro d (h | h | h) <;> subst h
    · subst hda; constructor <;> simp
    · subst hdb; constructor <;> simp
    · subst hdc; constructor <;> simp
  have fa := allFields_free {} (by decide) da (sane da (by simp)) t
    (by intro c hc he; subst hda; simp [Dialect.quoting] at he; subst he; exact h39 hc) (by intro c hc he; subst hda; simp [Dialect.quoting] at he)
  have fb := allFields_free {} (by decide) db (sane db (by simp)) t
    (by intro c hc he; subst hdb; simp [Dialect.quoting] at he) (by intro c hc he; subst hdb; simp [Dialect.quoting] at he)
  have fc := allFields_free {} (by decide) dc (sane dc (by simp)) t
    (by intro c hc he; subst hdc; simp [Dialect.quoting] at he; subst he; exact h39 hc)
    (by intro c hc he; subst hdc; simp [Dialect.quoting] at he; subst he; exact h92 hc)
  have e1 : allFields {} da t = allFields {} db t := by rw [fa, fb]; subst hda hdb; rfl
  have e2 : allFields {} dc t = allFields {} db t := by rw [fc, fb]; subst hdc hdb; rfl
  have s1 : (scoreDialect A {} da t).score = (scoreDialect A {} db t).score ∧ (scoreDialect A {} da t).columns = (scoreDialect A {} db t).columns := by
    simp only [scoreDialect]
    rw [e1]
    by_cases hc : (allFields {} db t).length < (({} : DetectOptions)).minRows ∨ (allFields {} db t).map List.length = []
    · rw [if_pos hc, if_pos hc]; exact ⟨rfl, rfl⟩
    · rw [if_neg hc, if_neg hc]; subst hda hdb; simp [escapeSignal, escapePairs_free 39 39 t h39]
  have s2 : (scoreDialect A {} dc t).score = (scoreDialect A {} db t).score ∧ (scoreDialect A {} dc t).columns = (scoreDialect A {} db t).columns := by
    simp only [scoreDialect]
    rw [e2]
    by_cases hc : (allFields {} db t).length < (({} : DetectOptions)).minRows ∨ (allFields {} db t).map List.length = []
    · rw [if_pos hc, if_pos hc]; exact ⟨rfl, rfl⟩
    · rw [if_neg hc, if_neg hc]; subst hdc hdb; simp [escapeSignal, escapePairs_free 39 92 t h39]
  have hdl : ∀ d, (scoreDialect A {} d t).dialect = d := by
    intro d; simp only [scoreDialect]; split <;> rfl
  refine ⟨_, hm da (by subst hda; decide), _, hm db (by subst hdb; decide), _, hm dc (by subst hdc; decide), ⟨?_, ?_⟩, ⟨?_, ?_⟩, ?_⟩
  all_goals
    rw [before_of_tie (by simp only [s1.1, s2.1]; grind) (by simp only [s1.1, s2.1]; grind)]
    unfold tieBefore
    simp only [hdl, s1.2, s2.2]
    generalize (scoreDialect A {} db t).columns = n
    subst hda hdb hdc
    simp

/-! ### C47: rows and fields of a sample -/

/-- The fields found in a row are the pieces between the delimiters that are neither quoted nor escaped, without enclosing quotes. -/
theorem C47_fields (d : Dialect) (hd : d.Sane) (row : List UInt8) (hr : row ≠ []) :
    extractFields d row = (pieces row 0 (fieldCuts d.quoting d.delimiter row)).map (unquote d.quoting) :=
  extractFields_spec d hd row hr

/-- The rows found in a sample are its non-empty lines that are not comments, cut only at line ends that are neither quoted nor escaped. -/
theorem C47_rows (o : DetectOptions) (d : Dialect) (hd : d.Sane) (hm : 1 ≤ o.maxRows) (buf : List UInt8) :
    findRows o d buf = sampleRows d.quoting o.commentChars o.maxRows buf :=
  findRows_spec o d hd hm buf

theorem lineRanges_order (t : List UInt8) : ∀ (ends : List Nat) (s : Nat), ends.Pairwise (· < ·) → (∀ e ∈ ends, s ≤ e ∧ e < t.length) →
    (∀ r ∈ lineRanges t s ends, s ≤ r.1 ∧ r.1 ≤ r.2 ∧ r.2 ≤ t.length) ∧ (lineRanges t s ends).Pairwise (fun a b => a.2 < b.1)
  | [], s, _, _ => by
    simp only [lineRanges]
    by_cases h : s < t.length
    · rw [if_pos h]; simp; omega
    · rw [if_neg h]; simp
  | e :: es, s, hp, hb => by
    rw [List.pairwise_cons] at hp
    have hbe := hb e (by simp)
    obtain ⟨i1, i2⟩ := lineRanges_order t es (e + 1) hp.2 (fun x hx => ⟨hp.1 x hx, (hb x (List.mem_cons_of_mem _ hx)).2⟩)
    simp only [lineRanges]
    obtain ⟨x, hx⟩ : ∃ x, x = if t[e]? = some 10 ∧ s < e ∧ t[e - 1]? = some 13 then e - 1 else e := ⟨_, rfl⟩
    rw [← hx]
    have hxe : s ≤ x ∧ x ≤ e := by
      rw [hx]; split
      · omega
      · omega
    refine ⟨?_, ?_⟩
    · intro r hr
      rw [List.mem_cons] at hr
      rcases hr with rfl | hr
      · exact ⟨Nat.le_refl _, hxe.1, by simp only; omega⟩
      · have := i1 r hr; omega
    · rw [List.pairwise_cons]
      refine ⟨?_, i2⟩
      intro r hr
      have := i1 r hr
      simp only; omega

/-- The rows are non-empty, within the buffer, and disjoint in increasing order. -/
theorem C47_rows_disjoint (o : DetectOptions) (d : Dialect) (hd : d.Sane) (hm : 1 ≤ o.maxRows) (buf : List UInt8) :
    (∀ r ∈ findRows o d buf, r.1 < r.2 ∧ r.2 ≤ buf.length) ∧ (findRows o d buf).Pairwise (fun a b => a.2 < b.1) := by
  rw [findRows_spec o d hd hm buf]
  have h := lineRanges_order buf (lineEnds d.quoting buf) 0 (lineEnds_sorted _ _)
    (by intro e he; unfold lineEnds at he; rw [List.mem_filter, List.mem_range] at he; exact ⟨Nat.zero_le _, he.1⟩)
  unfold sampleRows
  refine ⟨?_, ?_⟩
  · intro r hr
    have hr := List.mem_of_mem_take hr
    rw [List.mem_filter] at hr
    have := h.1 r hr.1
    have h2 := hr.2
    simp only [Bool.and_eq_true, decide_eq_true_eq] at h2
    exact ⟨h2.1, this.2.2⟩
  · exact (h.2.sublist List.filter_sublist).sublist (List.take_sublist _ _)

/-- The text of a written row without its terminator. -/
def rowBody (d : Dialect) (r : WRow) : List UInt8 := joinFields d.delimiter (r.fields.map (·.render d.quote))

/-- A written file: every row followed by LF or CRLF. -/
def writtenFile (d : Dialect) (rows : List WRow) : List UInt8 :=
  rows.flatMap (fun r => rowBody d r ++ (if r.crlf then [13, 10] else [10]))

/-- Sampling a written table with its own dialect gives back its table: the rows other than blank and comment lines, field by field
(bare text as is, quoted text as written between its quotes), whatever bytes the quoted fields hold. -/
theorem C47_table (o : DetectOptions) (d : Dialect) (hd : d.Sane) (hdq : d.doubleQuote = true) (hq0 : d.quote ≠ 0)
    (hdl : d.delimiter ≠ 10 ∧ d.delimiter ≠ 13) (hm : 1 ≤ o.maxRows) (rows : List WRow)
    (hwf : ∀ r ∈ rows, r.fields ≠ [] ∧ ∀ f ∈ r.fields, f.WF ⟨d.delimiter, d.quote, 10⟩) :
    allFields o d (writtenFile d rows) =
      ((rows.filter (fun r => decide (rowBody d r ≠ []) && !commentLine o.commentChars (rowBody d r))).take o.maxRows).map
        (fun r => r.fields.map (sampledText d.quote)) := by
  have hQ : d.quoting.quote = some d.quote := by simp [Dialect.quoting, hq0]
  have hE : d.quoting.esc = none := by simp [Dialect.quoting, hdq]
  have hfw : ∀ (stop : UInt8 → Bool), stop d.quote = false → (∀ c, stop c = true → c = d.delimiter ∨ c = 10 ∨ c = 13) →
      ∀ f : WField, f.WF ⟨d.delimiter, d.quote, 10⟩ → Whole d.quoting stop (f.render d.quote) := by
    intro stop hsq hst f hf
    cases f with
    | plain s =>
      obtain ⟨h1, h2, h3, h4⟩ := hf
      refine whole_plain _ d.quote hQ hE stop s ?_ h2
      intro c hc
      by_contra hcs
      rcases hst c (by simpa using hcs) with rfl | rfl | rfl
      · exact h1 hc
      · exact h3 hc
      · exact h4 hc
    | quoted b => exact whole_quoted _ d.quote hQ hE stop b hsq
  have hb : ∀ r ∈ rows, Whole d.quoting isBreak (rowBody d r) := by
    intro r hr
    refine whole_join _ _ _ hE (by rw [hQ]; simpa using hd.q_delim) (by simp [isBreak, hdl]) _ ?_
    intro f hf
    rw [List.mem_map] at hf
    obtain ⟨g, hg, rfl⟩ := hf
    refine hfw isBreak ?_ ?_ g ((hwf r hr).2 g hg)
    · simp [isBreak, hd.q_lf, hd.q_cr]
    · intro c hc; right; simpa [isBreak] using hc
  have ht : writtenFile d rows = terminated (rows.map (fun r => (rowBody d r, r.crlf))) := by
    unfold writtenFile
    clear hb hwf
    induction rows with
    | nil => rfl
    | cons r rs ih =>
      rw [List.flatMap_cons, ih]
      rfl
  have hfields : ∀ r ∈ rows, rowBody d r ≠ [] → extractFields d (rowBody d r) = r.fields.map (sampledText d.quote) := by
    intro r hr hne
    rw [extractFields_spec d hd _ hne]
    unfold rowBody
    rw [pieces_join d.quoting d.delimiter (by rw [hE]; simp) (by rw [hQ]; simpa using hd.q_delim) _ (by simpa using (hwf r hr).1)]
    · rw [List.map_map]
      apply List.map_congr_left
      intro f hf
      exact unquote_render d.quoting d.quote hQ _ rfl f ((hwf r hr).2 f hf)
    · intro f hf
      rw [List.mem_map] at hf
      obtain ⟨g, hg, rfl⟩ := hf
      refine hfw _ ?_ ?_ g ((hwf r hr).2 g hg)
      · simpa using hd.q_delim
      · intro c hc; left; simpa using hc
  have htext := ranges_text d.quoting o.commentChars o.maxRows (by rw [hQ]; simpa using hd.q_cr) (by rw [hQ]; simpa using hd.q_lf) hE
    (rows.map (fun r => (rowBody d r, r.crlf))) (by
      intro l hl
      rw [List.mem_map] at hl
      obtain ⟨r, hr, rfl⟩ := hl
      exact hb r hr)
  rw [← ht] at htext
  have hA : allFields o d (writtenFile d rows) =
      ((findRows o d (writtenFile d rows)).map (sliceOf (writtenFile d rows))).map (extractFields d) := by
    unfold allFields; rw [List.map_map]; rfl
  rw [hA, findRows_spec o d hd hm, htext, List.map_map, List.filter_map, ← List.map_take, List.map_map]
  apply List.map_congr_left
  intro r hr
  have hr := List.mem_of_mem_take hr
  rw [List.mem_filter] at hr
  have hne : rowBody d r ≠ [] := by
    have := hr.2
    simp only [Function.comp, Bool.and_eq_true, decide_eq_true_eq] at this
    exact this.1
  exact hfields r hr.1 hne

/-- The default comma dialect. -/
theorem sane_default : (({} : Dialect)).Sane := by constructor <;> simp

/-- The hypotheses of `C47_table` are met by the rows `# note`, `a,"x""y,` LF `"` and `1,2`. -/
example : let rows : List WRow := [⟨[.plain [35, 110]], false⟩, ⟨[.plain [97], .quoted [120, 34, 121, 44, 10]], true⟩, ⟨[.plain [49], .plain [50]], false⟩]
    (∀ r ∈ rows, r.fields ≠ [] ∧ ∀ f ∈ r.fields, f.WF ⟨44, 34, 10⟩) ∧
    allFields {} {} (writtenFile {} rows) = [[[97], [120, 34, 34, 121, 44, 10]], [[49], [50]]] := by
  refine ⟨?_, by decide +kernel⟩
  intro r hr
  simp only [List.mem_cons, List.not_mem_nil, or_false] at hr
  rcases hr with rfl | rfl | rfl <;> simp [WField.WF]

/-- A quote byte in a comment line is taken for an opening quote: with the apostrophe dialect, the comment `# don't` swallows the rows after it. -/
theorem C47_comment_quote_refuted :
    (findRows {} ⟨44, 39, 39, true, 0⟩ [35, 32, 100, 111, 110, 39, 116, 10, 97, 44, 98, 10, 49, 44, 50, 10]) = [] ∧
    (findRows {} ⟨44, 39, 39, true, 0⟩ [35, 32, 100, 111, 110, 116, 10, 97, 44, 98, 10, 49, 44, 50, 10]).length = 2 := by
  decide +kernel

/-! ### C48: leading comments -/

/-- Skipping comments steps over exactly the leading lines whose first non-blank byte is a comment character: it counts them, reports the
character of the first, and stops at the start of the first other line; if nothing but blanks follows, it stops at the end. -/
theorem C48_skip (o : DetectOptions) (hz : (0 : UInt8) ∉ o.commentChars) (hne : o.commentChars ≠ []) (buf : List UInt8) :
    let lead := (textLines buf).takeWhile (commentLine o.commentChars)
    (skipCommentLines o buf).1 = (if (buf.drop lead.flatten.length).all (fun c => c == 32 || c == 9) = true then buf.length else lead.flatten.length) ∧
    (skipCommentLines o buf).2.1 = ((lead.head?.bind firstInk).getD 0) ∧
    (skipCommentLines o buf).2.2 = lead.length := by
  intro lead
  unfold skipCommentLines
  by_cases hb : buf = []
  · subst hb
    have : lead = [] := by simp [lead, textLines]
    rw [this]; simp
  · rw [if_neg (by simp [hb, hne]), skipCommentsLoop_spec o.commentChars hz]
    refine ⟨?_, ?_, ?_⟩
    · simp only [Nat.zero_add]; rfl
    · simp only [if_pos]; rfl
    · simp only [Nat.zero_add]; rfl

/-- Without comment characters nothing is skipped. -/
theorem C48_none (o : DetectOptions) (h : o.commentChars = []) (buf : List UInt8) : skipCommentLines o buf = (0, 0, 0) := by
  unfold skipCommentLines; rw [if_pos (by simp [h])]

theorem textLines_flatten (t : List UInt8) : (textLines t).flatten = t := by
  fun_induction textLines t with
  | case1 => rfl
  | case2 rest ih => simp [ih]
  | case3 c rest h1 h2 ih => simp [ih]
  | case4 c rest h1 h2 he ih => rw [he] at ih; simp at ih; simp [ih]
  | case5 c rest h1 h2 l ls he ih => rw [he] at ih; simp at ih ⊢; exact ih

/-- The data that detection looks at are the remaining lines, unless they are all blank. -/
theorem C48_rest (o : DetectOptions) (hz : (0 : UInt8) ∉ o.commentChars) (hne : o.commentChars ≠ []) (buf : List UInt8)
    (hb : ∃ c ∈ ((textLines buf).dropWhile (commentLine o.commentChars)).flatten, c ≠ 32 ∧ c ≠ 9) :
    buf.drop (skipCommentLines o buf).1 = ((textLines buf).dropWhile (commentLine o.commentChars)).flatten := by
  have h := (C48_skip o hz hne buf).1
  have hd : ∀ n, n = ((textLines buf).takeWhile (commentLine o.commentChars)).flatten.length →
      buf.drop n = ((textLines buf).dropWhile (commentLine o.commentChars)).flatten := by
    intro n hn
    have h1 : buf = ((textLines buf).takeWhile (commentLine o.commentChars)).flatten ++ ((textLines buf).dropWhile (commentLine o.commentChars)).flatten := by
      rw [← List.flatten_append, List.takeWhile_append_dropWhile, textLines_flatten]
    generalize ((textLines buf).takeWhile (commentLine o.commentChars)).flatten = X at *
    generalize ((textLines buf).dropWhile (commentLine o.commentChars)).flatten = Y at *
    rw [h1, hn]; exact List.drop_left' rfl
  rw [h, if_neg]
  · exact hd _ rfl
  · rw [hd _ rfl]
    obtain ⟨c, hc, h1, h2⟩ := hb
    intro ha
    rw [List.all_eq_true] at ha
    have := ha c hc
    simp [h1, h2] at this

/-- The default comment character meets the hypotheses; a file of two comments and a row. -/
example : (0 : UInt8) ∉ (({} : DetectOptions)).commentChars ∧ skipCommentLines {} [35, 120, 13, 10, 32, 35, 10, 97, 44, 98, 10] = (7, 35, 2) := by
  decide +kernel

/-- A file of one line of blanks is reported as holding only comments, although none was found. -/
theorem C48_blank_refuted : skipCommentLines {} [32, 32] = (2, 0, 0) ∧ (textLines [32, 32]).takeWhile (commentLine [35]) = [] := by
  decide +kernel

/-! ### C49: line endings -/

/-- The reported style says exactly which terminators occur in the text, quoted or not. -/
theorem C49_kinds_partial (t : List UInt8) :
    (detectLineEnding t = .CRLF ↔ HasCRLF t ∧ ¬ HasLF t ∧ ¬ HasCR t) ∧
    (detectLineEnding t = .LF ↔ ¬ HasCRLF t ∧ HasLF t ∧ ¬ HasCR t) ∧
    (detectLineEnding t = .CR ↔ ¬ HasCRLF t ∧ ¬ HasLF t ∧ HasCR t) ∧
    (detectLineEnding t = .UNKNOWN ↔ ¬ HasCRLF t ∧ ¬ HasLF t ∧ ¬ HasCR t) ∧
    (detectLineEnding t = .MIXED ↔ (HasCRLF t ∧ HasLF t) ∨ (HasCRLF t ∧ HasCR t) ∨ (HasLF t ∧ HasCR t)) := by
  obtain ⟨h1, h2, h3⟩ := lineEndingLoop_spec t (false, false, false)
  simp only [Bool.false_eq_true, false_or] at h1 h2 h3
  rw [← h1, ← h2, ← h3]
  unfold detectLineEnding
  generalize lineEndingLoop t (false, false, false) = r
  obtain ⟨a, b, c⟩ := r
  cases a <;> cases b <;> cases c <;> simp

/-- Lines free of terminators, written with one terminator, are reported with that terminator. -/
theorem C49_uniform (ls : List (List UInt8)) (hne : ls ≠ []) (hl : ∀ l ∈ ls, (10 : UInt8) ∉ l ∧ (13 : UInt8) ∉ l) :
    detectLineEnding (ls.flatMap (· ++ [10])) = .LF ∧ detectLineEnding (ls.flatMap (· ++ [13, 10])) = .CRLF ∧
      detectLineEnding (ls.flatMap (· ++ [13])) = .CR := by
  have pre : ∀ (l r : List UInt8), (10 : UInt8) ∉ l ∧ (13 : UInt8) ∉ l →
      (HasCRLF (l ++ r) ↔ HasCRLF r) ∧ (HasLF (l ++ r) ↔ HasLF r) ∧ (HasCR (l ++ r) ↔ HasCR r) := by
    intro l r
    induction l with
    | nil => intro _; simp
    | cons c l ih =>
      intro h
      simp only [List.mem_cons, not_or] at h
      obtain ⟨i1, i2, i3⟩ := ih ⟨h.1.2, h.2.2⟩
      have hc13 : c ≠ 13 := fun h' => h.2.1 h'.symm
      have hc10 : c ≠ 10 := fun h' => h.1.1 h'.symm
      rw [List.cons_append, hasCRLF_cons, hasLF_cons _ _ (fun h' => absurd h' hc13), hasCR_cons, i1, i2, i3]
      simp [hc13, hc10]
  have head : ∀ (x : List UInt8) (ls : List (List UInt8)), (∀ l ∈ ls, (10 : UInt8) ∉ l) → x.head? ≠ some 10 → x ≠ [] →
      (ls.flatMap (· ++ x)).head? ≠ some 10 := by
    intro x ls h hx hx0
    cases ls with
    | nil => simp
    | cons l ls =>
      rw [List.flatMap_cons]
      cases l with
      | nil =>
        cases x with
        | nil => exact absurd rfl hx0
        | cons c x => simpa using hx
      | cons c l =>
        simp only [List.cons_append, List.head?_cons, ne_eq, Option.some.injEq]
        intro hc; exact h (c :: l) (by simp) (by simp [hc])
  have nLF : ∀ ls : List (List UInt8), (∀ l ∈ ls, (10 : UInt8) ∉ l ∧ (13 : UInt8) ∉ l) →
      (¬ HasCRLF (ls.flatMap (· ++ [10]))) ∧ (¬ HasCR (ls.flatMap (· ++ [10]))) ∧ (ls ≠ [] → HasLF (ls.flatMap (· ++ [10]))) := by
    intro ls
    induction ls with
    | nil => intro _; exact ⟨not_hasCRLF_nil, not_hasCR_nil, fun h => absurd rfl h⟩
    | cons l ls ih =>
      intro hl
      obtain ⟨i1, i2, i3⟩ := ih (fun x hx => hl x (List.mem_cons_of_mem _ hx))
      rw [List.flatMap_cons, List.append_assoc]
      obtain ⟨p1, p2, p3⟩ := pre l ([10] ++ ls.flatMap (· ++ [10])) (hl l (by simp))
      rw [p1, p2, p3, List.singleton_append, hasCRLF_cons, hasCR_cons, hasLF_cons _ _ (by simp)]
      simp [i1, i2]
  have nCRLF : ∀ ls : List (List UInt8), (∀ l ∈ ls, (10 : UInt8) ∉ l ∧ (13 : UInt8) ∉ l) →
      (¬ HasLF (ls.flatMap (· ++ [13, 10]))) ∧ (¬ HasCR (ls.flatMap (· ++ [13, 10]))) ∧ (ls ≠ [] → HasCRLF (ls.flatMap (· ++ [13, 10]))) := by
    intro ls
    induction ls with
    | nil => intro _; exact ⟨not_hasLF_nil, not_hasCR_nil, fun h => absurd rfl h⟩
    | cons l ls ih =>
      intro hl
      obtain ⟨i1, i2, i3⟩ := ih (fun x hx => hl x (List.mem_cons_of_mem _ hx))
      rw [List.flatMap_cons, List.append_assoc]
      obtain ⟨p1, p2, p3⟩ := pre l ([13, 10] ++ ls.flatMap (· ++ [13, 10])) (hl l (by simp))
      rw [p1, p2, p3, List.cons_append, List.singleton_append, hasLF_crlf, hasCR_cons, hasCR_cons, hasCRLF_cons]
      simp [i1, i2]
  have nCR : ∀ ls : List (List UInt8), (∀ l ∈ ls, (10 : UInt8) ∉ l ∧ (13 : UInt8) ∉ l) →
      (¬ HasLF (ls.flatMap (· ++ [13]))) ∧ (¬ HasCRLF (ls.flatMap (· ++ [13]))) ∧ (ls ≠ [] → HasCR (ls.flatMap (· ++ [13]))) := by
    intro ls
    induction ls with
    | nil => intro _; exact ⟨not_hasLF_nil, not_hasCRLF_nil, fun h => absurd rfl h⟩
    | cons l ls ih =>
      intro hl
      have hls := fun x hx => hl x (List.mem_cons_of_mem _ hx)
      obtain ⟨i1, i2, i3⟩ := ih hls
      have hh := head [13] ls (fun x hx => (hls x hx).1) (by simp) (by simp)
      rw [List.flatMap_cons, List.append_assoc]
      obtain ⟨p1, p2, p3⟩ := pre l ([13] ++ ls.flatMap (· ++ [13])) (hl l (by simp))
      rw [p1, p2, p3, List.singleton_append, hasLF_cons _ _ (fun _ => hh), hasCR_cons, hasCRLF_cons]
      refine ⟨?_, ?_, ?_⟩
      · simp [i1]
      · simp only [true_and, not_or]; exact ⟨hh, i2⟩
      · intro _; left; exact ⟨rfl, hh⟩
  refine ⟨?_, ?_, ?_⟩
  · obtain ⟨a, b, c⟩ := nLF ls hl
    exact ((C49_kinds_partial _).2.1).2 ⟨a, c hne, b⟩
  · obtain ⟨a, b, c⟩ := nCRLF ls hl
    exact ((C49_kinds_partial _).1).2 ⟨c hne, a, b⟩
  · obtain ⟨a, b, c⟩ := nCR ls hl
    exact ((C49_kinds_partial _).2.2.1).2 ⟨b, a, c hne⟩

/-- The claim about terminators outside quotes fails: one quoted LF makes a CRLF file `MIXED`. -/
theorem C49_quoted_refuted : detectLineEnding [97, 13, 10, 34, 120, 10, 34, 13, 10] = .MIXED ∧
    ¬ (∃ i, i ∈ lineEnds ⟨some 34, none⟩ [97, 13, 10, 34, 120, 10, 34, 13, 10] ∧ [97, 13, 10, 34, 120, 10, 34, 13, (10 : UInt8)][i - 1]? ≠ some 13) := by
  refine ⟨by decide +kernel, ?_⟩
  rw [show lineEnds ⟨some 34, none⟩ [97, 13, 10, 34, 120, 10, 34, 13, 10] = [2, 8] by decide +kernel]
  simp

end Vroom
