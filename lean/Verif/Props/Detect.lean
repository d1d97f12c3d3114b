import Verif.Spec.Detect
import Verif.Props.CellType
import Verif.Props.Dialect
import Mathlib.Tactic.Ring
import Mathlib.Tactic.Linarith
import Mathlib.Data.Rat.Defs
import Mathlib.Algebra.Order.Field.Rat
import Mathlib.Algebra.Order.Field.Basic
import Mathlib.Tactic.Positivity
/-
C77, C78: detection of the dialect and of a header.
-/
namespace Vroom
open Spec

/-! ### The scores -/

theorem typedCells_eq (cells : List (List UInt8)) : typedCells cells = cells.countP looksTyped := by
  unfold typedCells
  dsimp only
  have h : ∀ cells : List (List UInt8), (cells.filter couldBeInteger).length + (cells.filter (fun f => !couldBeInteger f && couldBeFloat f)).length +
      (cells.filter (fun f => !(couldBeInteger f || couldBeFloat f) && inferCellType f != .STRING)).length = cells.countP looksTyped := by
    intro cells
    induction cells with
    | nil => rfl
    | cons f fs ih =>
      simp only [List.filter_cons, List.countP_cons]
      have hl : looksTyped f = (couldBeInteger f || couldBeFloat f || inferCellType f != .STRING) := rfl
      rw [hl]
      cases h1 : couldBeInteger f <;> cases h2 : couldBeFloat f <;> cases h3 : (inferCellType f != .STRING) <;>
        simp only [Bool.or_false, Bool.or_true, Bool.and_true, Bool.and_false, Bool.not_true, Bool.not_false, if_true, if_false, Bool.false_eq_true, List.length_cons] <;> omega
  rw [← h]
  have h2 : ∀ cells : List (List UInt8), (cells.filter couldBeInteger).length + (cells.filter (fun f => !couldBeInteger f && couldBeFloat f)).length +
      (cells.filter (fun f => !(couldBeInteger f || couldBeFloat f) && inferCellType f != .STRING)).length ≤ cells.length := by
    intro cells; rw [h]; exact List.countP_le_length
  have := h2 cells
  split <;> omega

theorem typeScore_range (rows : List (List (List UInt8))) : 0 ≤ typeScore rows ∧ typeScore rows ≤ 1 := by
  unfold typeScore
  dsimp only
  by_cases h : rows.flatten.length = 0
  · rw [if_pos h]; constructor <;> norm_num
  · rw [if_neg h, typedCells_eq]
    have h1 : (rows.flatten.countP looksTyped : Rat) ≤ rows.flatten.length := by exact_mod_cast List.countP_le_length
    have h2 : (0 : Rat) < rows.flatten.length := by exact_mod_cast (by omega)
    have h3 : (rows.flatten.countP looksTyped : Rat) / rows.flatten.length ≤ 1 := by rw [div_le_one h2]; exact h1
    constructor
    · exact le_trans (by norm_num) (le_max_left _ _)
    · exact max_le (by norm_num) h3

theorem foldl_max_le (l : List Nat) (b m : Nat) (hm : m ≤ b) (h : ∀ x ∈ l, x ≤ b) : l.foldl max m ≤ b := by
  induction l generalizing m with
  | nil => exact hm
  | cons a l ih => exact ih _ (max_le hm (h a (by simp))) (fun x hx => h x (by simp [hx]))

theorem le_foldl_max_det (l : List Nat) (m x : Nat) (h : x = m ∨ x ∈ l) : x ≤ l.foldl max m := by
  induction l generalizing m x with
  | nil => rcases h with rfl | h
           · exact le_refl _
           · simp at h
  | cons a l ih =>
    rw [List.foldl_cons]
    rcases h with rfl | h
    · exact le_trans (le_max_left _ a) (ih (max x a) (max x a) (.inl rfl))
    · rcases List.mem_cons.1 h with rfl | h
      · exact le_trans (le_max_right m _) (ih (max m x) (max m x) (.inl rfl))
      · exact ih _ _ (.inr h)

theorem modalFreq_le (counts : List Nat) : modalFreq counts ≤ counts.length := by
  apply foldl_max_le
  · omega
  · intro x hx
    rw [List.mem_map] at hx
    obtain ⟨c, _, rfl⟩ := hx
    exact List.count_le_length

theorem patternScore_range (counts : List Nat) : 0 ≤ patternScore counts ∧ patternScore counts ≤ 1 := by
  unfold patternScore
  constructor
  · exact div_nonneg (by exact_mod_cast Nat.zero_le _) (by exact_mod_cast Nat.zero_le _)
  · by_cases h : counts.length = 0
    · rw [h]; simp
    · have h2 : (0 : Rat) < counts.length := by exact_mod_cast (by omega)
      rw [div_le_one h2]
      exact_mod_cast modalFreq_le counts

/-- The pattern score is the share of the rows with the most frequent field count. -/
theorem patternScore_modal (modal : List Nat → Nat) (hm : ModalOk modal) (counts : List Nat) (hne : counts ≠ []) :
    patternScore counts = (counts.count (modal counts) : Rat) / counts.length := by
  unfold patternScore
  congr 2
  apply le_antisymm
  · apply foldl_max_le
    · omega
    · intro x hx
      rw [List.mem_map] at hx
      obtain ⟨c, _, rfl⟩ := hx
      exact hm.most counts c
  · apply le_foldl_max_det
    right
    rw [List.mem_map]
    exact ⟨_, hm.member counts hne, rfl⟩

theorem combine_range (sq : Rat → Rat) (hs : SqrtOk sq) (p t : Rat) (n : Nat) (hp : 0 ≤ p ∧ p ≤ 1) (ht : 0 ≤ t ∧ t ≤ 1) :
    0 ≤ combineScore sq p n t ∧ combineScore sq p n t ≤ 1 := by
  have h1 : (0 : Rat) ≤ max (1 / 10) t := le_trans ht.1 (le_max_right _ _)
  have h2 : max (1 / 10) t ≤ 1 := max_le (by norm_num) ht.2
  have h3 := hs _ h1 h2
  have key : ∀ x : Rat, 0 ≤ x → x ≤ 1 → 0 ≤ p * x ∧ p * x ≤ 1 := by
    intro x hx hx1
    exact ⟨mul_nonneg hp.1 hx, by nlinarith⟩
  unfold combineScore
  split
  · exact key _ (le_trans (by norm_num) (le_max_left _ _)) (max_le (by norm_num) h3.2)
  · split
    · exact key _ h3.1 h3.2
    · exact key _ ht.1 ht.2

theorem score_range (sq : Rat → Rat) (hs : SqrtOk sq) (modal : List Nat → Nat) (o : DetectOptions) (d : Dialect) (s : List UInt8) :
    0 ≤ (scoreDialect (detectFns sq modal) o d s).score ∧ (scoreDialect (detectFns sq modal) o d s).score ≤ 6 / 5 := by
  unfold scoreDialect
  dsimp only
  by_cases hc : (allFields o d s).length < o.minRows ∨ (allFields o d s).map List.length = []
  · rw [if_pos hc]; constructor <;> norm_num
  · rw [if_neg hc]
    dsimp only
    generalize hx : (detectFns sq modal).combine _ _ _ = x
    have hr : 0 ≤ x ∧ x ≤ 1 := by
      rw [← hx]
      exact combine_range sq hs _ _ _ (patternScore_range _) (typeScore_range _)
    have k0 : 0 ≤ x ∧ x ≤ 6 / 5 := ⟨hr.1, by linarith [hr.2]⟩
    have k1 : 0 ≤ x * (12 / 10) ∧ x * (12 / 10) ≤ 6 / 5 := ⟨by linarith [hr.1], by linarith [hr.2]⟩
    have k2 : 0 ≤ x * (11 / 10) ∧ x * (11 / 10) ≤ 6 / 5 := ⟨by linarith [hr.1], by linarith [hr.2]⟩
    repeat' split
    all_goals assumption

theorem score_dialect (A : ScoreFns) (o : DetectOptions) (d : Dialect) (s : List UInt8) : (scoreDialect A o d s).dialect = d := by
  unfold scoreDialect
  dsimp only
  split <;> rfl

/-! ### Detection -/

theorem findRowsLoop_comment (o : DetectOptions) (d : Dialect) (cc : UInt8) (buf : List UInt8) (rest : List UInt8) (i : Nat) (prev : UInt8) (inQ : Bool) (rs : Nat)
    (rows : List (Nat × Nat)) : findRowsLoop o { d with comment := cc } buf rest i prev inQ rs rows = findRowsLoop o d buf rest i prev inQ rs rows := by
  have hq : ∀ c, Dialect.quotes { d with comment := cc } c = d.quotes c := fun _ => rfl
  have he : ∀ c, Dialect.escapes { d with comment := cc } c = d.escapes c := fun _ => rfl
  fun_induction findRowsLoop o d buf rest i prev inQ rs rows <;> (rw [findRowsLoop.eq_def] <;> simp_all +zetaDelta)

theorem findRows_comment (o : DetectOptions) (d : Dialect) (cc : UInt8) (buf : List UInt8) : findRows o { d with comment := cc } buf = findRows o d buf := by
  unfold findRows
  rw [findRowsLoop_comment]

theorem extractLoop_comment (d : Dialect) (cc : UInt8) (row : List UInt8) (inQ : Bool) (cur : List UInt8) :
    extractLoop { d with comment := cc } row inQ cur = extractLoop d row inQ cur := by
  have hq : ∀ c, Dialect.quotes { d with comment := cc } c = d.quotes c := fun _ => rfl
  have he : ∀ c, Dialect.escapes { d with comment := cc } c = d.escapes c := fun _ => rfl
  fun_induction extractLoop d row inQ cur <;> (rw [extractLoop.eq_def] <;> simp_all)

/-- The comment character plays no part in cutting rows and fields. -/
theorem allFields_comment (o : DetectOptions) (d : Dialect) (cc : UInt8) (buf : List UInt8) : allFields o { d with comment := cc } buf = allFields o d buf := by
  unfold allFields
  rw [findRows_comment]
  apply List.map_congr_left
  intro r _
  unfold extractFields
  rw [extractLoop_comment]
  rfl

/-- What a result with positive confidence is made of. -/
theorem detect_cases (A : ScoreFns) (sort : List DialectCandidate → List DialectCandidate) (o : DetectOptions) (buf : List UInt8) :
    (detect A sort o buf).confidence = 0 ∧ (detect A sort o buf).dialect = {} ∧ (detect A sort o buf).hasHeader = false ∧
      (detect A sort o buf).columns = 0 ∧ (detect A sort o buf).rows = 0 ∨
    ∃ best others, sort (scoredCandidates A o (sampleOf o buf)) = best :: others ∧ 0 < best.score ∧
      (detect A sort o buf).confidence = best.score ∧ (detect A sort o buf).columns = best.columns ∧
      (detect A sort o buf).dialect = { best.dialect with comment := (skipCommentLines o buf).2.1 } ∧
      (detect A sort o buf).hasHeader = detectHeader o best.dialect (sampleOf o buf) ∧
      (detect A sort o buf).rows = (findRows o best.dialect (sampleOf o buf)).length := by
  unfold detect
  by_cases h1 : buf.isEmpty = true
  · rw [if_pos h1]; left; simp
  rw [if_neg h1]
  dsimp only
  by_cases h2 : (buf.drop (skipCommentLines o buf).1).isEmpty = true
  · rw [if_pos h2]; left; simp
  rw [if_neg h2]
  rw [show (buf.drop (skipCommentLines o buf).1).take (sampleLen o (buf.drop (skipCommentLines o buf).1)) = sampleOf o buf from rfl]
  generalize sampleOf o buf = s
  cases hc : sort (scoredCandidates A o s) with
  | nil => left; simp
  | cons best others =>
    dsimp only
    by_cases h3 : best.score > 0
    · rw [if_pos h3]
      right
      refine ⟨best, others, rfl, h3, rfl, rfl, rfl, ?_, ?_⟩
      · exact congrArg headerOf (allFields_comment _ _ _ _)
      · exact congrArg List.length (findRows_comment _ _ _ _)
    · rw [if_neg h3]; left; simp

theorem sort_mem {sort : List DialectCandidate → List DialectCandidate} (hs : ∀ l, (sort l).Perm l) {A : ScoreFns} {o : DetectOptions} {s : List UInt8}
    {best : DialectCandidate} {others : List DialectCandidate} (h : sort (scoredCandidates A o s) = best :: others) :
    ∃ d ∈ generateCandidates o, best = scoreDialect A o d s := by
  have : best ∈ scoredCandidates A o s := (hs _).mem_iff.1 (by rw [h]; simp)
  unfold scoredCandidates at this
  rw [List.mem_map] at this
  obtain ⟨d, hd, rfl⟩ := this
  exact ⟨d, hd, rfl⟩

/-- **C77** Whatever the input, detection reports either nothing (the default dialect, confidence zero, no columns, no rows, no header) or one of the
candidate dialects, together with the comment character found; then at least `min_rows` rows were read with that dialect. -/
theorem C77_candidate (A : ScoreFns) (sort : List DialectCandidate → List DialectCandidate) (hs : ∀ l, (sort l).Perm l) (o : DetectOptions) (buf : List UInt8) :
    let r := detect A sort o buf
    (r.confidence = 0 ∧ r.dialect = {} ∧ r.hasHeader = false ∧ r.columns = 0 ∧ r.rows = 0) ∨
    (0 < r.confidence ∧ ∃ d ∈ generateCandidates o, r.dialect = { d with comment := (skipCommentLines o buf).2.1 } ∧
      r.rows = (findRows o d (sampleOf o buf)).length ∧ o.minRows ≤ r.rows ∧ 1 ≤ r.rows) := by
  intro r
  rcases detect_cases A sort o buf with h | ⟨best, others, hsort, hpos, h1, h2, h3, h4, h5⟩
  · exact .inl h
  · obtain ⟨d, hd, rfl⟩ := sort_mem hs hsort
    right
    rw [score_dialect] at h3 h5
    refine ⟨h1 ▸ hpos, d, hd, h3, h5, ?_⟩
    have hl : (allFields o d (sampleOf o buf)).length = (findRows o d (sampleOf o buf)).length := by simp [allFields]
    rw [h5, ← hl]
    unfold scoreDialect at hpos
    dsimp only at hpos
    by_cases hc : (allFields o d (sampleOf o buf)).length < o.minRows ∨ (allFields o d (sampleOf o buf)).map List.length = []
    · rw [if_pos hc] at hpos; exact absurd hpos (lt_irrefl _)
    · simp only [not_or, not_lt] at hc
      refine ⟨hc.1, ?_⟩
      have : allFields o d (sampleOf o buf) ≠ [] := by intro h; apply hc.2; rw [h]; rfl
      exact List.length_pos_iff.2 this

/-- **C77** The confidence lies between 0 and 1.2. -/
theorem C77_confidence (sq : Rat → Rat) (hq : SqrtOk sq) (modal : List Nat → Nat) (sort : List DialectCandidate → List DialectCandidate)
    (hs : ∀ l, (sort l).Perm l) (o : DetectOptions) (buf : List UInt8) :
    0 ≤ (detect (detectFns sq modal) sort o buf).confidence ∧ (detect (detectFns sq modal) sort o buf).confidence ≤ 6 / 5 := by
  rcases detect_cases (detectFns sq modal) sort o buf with h | ⟨best, others, hsort, hpos, h1, h2, h3, h4, h5⟩
  · rw [h.1]; constructor <;> norm_num
  · obtain ⟨d, hd, rfl⟩ := sort_mem hs hsort
    rw [h1]
    exact score_range sq hq modal o d _

/-- **C77** With at most `sample_size` bytes, detecting from a file and from memory agree. -/
theorem C77_file (A : ScoreFns) (sort : List DialectCandidate → List DialectCandidate) (o : DetectOptions) (content : List UInt8)
    (h : content.length ≤ o.sampleSize) : detectFile A sort o content = detect A sort o content := by
  unfold detectFile; rw [List.take_of_length_le h]

/-! ### Clean tables -/

theorem terminated_text (d : UInt8) (T : PlainTable) : T.text d = terminated (T.map (fun r => (rowText d r.1, r.2))) := by
  unfold PlainTable.text
  induction T with
  | nil => rfl
  | cons r T ih => rw [List.flatMap_cons, ih]; rfl

theorem join_mem {d c : UInt8} : ∀ {fs : List (List UInt8)}, c ∈ joinFields d fs → c = d ∨ ∃ f ∈ fs, c ∈ f
  | [], h => by simp [joinFields] at h
  | [f], h => by simp [joinFields] at h; exact .inr ⟨f, by simp, h⟩
  | f :: g :: fs, h => by
    simp only [joinFields, List.mem_append, List.mem_cons] at h
    rcases h with h | h | h
    · exact .inr ⟨f, by simp, h⟩
    · exact .inl h
    · rcases join_mem h with h | ⟨k, hk, h⟩
      · exact .inl h
      · exact .inr ⟨k, List.mem_cons_of_mem _ hk, h⟩

theorem text_mem {d c : UInt8} {T : PlainTable} (h : c ∈ T.text d) : c = 10 ∨ c = 13 ∨ c = d ∨ ∃ r ∈ T, ∃ f ∈ r.1, c ∈ f := by
  unfold PlainTable.text at h
  rw [List.mem_flatMap] at h
  obtain ⟨r, hr, h⟩ := h
  rw [List.mem_append] at h
  rcases h with h | h
  · rcases join_mem h with h | ⟨f, hf, h⟩
    · exact .inr (.inr (.inl h))
    · exact .inr (.inr (.inr ⟨r, hr, f, hf, h⟩))
  · split at h <;> simp at h
    · rcases h with h | h
      · exact .inr (.inl h)
      · exact .inl h
    · exact .inl h

theorem whole_free (stop : UInt8 → Bool) (s : List UInt8) (h : ∀ c ∈ s, stop c = false) : Whole ⟨none, none⟩ stop s := by
  refine ⟨settled_noesc _ rfl s, ?_, ?_⟩
  · have : ∀ s : List UInt8, liveQuotes ⟨none, none⟩ s = 0 := by
      intro s
      induction s with
      | nil => rfl
      | cons a s ih =>
        cases s with
        | nil => simp [liveQuotes]
        | cons b s => simp [liveQuotes] at ih ⊢; exact ih
    rw [this]
  · intro k c hk hc
    have := h c (List.mem_of_getElem? hk)
    rw [this] at hc; simp at hc

/-- The rows of a written table as cut by a dialect whose quote and escape characters do not occur in it. -/
theorem rows_of_text (o : DetectOptions) (hm : 1 ≤ o.maxRows) (dd : Dialect) (hd : dd.Sane) (d : UInt8) (T : PlainTable)
    (hd10 : d ≠ 10 ∧ d ≠ 13) (hT : ∀ r ∈ T, 2 ≤ r.1.length ∧ ∀ f ∈ r.1, ∀ c ∈ f, c ≠ 10 ∧ c ≠ 13)
    (hc : ∀ r ∈ T, commentLine o.commentChars (rowText d r.1) = false)
    (hq : ∀ c ∈ T.text d, dd.quoting.quote ≠ some c) (he : ∀ c ∈ T.text d, dd.quoting.esc ≠ some c) :
    allFields o dd (T.text d) = (T.take o.maxRows).map (fun r =>
      pieces (rowText d r.1) 0 (fieldCuts ⟨none, none⟩ dd.delimiter (rowText d r.1))) := by
  rw [allFields_free o hm dd hd _ hq he]
  have hne : ∀ r ∈ T, rowText d r.1 ≠ [] := by
    intro r hr
    have := (hT r hr).1
    unfold rowText
    match h : r.1, this with
    | f :: g :: fs, _ => simp [joinFields]
  have hw : ∀ l ∈ T.map (fun r => (rowText d r.1, r.2)), Whole ⟨none, none⟩ isBreak l.1 := by
    intro l hl
    rw [List.mem_map] at hl
    obtain ⟨r, hr, rfl⟩ := hl
    apply whole_free
    intro c hcm
    rcases join_mem hcm with rfl | ⟨f, hf, h⟩
    · simp [isBreak, hd10]
    · have := (hT r hr).2 f hf c h
      simp [isBreak, this]
  have ht := ranges_text ⟨none, none⟩ o.commentChars o.maxRows (by simp) (by simp) rfl _ hw
  rw [← terminated_text] at ht
  have hmap : (sampleRows ⟨none, none⟩ o.commentChars o.maxRows (T.text d)).map (fun r =>
      if sliceOf (T.text d) r = [] then [] else pieces (sliceOf (T.text d) r) 0 (fieldCuts ⟨none, none⟩ dd.delimiter (sliceOf (T.text d) r))) =
      ((sampleRows ⟨none, none⟩ o.commentChars o.maxRows (T.text d)).map (sliceOf (T.text d))).map (fun l =>
        if l = [] then [] else pieces l 0 (fieldCuts ⟨none, none⟩ dd.delimiter l)) := by
    rw [List.map_map]; rfl
  rw [hmap, ht]
  have hf : (((T.map (fun r => (rowText d r.1, r.2))).map Prod.fst).filter (fun l => decide (l ≠ []) && !commentLine o.commentChars l)) = T.map (fun r => rowText d r.1) := by
    rw [List.map_map, List.filter_eq_self.2]
    · rfl
    · intro l hl
      rw [List.mem_map] at hl
      obtain ⟨r, hr, rfl⟩ := hl
      simp only [Function.comp]
      rw [hc r hr, decide_eq_true (hne r hr)]; rfl
  rw [hf, ← List.map_take, List.map_map]
  apply List.map_congr_left
  intro r hr
  simp only [Function.comp]
  rw [if_neg (hne r (List.mem_of_mem_take hr))]

theorem count_const (l : List Nat) (n : Nat) (h : ∀ c ∈ l, c = n) : l.count n = l.length := by
  rw [List.count_eq_length]
  intro b hb; exact (h b hb).symm

theorem pattern_const (l : List Nat) (n : Nat) (hne : l ≠ []) (h : ∀ c ∈ l, c = n) : patternScore l = 1 := by
  unfold patternScore
  have : modalFreq l = l.length := by
    apply le_antisymm (modalFreq_le l)
    cases l with
    | nil => exact absurd rfl hne
    | cons a l =>
      apply le_foldl_max_det
      right
      rw [List.mem_map]
      have ha : a = n := h a (by simp)
      exact ⟨n, by simp [ha], count_const (a :: l) n h⟩
  rw [this]
  have h2 : (0 : Rat) < l.length := by exact_mod_cast List.length_pos_iff.2 hne
  exact div_self (ne_of_gt h2)

/-- The score of a candidate whose quote does not occur in the sample. -/
theorem score_free (A : ScoreFns) (o : DetectOptions) (dd : Dialect) (s : List UInt8) (hq : dd.quote = 0 ∨ dd.quote ∉ s) (F : List (List (List UInt8)))
    (hF : allFields o dd s = F) (hrows : o.minRows ≤ F.length) (hne : F ≠ []) :
    scoreDialect A o dd s = ⟨dd, A.combine (A.pattern (F.map List.length)) (A.modal (F.map List.length)) (A.types (dataRows F)),
      A.modal (F.map List.length)⟩ := by
  unfold scoreDialect
  dsimp only
  rw [hF, if_neg (by simp only [not_or, not_lt]; exact ⟨hrows, by simpa using hne⟩)]
  congr 1
  by_cases h0 : dd.quote = 0
  · rw [if_neg (not_not.2 h0)]; rfl
  · have hq' : dd.quote ∉ s := hq.resolve_left h0
    have hsig : ∀ e, escapeSignal dd.quote e s = 0 := by
      intro e; unfold escapeSignal; rw [escapePairs_free _ _ _ hq']; rfl
    simp only [hsig]
    rw [if_pos h0]
    simp only [lt_irrefl, gt_iff_lt, false_and, if_false, ite_self]
    rfl

/-- The fields of the candidate with the right delimiter, and of one with another. -/
theorem pieces_own (d : UInt8) (fs : List (List UInt8)) (hne : fs ≠ []) (h : ∀ f ∈ fs, d ∉ f) :
    pieces (joinFields d fs) 0 (fieldCuts ⟨none, none⟩ d (joinFields d fs)) = fs := by
  apply pieces_join _ _ (by simp) (by simp) _ hne
  intro f hf
  apply whole_free
  intro c hc
  rw [beq_eq_false_iff_ne]
  rintro rfl; exact h f hf hc

theorem pieces_other (d' : UInt8) (l : List UInt8) (h : d' ∉ l) : pieces l 0 (fieldCuts ⟨none, none⟩ d' l) = [l] := by
  have := pieces_own d' [l] (by simp) (by simpa using h)
  simpa [joinFields] using this

/-- Facts about generated candidates. -/
theorem candidate_facts {o : DetectOptions} (ho : OptionsOk o) {dd : Dialect} (h : dd ∈ generateCandidates o) :
    dd.delimiter ∈ o.delimiters ∧ dd.comment = 0 ∧ (dd.quote = 0 ∨ dd.quote ∈ o.quoteChars) ∧
      (dd.doubleQuote = false → dd.escape = 0 ∨ dd.escape ∈ o.escapeChars ∧ dd.escape ≠ dd.quote) ∧ (dd.doubleQuote = true → dd.escape = dd.quote) := by
  unfold generateCandidates at h
  simp only [List.mem_flatMap, List.mem_append, List.mem_cons, List.not_mem_nil, or_false, List.mem_map, List.mem_filter] at h
  obtain ⟨d, hd, ⟨q, hq, rfl | ⟨e, ⟨he, hne⟩, rfl⟩⟩ | rfl⟩ := h
  · exact ⟨hd, rfl, .inr hq, by simp, by simp⟩
  · exact ⟨hd, rfl, .inr hq, fun _ => .inr ⟨he, by simpa using hne⟩, by simp⟩
  · exact ⟨hd, rfl, .inl rfl, by simp, by simp⟩

theorem candidate_sane {o : DetectOptions} (ho : OptionsOk o) {dd : Dialect} (h : dd ∈ generateCandidates o) : dd.Sane := by
  obtain ⟨h1, h2, h3, h4, h5⟩ := candidate_facts ho h
  obtain ⟨k1, k2, k3, k4, k5⟩ := ho.delim_line _ h1
  have hq : dd.quote ≠ dd.delimiter ∧ dd.quote ≠ 10 ∧ dd.quote ≠ 13 := by
    rcases h3 with h3 | h3
    · rw [h3]; exact ⟨fun h => k1 h.symm, by decide, by decide⟩
    · exact ⟨fun h => k4 (h ▸ h3), ho.quote_line _ h3⟩
  refine ⟨hq.1, hq.2.1, hq.2.2, ?_, ?_, ?_, ?_⟩
  · intro hd h0
    exact ((h4 hd).resolve_left h0).2
  · intro hd h0 he
    exact k5 (he ▸ ((h4 hd).resolve_left h0).1)
  · intro hd
    rcases h4 hd with h | h
    · rw [h]; decide
    · exact (ho.esc_line _ h.1).1
  · intro hd
    rcases h4 hd with h | h
    · rw [h]; decide
    · exact (ho.esc_line _ h.1).2

theorem typeScore_single (bodies : List (List UInt8)) (hne : bodies ≠ []) (h : 10 * bodies.countP looksTyped ≤ 6 * bodies.length) :
    typeScore (bodies.map (fun b => [b])) ≤ 6 / 10 := by
  have hfl : (bodies.map (fun b => [b])).flatten = bodies := by
    induction bodies with
    | nil => exact absurd rfl hne
    | cons b bs ih =>
      cases bs with
      | nil => rfl
      | cons c cs =>
        clear ih h hne
        induction (c :: cs) generalizing b with
        | nil => rfl
        | cons x xs ih => rw [List.map_cons, List.flatten_cons, ih x]; rfl
  unfold typeScore
  dsimp only
  rw [hfl, typedCells_eq]
  have hl : bodies.length ≠ 0 := by simpa using hne
  rw [if_neg hl]
  have h2 : (0 : Rat) < bodies.length := by exact_mod_cast (by omega)
  apply max_le (by norm_num)
  rw [div_le_iff₀ h2]
  have : (10 : Rat) * (bodies.countP looksTyped : Nat) ≤ 6 * bodies.length := by exact_mod_cast h
  linarith

theorem dataRows_map {α β : Type} (f : α → β) (l : List α) : dataRows (l.map f) = (dataRows l).map f := by
  unfold dataRows
  rw [List.length_map]
  split <;> simp

theorem dataRows_ne {α : Type} (l : List α) (h : l ≠ []) : dataRows l ≠ [] := by
  unfold dataRows
  split
  · rename_i hl; intro h2; have := congrArg List.length h2; simp at this; omega
  · exact h

theorem sample_whole (o : DetectOptions) (data : List UInt8) (h1 : data.length ≤ o.sampleSize) (h2 : data.length ≤ 1048576) : data.take (sampleLen o data) = data := by
  apply List.take_of_length_le
  unfold sampleLen
  dsimp only
  split <;> split <;> omega

theorem skip_whole (o : DetectOptions) (ho : OptionsOk o) (buf t : List UInt8)
    (hbuf : ((textLines buf).dropWhile (commentLine o.commentChars)).flatten = t) (ht : (10 : UInt8) ∈ t) : buf.drop (skipCommentLines o buf).1 = t := by
  by_cases hne : o.commentChars = []
  · rw [C48_none o hne]
    have : (textLines buf).dropWhile (commentLine o.commentChars) = textLines buf := by
      have hf : ∀ l, commentLine o.commentChars l = false := by
        intro l; rw [hne]; unfold commentLine; split <;> simp
      cases textLines buf with
      | nil => rfl
      | cons a l => rw [List.dropWhile_cons_of_neg (by simp [hf])]
    rw [this, textLines_flatten] at hbuf
    exact hbuf
  · rw [C48_rest o ho.comments hne buf ⟨10, by rw [hbuf]; exact ht, by decide, by decide⟩, hbuf]

theorem combine_table (sq : Rat → Rat) (n : Nat) (hn : 2 ≤ n) (rows : List (List (List UInt8))) :
    combineScore sq 1 n (typeScore (dataRows rows)) = tableConfidence sq rows := by
  unfold combineScore tableConfidence
  rw [if_pos ⟨by norm_num, by omega⟩, one_mul]
  congr 1
  · norm_num
  congr 1
  unfold typeScore typedShare
  dsimp only
  by_cases h : (dataRows rows).flatten.length = 0
  · rw [if_pos h, h]
    simp
  · rw [if_neg h, typedCells_eq, ← max_assoc]
    congr 1
    norm_num

/-- **C77** A clean table is recognised: if, after leading comment lines, the input is a table of `n ≥ 2` plain fields per row separated by a candidate
delimiter, it fits the sample, has enough rows, and at most six in ten of its data rows look like a single typed value, then its delimiter, quoting by
doubled `"`, its number of columns and its rows are found, with the confidence a regular table earns. -/
theorem C77_clean (sq : Rat → Rat) (hq : SqrtOk sq) (modal : List Nat → Nat) (hm : ModalOk modal) (sort : List DialectCandidate → List DialectCandidate)
    (hs : SortOk sort) (o : DetectOptions) (ho : OptionsOk o) (d : UInt8) (hd : d ∈ o.delimiters) (h34 : (34 : UInt8) ∈ o.quoteChars)
    (T : PlainTable) (hT0 : T ≠ []) (n : Nat) (hn : 2 ≤ n) (hT : T.Plain o n) (hcom : ∀ r ∈ T, commentLine o.commentChars (rowText d r.1) = false)
    (hmin : o.minRows ≤ T.length ∧ o.minRows ≤ o.maxRows)
    (hdata : 10 * (dataRows (T.take o.maxRows)).countP (fun r => looksTyped (rowText d r.1)) ≤ 6 * (dataRows (T.take o.maxRows)).length)
    (buf : List UInt8) (hbuf : ((textLines buf).dropWhile (commentLine o.commentChars)).flatten = T.text d)
    (hsz : (T.text d).length ≤ o.sampleSize ∧ (T.text d).length ≤ 1048576) :
    let r := detect (detectFns sq modal) sort o buf
    r.dialect.delimiter = d ∧ r.dialect.quote = 34 ∧ r.dialect.doubleQuote = true ∧ r.columns = n ∧ r.rows = min T.length o.maxRows ∧
      (3 / 5 ≤ r.confidence ∧ r.confidence = tableConfidence sq ((T.take o.maxRows).map Prod.fst)) ∧ r.success = true ∧ r.hasHeader = headerOf ((T.take o.maxRows).map Prod.fst) := by
  intro r
  obtain ⟨kd0, kd10, kd13, kdq, kde⟩ := ho.delim_line d hd
  have h10 : (10 : UInt8) ∈ T.text d := by
    cases T with
    | nil => exact absurd rfl hT0
    | cons r T => unfold PlainTable.text; rw [List.flatMap_cons]; simp only [List.mem_append]; left; right; split <;> simp
  have hsample : sampleOf o buf = T.text d := by
    unfold sampleOf
    dsimp only
    rw [skip_whole o ho buf _ hbuf h10, sample_whole o _ hsz.1 hsz.2]
  have hmem : ∀ c ∈ T.text d, (c = d ∨ c ∉ o.delimiters) ∧ c ∉ o.quoteChars ∧ c ∉ o.escapeChars := by
    intro c hc
    rcases text_mem hc with rfl | rfl | rfl | ⟨r, hr, f, hf, hcf⟩
    · exact ⟨.inr (fun h => (ho.delim_line _ h).2.1 rfl), fun h => (ho.quote_line _ h).1 rfl, fun h => (ho.esc_line _ h).1 rfl⟩
    · exact ⟨.inr (fun h => (ho.delim_line _ h).2.2.1 rfl), fun h => (ho.quote_line _ h).2 rfl, fun h => (ho.esc_line _ h).2 rfl⟩
    · exact ⟨.inl rfl, kdq, kde⟩
    · have := (hT r hr).2 f hf c hcf
      exact ⟨.inr this.2.2.1, this.2.2.2⟩
  have hT2 : ∀ r ∈ T, 2 ≤ r.1.length ∧ ∀ f ∈ r.1, ∀ c ∈ f, c ≠ 10 ∧ c ≠ 13 := by
    intro r hr
    refine ⟨by rw [(hT r hr).1]; exact hn, ?_⟩
    intro f hf c hc
    exact ⟨((hT r hr).2 f hf c hc).1, ((hT r hr).2 f hf c hc).2.1⟩
  have hfree : ∀ dd ∈ generateCandidates o, (dd.quote = 0 ∨ dd.quote ∉ T.text d) ∧ (∀ c ∈ T.text d, dd.quoting.quote ≠ some c) ∧
      (∀ c ∈ T.text d, dd.quoting.esc ≠ some c) := by
    intro dd hdd
    obtain ⟨h1, h2, h3, h4, h5⟩ := candidate_facts ho hdd
    refine ⟨?_, ?_, ?_⟩
    · rcases h3 with h3 | h3
      · exact .inl h3
      · exact .inr (fun h => (hmem _ h).2.1 h3)
    · intro c hc hqq
      have := (quote_facts (candidate_sane ho hdd) hqq).2.2.2
      subst this
      rcases h3 with h3 | h3
      · simp [Dialect.quoting, h3] at hqq
      · exact (hmem _ hc).2.1 h3
    · intro c hc hee
      simp only [Dialect.quoting] at hee
      by_cases hg : dd.doubleQuote = true ∨ dd.escape = 0
      · rw [if_pos hg] at hee; simp at hee
      · rw [if_neg hg] at hee
        simp only [not_or] at hg
        simp at hee; subst hee
        exact (hmem _ hc).2.2 ((h4 (by simpa using hg.1)).resolve_left hg.2).1
  have hrowsF := fun dd hdd => rows_of_text o ho.rows dd (candidate_sane ho hdd) d T ⟨kd10, kd13⟩ hT2 hcom (hfree dd hdd).2.1 (hfree dd hdd).2.2
  have htake : T.take o.maxRows ≠ [] := by
    intro h
    have := congrArg List.length h
    simp only [List.length_take, List.length_nil] at this
    have h1 := ho.rows
    have h2 : T.length ≠ 0 := by simpa using hT0
    omega
  have hlenT : o.minRows ≤ (T.take o.maxRows).length := by rw [List.length_take]; omega
  -- the right delimiter
  have hown : ∀ dd ∈ generateCandidates o, dd.delimiter = d → allFields o dd (T.text d) = (T.take o.maxRows).map Prod.fst := by
    intro dd hdd hde
    rw [hrowsF dd hdd, hde]
    apply List.map_congr_left
    intro r hr
    have hr := List.mem_of_mem_take hr
    apply pieces_own
    · intro h; have := (hT2 r hr).1; rw [h] at this; simp at this
    · intro f hf hdf; exact ((hT r hr).2 f hf d hdf).2.2.1 hd
  have hsum : ∀ dd ∈ generateCandidates o, dd.delimiter = d → ∃ x, (scoreDialect (detectFns sq modal) o dd (T.text d)) = ⟨dd, x, n⟩ ∧ 6 / 10 ≤ x ∧
      x = combineScore sq 1 n (typeScore (dataRows ((T.take o.maxRows).map Prod.fst))) := by
    intro dd hdd hde
    have hne : (T.take o.maxRows).map Prod.fst ≠ [] := by simpa using htake
    rw [score_free _ o dd _ (hfree dd hdd).1 _ (hown dd hdd hde) (by rw [List.length_map]; exact hlenT) hne]
    have hall : ∀ c ∈ ((T.take o.maxRows).map Prod.fst).map List.length, c = n := by
      intro c hc
      rw [List.map_map, List.mem_map] at hc
      obtain ⟨r, hr, rfl⟩ := hc
      exact (hT r (List.mem_of_mem_take hr)).1
    have hne2 : ((T.take o.maxRows).map Prod.fst).map List.length ≠ [] := by simpa using htake
    have hmod : modal (((T.take o.maxRows).map Prod.fst).map List.length) = n := hall _ (hm.member _ hne2)
    have hpat : patternScore (((T.take o.maxRows).map Prod.fst).map List.length) = 1 := pattern_const _ n hne2 hall
    refine ⟨_, ?_, ?_, rfl⟩
    · show (⟨dd, combineScore sq (patternScore _) (modal _) (typeScore _), modal _⟩ : DialectCandidate) = _
      rw [hmod, hpat]
    · unfold combineScore
      rw [if_pos ⟨by norm_num, by omega⟩, one_mul]
      exact le_max_left _ _
  -- any other delimiter
  have hother : ∀ dd ∈ generateCandidates o, dd.delimiter ≠ d → ∃ x, (scoreDialect (detectFns sq modal) o dd (T.text d)) = ⟨dd, x, 1⟩ ∧ x ≤ 6 / 10 := by
    intro dd hdd hde
    have hnd : dd.delimiter ∉ T.text d := by
      intro h
      rcases (hmem _ h).1 with h | h
      · exact hde h
      · exact h (candidate_facts ho hdd).1
    have hF : allFields o dd (T.text d) = ((T.take o.maxRows).map (fun r => rowText d r.1)).map (fun b => [b]) := by
      rw [hrowsF dd hdd, List.map_map]
      apply List.map_congr_left
      intro r hr
      apply pieces_other
      intro h
      apply hnd
      unfold PlainTable.text
      rw [List.mem_flatMap]
      exact ⟨r, List.mem_of_mem_take hr, by simp [h]⟩
    have hne : ((T.take o.maxRows).map (fun r => rowText d r.1)).map (fun b => [b]) ≠ [] := by simpa using htake
    rw [score_free _ o dd _ (hfree dd hdd).1 _ hF (by simpa using hlenT) hne]
    have hall : ∀ c ∈ (((T.take o.maxRows).map (fun r => rowText d r.1)).map (fun b => [b])).map List.length, c = 1 := by
      intro c hc
      rw [List.map_map, List.mem_map] at hc
      obtain ⟨r, hr, rfl⟩ := hc
      rfl
    have hne2 : (((T.take o.maxRows).map (fun r => rowText d r.1)).map (fun b => [b])).map List.length ≠ [] := by simpa using htake
    have hmod : modal ((((T.take o.maxRows).map (fun r => rowText d r.1)).map (fun b => [b])).map List.length) = 1 := hall _ (hm.member _ hne2)
    have hpat : patternScore ((((T.take o.maxRows).map (fun r => rowText d r.1)).map (fun b => [b])).map List.length) = 1 := pattern_const _ 1 hne2 hall
    refine ⟨combineScore sq 1 1 (typeScore (dataRows (((T.take o.maxRows).map (fun r => rowText d r.1)).map (fun b => [b])))), ?_, ?_⟩
    · show (⟨dd, combineScore sq (patternScore _) (modal _) (typeScore _), modal _⟩ : DialectCandidate) = _
      rw [hmod, hpat]
    · unfold combineScore
      rw [if_neg (by omega), if_neg (by omega), one_mul, dataRows_map, dataRows_map]
      apply typeScore_single
      · simpa using dataRows_ne _ htake
      · rw [List.countP_map, List.length_map]
        exact hdata
  -- the best candidate
  obtain ⟨D, hD⟩ : ∃ D : Dialect, D = { delimiter := d, quote := 34, escape := 34, doubleQuote := true } := ⟨_, rfl⟩
  have hDm : D ∈ generateCandidates o := by
    unfold generateCandidates
    simp only [List.mem_flatMap, List.mem_append, List.mem_cons, List.not_mem_nil, or_false, List.mem_map, List.mem_filter]
    exact ⟨d, hd, .inl ⟨34, h34, .inl hD⟩⟩
  obtain ⟨x, hx, hx6, hxe⟩ := hsum D hDm (by rw [hD])
  have hfirst : (sort (scoredCandidates (detectFns sq modal) o (T.text d))).head? = some ⟨D, x, n⟩ := by
    apply hs.first
    · rw [← hx]; exact List.mem_map_of_mem hDm
    · intro y hy
      unfold scoredCandidates at hy
      rw [List.mem_map] at hy
      obtain ⟨dd, hdd, rfl⟩ := hy
      by_cases hde : dd.delimiter = d
      · obtain ⟨x', hx', _, hx'e⟩ := hsum dd hdd hde
        rw [hx', hx'e, ← hxe]
        by_cases heq : dd = D
        · left; rw [heq]
        · right
          rw [before_of_tie (by simp) (by simp)]
          unfold tieBefore
          dsimp only
          rw [if_neg (by simp)]
          by_cases hq34 : dd.quote = 34
          · rw [if_neg (by rw [hD, hq34]; simp)]
            by_cases hdq : dd.doubleQuote = true
            · exfalso
              apply heq
              obtain ⟨h1, h2, h3, h4, h5⟩ := candidate_facts ho hdd
              rw [hD, ← hq34]
              have := h5 hdq
              cases dd
              simp_all
            · have hdq : dd.doubleQuote = false := by simpa using hdq
              rw [if_pos (by rw [hD, hdq]; simp), hD]
          · rw [if_pos (by rw [hD]; exact fun h => hq34 h.symm), hD]; simp
      · obtain ⟨x', hx', hx'6⟩ := hother dd hdd hde
        right
        rw [hx']
        by_cases hgt : x - x' > 1 / 1000000000
        · exact before_of_gt hgt
        · rw [before_of_tie hgt (by dsimp only; linarith)]
          unfold tieBefore
          dsimp only
          rw [if_pos (by omega)]
          simp; omega
  rcases detect_cases (detectFns sq modal) sort o buf with h | ⟨best, others, hsort, hpos, h1, h2, h3, h4, h5⟩
  · exfalso
    -- a positive best score rules this out
    have hbne : ¬ buf.isEmpty = true := by
      intro hb
      have hb : buf = [] := by simpa using hb
      rw [hb] at hbuf
      have hbuf : [] = T.text d := hbuf
      rw [← hbuf] at h10; simp at h10
    have hc := h.1
    unfold detect at hc
    rw [if_neg hbne] at hc
    dsimp only at hc
    rw [skip_whole o ho buf _ hbuf h10] at hc
    have hne : ¬ (T.text d).isEmpty = true := by
      intro hb
      have hb : T.text d = [] := by simpa using hb
      rw [hb] at h10; simp at h10
    rw [if_neg hne, sample_whole o _ hsz.1 hsz.2] at hc
    cases hl : sort (scoredCandidates (detectFns sq modal) o (T.text d)) with
    | nil => rw [hl] at hfirst; simp at hfirst
    | cons b bs =>
      rw [hl] at hfirst hc
      simp only [List.head?_cons, Option.some.injEq] at hfirst
      rw [hfirst] at hc
      dsimp only at hc
      rw [if_pos (by linarith)] at hc
      dsimp only at hc
      linarith
  · rw [hsample] at hsort h4 h5
    rw [hsort] at hfirst
    simp only [List.head?_cons, Option.some.injEq] at hfirst
    rw [hfirst] at h1 h2 h3 h4 h5
    dsimp only at h1 h2 h3 h4 h5
    have hl : (findRows o D (T.text d)).length = (allFields o D (T.text d)).length := by simp [allFields]
    refine ⟨?_, ?_, ?_, h2, ?_, ?_, ?_, ?_⟩
    · show (detect _ _ _ _).dialect.delimiter = d; rw [h3, hD]
    · show (detect _ _ _ _).dialect.quote = 34; rw [h3, hD]
    · show (detect _ _ _ _).dialect.doubleQuote = true; rw [h3, hD]
    · show (detect _ _ _ _).rows = _
      rw [h5, hl, hown D hDm (by rw [hD]), List.length_map, List.length_take, Nat.min_comm]
    · show 3 / 5 ≤ (detect _ _ _ _).confidence ∧ (detect _ _ _ _).confidence = _
      rw [h1]
      exact ⟨by linarith, by rw [hxe]; exact combine_table sq n hn _⟩
    · show (detect _ _ _ _).success = true
      unfold DetectResult.success
      rw [h1, decide_eq_true_eq]; linarith
    · show (detect _ _ _ _).hasHeader = _
      rw [h4]; unfold detectHeader
      rw [hown D hDm (by rw [hD])]

/-! ### The assumptions can be met -/

/-- Insertion of a candidate. -/
def insertCandidate (x : DialectCandidate) : List DialectCandidate → List DialectCandidate
  | [] => [x]
  | y :: l => if x.before y then x :: y :: l else y :: insertCandidate x l

/-- Sorting by insertion. -/
def sortCandidates : List DialectCandidate → List DialectCandidate
  | [] => []
  | x :: l => insertCandidate x (sortCandidates l)

theorem insert_perm (x : DialectCandidate) (l : List DialectCandidate) : (insertCandidate x l).Perm (x :: l) := by
  induction l with
  | nil => exact List.Perm.refl _
  | cons y l ih =>
    simp only [insertCandidate]
    split
    · exact List.Perm.refl _
    · exact (ih.cons y).trans (List.Perm.swap x y l)

theorem sortCandidates_ok : SortOk sortCandidates := by
  have hperm : ∀ l, (sortCandidates l).Perm l := by
    intro l
    induction l with
    | nil => exact List.Perm.refl _
    | cons x l ih => exact (insert_perm x _).trans (ih.cons x)
  refine ⟨hperm, ?_⟩
  intro l x
  induction l with
  | nil => intro h; simp at h
  | cons a l ih =>
    intro hx hb
    simp only [sortCandidates]
    have hsub : ∀ y ∈ sortCandidates l, y = x ∨ x.before y = true := fun y hy => hb y (List.mem_cons_of_mem _ ((hperm l).mem_iff.1 hy))
    by_cases hxl : x ∈ l
    · have := ih hxl (fun y hy => hb y (List.mem_cons_of_mem _ hy))
      cases hl : sortCandidates l with
      | nil => rw [hl] at this; simp at this
      | cons y ys =>
        rw [hl] at this
        simp at this; subst this
        simp only [insertCandidate]
        rcases hb a (by simp) with rfl | h
        · split <;> simp
        · rw [if_neg (by rw [C46_asymmetric _ _ h]; simp)]; simp
    · have hax : x = a := by
        rcases List.mem_cons.1 hx with h | h
        · exact h
        · exact absurd h hxl
      subst hax
      cases hl : sortCandidates l with
      | nil => simp [insertCandidate]
      | cons y ys =>
        simp only [insertCandidate]
        have hy : y ∈ l := (hperm l).mem_iff.1 (by rw [hl]; simp)
        rcases hsub y (by rw [hl]; simp) with rfl | h
        · exact absurd hy hxl
        · rw [if_pos h]; rfl

/-- The first of the most frequent counts. -/
def firstModal (counts : List Nat) : Nat := (counts.find? (fun c => counts.all (fun c' => decide (counts.count c' ≤ counts.count c)))).getD 0

theorem exists_most (counts : List Nat) : ∀ l : List Nat, l ≠ [] → ∃ m ∈ l, ∀ c ∈ l, counts.count c ≤ counts.count m
  | [], h => absurd rfl h
  | [a], _ => ⟨a, by simp, by simp⟩
  | a :: b :: l, _ => by
    obtain ⟨m, hm, hmax⟩ := exists_most counts (b :: l) (by simp)
    by_cases h : counts.count a ≤ counts.count m
    · refine ⟨m, List.mem_cons_of_mem _ hm, ?_⟩
      intro c hc
      rcases List.mem_cons.1 hc with rfl | hc
      · exact h
      · exact hmax c hc
    · refine ⟨a, by simp, ?_⟩
      intro c hc
      rcases List.mem_cons.1 hc with rfl | hc
      · exact le_refl _
      · have := hmax c hc; omega

theorem firstModal_ok : ModalOk firstModal := by
  have key : ∀ counts : List Nat, counts ≠ [] → firstModal counts ∈ counts ∧ ∀ c ∈ counts, counts.count c ≤ counts.count (firstModal counts) := by
    intro counts hne
    obtain ⟨m, hm, hmax⟩ := exists_most counts counts hne
    unfold firstModal
    cases hf : counts.find? (fun c => counts.all (fun c' => decide (counts.count c' ≤ counts.count c))) with
    | none =>
      rw [List.find?_eq_none] at hf
      exact absurd (by rw [List.all_eq_true]; intro c hc; simpa using hmax c hc) (hf m hm)
    | some x =>
      have h1 := List.mem_of_find?_eq_some hf
      have h2 := List.find?_some hf
      rw [List.all_eq_true] at h2
      exact ⟨h1, fun c hc => by simpa using h2 c hc⟩
  refine ⟨fun counts hne => (key counts hne).1, ?_⟩
  intro counts c
  by_cases hc : c ∈ counts
  · exact (key counts (by rintro rfl; simp at hc)).2 c hc
  · rw [List.count_eq_zero.2 hc]; omega

/-- A rational square root: Newton's iteration. -/
def newtonSqrt (x : Rat) : Nat → Rat
  | 0 => (x + 1) / 2
  | k + 1 => let y := newtonSqrt x k; if y = 0 then 0 else (y + x / y) / 2

/-- Four steps of it, kept within [0, 1]. -/
def sqrtApprox (x : Rat) : Rat := max 0 (min 1 (newtonSqrt x 4))

theorem sqrtApprox_ok : SqrtOk sqrtApprox := by
  intro x _ _
  unfold sqrtApprox
  exact ⟨le_max_left _ _, max_le (by norm_num) (min_le_left _ _)⟩

/-- It is the square root of one half and of one, to nine digits. -/
example : |sqrtApprox (1 / 2) * sqrtApprox (1 / 2) - 1 / 2| < 1 / 1000000000 ∧ sqrtApprox 1 = 1 := by
  decide +kernel

theorem options_default_ok : OptionsOk {} := by
  constructor <;> decide

/-- The table `id,name` / `1,ann` / `2,bob` behind a comment line meets the hypotheses of `C77_clean`. -/
def demoTable : PlainTable := [([[105, 100], [110, 97, 109, 101]], false), ([[49], [97, 110, 110]], true), ([[50], [98, 111, 98]], false)]

example : (44 : UInt8) ∈ (({} : DetectOptions)).delimiters ∧ (34 : UInt8) ∈ (({} : DetectOptions)).quoteChars ∧ demoTable.Plain {} 2 ∧
    (∀ r ∈ demoTable, commentLine (({} : DetectOptions)).commentChars (rowText 44 r.1) = false) ∧
    10 * (dataRows (demoTable.take 100)).countP (fun r => looksTyped (rowText 44 r.1)) ≤ 6 * (dataRows (demoTable.take 100)).length ∧
    ((textLines ([35, 120, 10] ++ demoTable.text 44)).dropWhile (commentLine [35])).flatten = demoTable.text 44 := by
  refine ⟨by decide, by decide, ?_, by decide +kernel, by decide +kernel, by decide +kernel⟩
  unfold PlainTable.Plain; decide +kernel

/-- And it is found. -/
example : let r := detect (detectFns sqrtApprox firstModal) sortCandidates {} ([35, 120, 10] ++ demoTable.text 44)
    r.dialect = ⟨44, 34, 34, true, 35⟩ ∧ r.columns = 2 ∧ r.rows = 3 ∧ r.hasHeader = true ∧ r.commentLines = 1 := by decide +kernel

/-! ### Rows that look like one value -/

/-- The text starts, after white space, with a date. -/
def StartsWithDate (s : List UInt8) : Prop := ∃ w d r, s = w ++ (d ++ r) ∧ (∀ x ∈ w, whiteSpace x = true) ∧ DateText d

theorem sign_mem {sg : List UInt8} (h : OptSign sg) {c : UInt8} (hc : c ∈ sg) : c = 43 ∨ c = 45 := by
  rcases h with rfl | rfl | rfl <;> simp at hc <;> simp [hc]

theorem intLit_mem {t : List UInt8} {v : Int} (h : IntLit t v) {c : UInt8} (hc : c ∈ t) : IsDigit c ∨ c = 43 ∨ c = 45 := by
  cases h with
  | bare _ _ h => exact .inl (h c hc)
  | plus ds _ h => rcases List.mem_cons.1 hc with rfl | hc
                   · simp
                   · exact .inl (h c hc)
  | minus ds _ h => rcases List.mem_cons.1 hc with rfl | hc
                    · simp
                    · exact .inl (h c hc)

theorem decLit_mem {t : List UInt8} (h : DecLit t) {c : UInt8} (hc : c ∈ t) : IsDigit c ∨ c = 43 ∨ c = 45 ∨ c = 46 ∨ c = 101 ∨ c = 69 := by
  obtain ⟨sg, ip, fr, ex, rfl, hsg, hip, hfr, hex, _⟩ := h
  simp only [List.mem_append] at hc
  rcases hc with hc | hc | hc | hc
  · rcases sign_mem hsg hc with rfl | rfl <;> simp
  · exact .inl (hip c hc)
  · rcases hfr with rfl | ⟨ds, rfl, hds⟩
    · simp at hc
    · rcases List.mem_cons.1 hc with rfl | hc
      · simp
      · exact .inl (hds c hc)
  · rcases hex with rfl | ⟨e, sg', ds, rfl, he, hsg', _, hds⟩
    · simp at hc
    · simp only [List.mem_cons, List.mem_append] at hc
      rcases hc with rfl | hc | hc
      · rcases he with rfl | rfl <;> simp
      · rcases sign_mem hsg' hc with rfl | rfl <;> simp
      · exact .inl (hds c hc)

theorem stripped_mem {p : UInt8 → Bool} {s t : List UInt8} (h : Stripped p s t) {c : UInt8} (hc : c ∈ s) (hw : p c = false) : c ∈ t := by
  obtain ⟨a, b, rfl, ha, hb, _⟩ := h
  simp only [List.mem_append] at hc
  rcases hc with (hc | hc) | hc
  · rw [ha c hc] at hw; cases hw
  · exact hc
  · rw [hb c hc] at hw; cases hw

/-- A text with a comma, semicolon or bar in it that looks typed is taken for a date-time, so it starts with a date. -/
theorem typed_row (s : List UInt8) (d : UInt8) (hd : d = 44 ∨ d = 59 ∨ d = 124) (hs : d ∈ s) (h : looksTyped s = true) : StartsWithDate s := by
  have hdig : ¬ IsDigit d := by rcases hd with rfl | rfl | rfl <;> simp [IsDigit]
  have hblank : (d == 32 || d == 9) = false := by rcases hd with rfl | rfl | rfl <;> decide
  have hwhite : whiteSpace d = false := by rcases hd with rfl | rfl | rfl <;> decide
  have hint : ∀ t v, d ∈ t → ¬ IntLit t v := by
    intro t v hm hi
    rcases intLit_mem hi hm with h | h | h
    · exact hdig h
    · rcases hd with rfl | rfl | rfl <;> simp at h
    · rcases hd with rfl | rfl | rfl <;> simp at h
  have hdec : ∀ t, d ∈ t → ¬ DecLit t := by
    intro t hm hi
    rcases decLit_mem hi hm with h | h
    · exact hdig h
    · rcases hd with rfl | rfl | rfl <;> simp at h
  have hspec : ∀ t, d ∈ t → ¬ SpecialText t := by
    intro t hm hi
    have hlow : ∀ u : List UInt8, d ∈ u → lowerC d ∈ u.map lowerC := fun u hu => List.mem_map_of_mem hu
    rcases hi with hi | ⟨sg, u, rfl, hsg, hi⟩
    · have := hlow t hm
      rw [hi] at this
      rcases hd with rfl | rfl | rfl <;> simp [lowerC] at this
    · rw [List.mem_append] at hm
      rcases hm with hm | hm
      · rcases sign_mem hsg hm with h | h <;> rcases hd with rfl | rfl | rfl <;> simp at h
      · have := hlow u hm
        rcases hi with hi | hi <;> rw [hi] at this <;> rcases hd with rfl | rfl | rfl <;> simp [lowerC] at this
  unfold looksTyped at h
  rw [Bool.or_eq_true, Bool.or_eq_true] at h
  rcases h with (h | h) | h
  · rw [(C76_numeric s).1] at h
    obtain ⟨t, ht, v, hv⟩ := h
    exact absurd hv (hint t v (stripped_mem ht hs hblank))
  · rw [(C76_numeric s).2] at h
    obtain ⟨t, ht, hv⟩ := h
    have hm := stripped_mem ht hs hblank
    rcases hv with hv | hv
    · exact absurd hv (hspec t hm)
    · exact absurd hv (hdec t hm)
  · cases hk : inferCellType s with
    | EMPTY =>
      rw [C76_empty] at hk
      have := hk d hs; rw [hwhite] at this; cases this
    | BOOLEAN =>
      rw [C76_boolean] at hk
      obtain ⟨t, ht, hb⟩ := hk
      have hm := stripped_mem ht hs hwhite
      rcases hb with rfl | rfl | rfl | rfl | rfl | rfl <;> rcases hd with rfl | rfl | rfl <;> simp at hm
    | INTEGER =>
      rw [C76_integer] at hk
      obtain ⟨t, ht, v, hv⟩ := hk
      exact absurd hv (hint t v (stripped_mem ht hs hwhite))
    | FLOAT =>
      rw [C76_float] at hk
      obtain ⟨t, ht, hv⟩ := hk
      exact absurd hv (hdec t (stripped_mem ht hs hwhite))
    | DATE =>
      rw [C76_date] at hk
      obtain ⟨t, ht, hv⟩ := hk
      rcases (date_bytes hv).2 d (stripped_mem ht hs hwhite) with h | h | h
      · exact absurd h hdig
      · rcases hd with rfl | rfl | rfl <;> simp at h
      · rcases hd with rfl | rfl | rfl <;> simp at h
    | TIME =>
      rw [C76_time] at hk
      obtain ⟨t, ht, hv⟩ := hk
      have hm := stripped_mem ht hs hwhite
      exfalso
      obtain ⟨a, m, ha, hmm, rfl | ⟨sec, hsec, rfl⟩⟩ := hv
      · simp only [List.mem_append, List.mem_cons] at hm
        rcases hm with hm | hm | hm
        · exact hdig (ha.2 d hm)
        · rcases hd with rfl | rfl | rfl <;> simp at hm
        · exact hdig (hmm.2 d hm)
      · simp only [List.mem_append, List.mem_cons] at hm
        rcases hm with hm | hm | hm | hm | hm
        · exact hdig (ha.2 d hm)
        · rcases hd with rfl | rfl | rfl <;> simp at hm
        · exact hdig (hmm.2 d hm)
        · rcases hd with rfl | rfl | rfl <;> simp at hm
        · exact hdig (hsec.2 d hm)
    | DATETIME =>
      obtain ⟨t, dd, w, c, r, ⟨a, b, rfl, ha, _⟩, rfl, hdd, _⟩ := C76_datetime_shape s hk
      exact ⟨a, dd, w ++ c :: r ++ b, by simp [List.append_assoc], ha, hdd⟩
    | STRING => rw [hk] at h; simp at h

/-- **C77** In particular, a clean table separated by commas, semicolons or bars is recognised if none of its data rows starts with a date. -/
theorem C77_common (sq : Rat → Rat) (hq : SqrtOk sq) (modal : List Nat → Nat) (hm : ModalOk modal) (sort : List DialectCandidate → List DialectCandidate)
    (hs : SortOk sort) (o : DetectOptions) (ho : OptionsOk o) (d : UInt8) (hd : d ∈ o.delimiters) (hdc : d = 44 ∨ d = 59 ∨ d = 124)
    (h34 : (34 : UInt8) ∈ o.quoteChars)
    (T : PlainTable) (hT0 : T ≠ []) (n : Nat) (hn : 2 ≤ n) (hT : T.Plain o n) (hcom : ∀ r ∈ T, commentLine o.commentChars (rowText d r.1) = false)
    (hmin : o.minRows ≤ T.length ∧ o.minRows ≤ o.maxRows)
    (hdata : ∀ r ∈ dataRows (T.take o.maxRows), ¬ StartsWithDate (rowText d r.1))
    (buf : List UInt8) (hbuf : ((textLines buf).dropWhile (commentLine o.commentChars)).flatten = T.text d)
    (hsz : (T.text d).length ≤ o.sampleSize ∧ (T.text d).length ≤ 1048576) :
    let r := detect (detectFns sq modal) sort o buf
    r.dialect.delimiter = d ∧ r.dialect.quote = 34 ∧ r.dialect.doubleQuote = true ∧ r.columns = n ∧ r.rows = min T.length o.maxRows ∧
      (3 / 5 ≤ r.confidence ∧ r.confidence = tableConfidence sq ((T.take o.maxRows).map Prod.fst)) ∧ r.success = true ∧ r.hasHeader = headerOf ((T.take o.maxRows).map Prod.fst) := by
  refine C77_clean sq hq modal hm sort hs o ho d hd h34 T hT0 n hn hT hcom hmin ?_ buf hbuf hsz
  have : (dataRows (T.take o.maxRows)).countP (fun r => looksTyped (rowText d r.1)) = 0 := by
    rw [List.countP_eq_zero]
    intro r hr hty
    have hrT : r ∈ T := by
      unfold dataRows at hr
      split at hr
      · exact List.mem_of_mem_take (List.mem_of_mem_drop hr)
      · exact List.mem_of_mem_take hr
    refine hdata r hr (typed_row _ d hdc ?_ hty)
    have := (hT r hrT).1
    unfold rowText
    match h : r.1, this with
    | f :: g :: fs, _ => simp [joinFields]
    | [f], h2 => simp at h2; omega
    | [], h2 => simp at h2; omega
  rw [this]; omega

/-- **C77 finding** The comma-separated file `t,x` / `2020-01-02 10:00,abc` / `2020-01-03 10:00,def` is reported, with confidence 1, as
a single column separated by something other than commas: each of its data rows as a whole is taken for a date-time. -/
theorem C77_dated_rows_refuted :
    let r := detect (detectFns sqrtApprox firstModal) sortCandidates {}
      [116, 44, 120, 10, 50,48,50,48,45,48,49,45,48,50,32,49,48,58,48,48,44,97,98,99, 10, 50,48,50,48,45,48,49,45,48,51,32,49,48,58,48,48,44,100,101,102, 10]
    r.dialect.delimiter ≠ 44 ∧ r.columns = 1 ∧ r.confidence = 1 ∧ r.success = true := by decide +kernel

/-- **C77 finding** The confidence, documented as lying in [0, 1], is 1.1 for `a,b` / `1,""` / `2,""`. -/
theorem C77_confidence_refuted :
    (detect (detectFns sqrtApprox firstModal) sortCandidates {} [97, 44, 98, 10, 49, 44, 34, 34, 10, 50, 44, 34, 34, 10]).confidence = 11 / 10 := by decide +kernel

/-- **C77 finding** Detecting from a file and from memory differ when rows are longer than the sample: with a sample of eight bytes, the table
`aa;bbb` / `1;2` / `3;4` has three rows in memory but two in a file. -/
theorem C77_file_refuted :
    let o : DetectOptions := { sampleSize := 8 }
    let t : List UInt8 := [97, 97, 59, 98, 98, 98, 10, 49, 59, 50, 10, 51, 59, 52, 10]
    (detect (detectFns sqrtApprox firstModal) sortCandidates o t).columns = 2 ∧
    (detect (detectFns sqrtApprox firstModal) sortCandidates o t).rows = 3 ∧
    (detectFile (detectFns sqrtApprox firstModal) sortCandidates o t).rows = 2 := by decide +kernel

/-- **C77 finding** The `max_rows` option of zero still lets one row through. -/
theorem C77_max_rows_refuted : (findRows { maxRows := 0 } {} [97, 10, 98, 10]).length = 1 := by decide +kernel

/-! ### C78: headers -/

/-- What makes the first row a header of the second: most of its non-empty cells are strings, and the second row has a cell with a type or all cells of
the first are strings. -/
def HeaderLike (h d : List (List UInt8)) : Prop :=
  h.countP (fun f => decide (f ≠ [])) < 2 * h.countP (fun f => inferCellType f == .STRING) ∧
    ((∃ f ∈ d, inferCellType f ≠ .STRING ∧ inferCellType f ≠ .EMPTY) ∨ ∀ f ∈ h, inferCellType f = .STRING)

theorem infer_nil : inferCellType [] = .EMPTY := by decide +kernel

/-- **C78** A header is reported exactly if there are two rows, both with cells, and the first is a header of the second. -/
theorem C78_header (o : DetectOptions) (d : Dialect) (buf : List UInt8) :
    detectHeader o d buf = true ↔ ∃ h r rest, allFields o d buf = h :: r :: rest ∧ h ≠ [] ∧ r ≠ [] ∧ HeaderLike h r := by
  unfold detectHeader
  generalize allFields o d buf = rows
  match rows with
  | [] => simp [headerOf]
  | [h] => simp [headerOf]
  | h :: r :: rest =>
    simp only [headerOf]
    have hstr : (h.filter (fun f => inferCellType f == .STRING && !f.isEmpty)).length = h.countP (fun f => inferCellType f == .STRING) := by
      rw [← List.countP_eq_length_filter]
      apply List.countP_congr
      intro f _
      rw [Bool.and_eq_true]
      refine ⟨fun h => h.1, fun h => ⟨h, ?_⟩⟩
      cases f with
      | nil => rw [infer_nil] at h; simp at h
      | cons => rfl
    have hnon : (h.filter (fun f => !f.isEmpty)).length = h.countP (fun f => decide (f ≠ [])) := by
      rw [← List.countP_eq_length_filter]
      apply List.countP_congr
      intro f _
      cases f <;> simp
    have hle : h.countP (fun f => inferCellType f == .STRING) ≤ h.countP (fun f => decide (f ≠ [])) := by
      apply List.countP_mono_left
      intro f _ hf
      cases f with
      | nil => rw [infer_nil] at hf; simp at hf
      | cons => simp
    rw [hstr, hnon]
    by_cases he : (h.isEmpty || r.isEmpty) = true
    · rw [if_pos he]
      rw [Bool.or_eq_true] at he
      constructor
      · intro h; cases h
      · rintro ⟨h', r', rest', e, h1, h2, _⟩
        simp only [List.cons.injEq] at e
        obtain ⟨rfl, rfl, rfl⟩ := e
        rcases he with he | he
        · exact absurd (by simpa using he) h1
        · exact absurd (by simpa using he) h2
    · rw [if_neg he]
      simp only [Bool.or_eq_true, not_or] at he
      have e1 : h ≠ [] := by simpa using he.1
      have e2 : r ≠ [] := by simpa using he.2
      have hex : (∃ h' r' rest', h :: r :: rest = h' :: r' :: rest' ∧ h' ≠ [] ∧ r' ≠ [] ∧ HeaderLike h' r') ↔ HeaderLike h r := by
        constructor
        · rintro ⟨h', r', rest', e, _, _, hh⟩
          simp only [List.cons.injEq] at e
          obtain ⟨rfl, rfl, rfl⟩ := e
          exact hh
        · intro hh; exact ⟨h, r, rest, rfl, e1, e2, hh⟩
      rw [hex]
      unfold HeaderLike
      rw [Bool.and_eq_true, Bool.or_eq_true]
      have p1 : (decide ((if h.countP (fun f => decide (f ≠ [])) > 0 then (h.countP (fun f => inferCellType f == .STRING) : Rat) / h.countP (fun f => decide (f ≠ [])) else 0) > 1 / 2) = true) ↔
          h.countP (fun f => decide (f ≠ [])) < 2 * h.countP (fun f => inferCellType f == .STRING) := by
        rw [decide_eq_true_eq]
        generalize h.countP (fun f => decide (f ≠ [])) = k at hle
        generalize h.countP (fun f => inferCellType f == .STRING) = m at hle
        by_cases hk : k > 0
        · rw [if_pos hk]
          have hk' : (0 : Rat) < k := by exact_mod_cast hk
          rw [gt_iff_lt, lt_div_iff₀ hk']
          constructor
          · intro h
            have : (k : Rat) < 2 * m := by linarith
            exact_mod_cast this
          · intro h
            have : (k : Rat) < 2 * m := by exact_mod_cast h
            linarith
        · rw [if_neg hk]
          constructor
          · intro h; exact absurd h (by norm_num)
          · intro h; omega
      have p2 : (decide ((r.filter (fun f => inferCellType f != .STRING && inferCellType f != .EMPTY)).length > 0) = true) ↔
          ∃ f ∈ r, inferCellType f ≠ .STRING ∧ inferCellType f ≠ .EMPTY := by
        rw [decide_eq_true_eq, gt_iff_lt, List.length_pos_iff, ne_eq, List.filter_eq_nil_iff]
        push Not
        simp [bne_iff_ne]
      have p3 : ((h.countP (fun f => inferCellType f == .STRING) == h.length) = true) ↔ ∀ f ∈ h, inferCellType f = .STRING := by
        rw [beq_iff_eq, List.countP_eq_length]
        simp
      rw [p1, p2, p3]

/-- **C78** A first row without any string, such as a row of numbers, is never taken for a header. -/
theorem C78_numbers (o : DetectOptions) (d : Dialect) (buf : List UInt8) (h : List (List UInt8)) (rest : List (List (List UInt8)))
    (hrows : allFields o d buf = h :: rest) (hn : ∀ f ∈ h, inferCellType f ≠ .STRING) : detectHeader o d buf = false := by
  rw [← Bool.not_eq_true, C78_header]
  rintro ⟨h', r', rest', e, _, _, hh⟩
  rw [hrows] at e
  simp only [List.cons.injEq] at e
  obtain ⟨rfl, rfl⟩ := e
  have : h.countP (fun f => inferCellType f == .STRING) = 0 := by
    rw [List.countP_eq_zero]; intro f hf; simpa using hn f hf
  have := hh.1
  omega

/-- **C78** A first row of strings over a row of numbers is a header. -/
theorem C78_strings (o : DetectOptions) (d : Dialect) (buf : List UInt8) (h r : List (List UInt8)) (rest : List (List (List UInt8)))
    (hrows : allFields o d buf = h :: r :: rest) (hne : h ≠ [] ∧ r ≠ []) (hs : ∀ f ∈ h, inferCellType f = .STRING) : detectHeader o d buf = true := by
  rw [C78_header]
  refine ⟨h, r, rest, hrows, hne.1, hne.2, ?_, .inr hs⟩
  have h1 : h.countP (fun f => inferCellType f == .STRING) = h.length := by rw [List.countP_eq_length]; simpa using hs
  have h2 : h.countP (fun f => decide (f ≠ [])) ≤ h.length := List.countP_le_length
  have h3 : 0 < h.length := List.length_pos_iff.2 hne.1
  omega

/-- `id,name` over `1,ann`; and `1,2` over `3,4`. -/
example : detectHeader {} {} (demoTable.text 44) = true ∧ detectHeader {} {} [49, 44, 50, 10, 51, 44, 52, 10] = false := by decide +kernel

/-- **C78 finding** The rows are not compared: in a table of strings without a header, the first row is reported as one. -/
theorem C78_compare_refuted : ¬ ∀ buf : List UInt8, detectHeader {} {} buf = true →
    ∃ h r rest, allFields {} {} buf = h :: r :: rest ∧ ∃ i : Nat, h[i]?.map inferCellType ≠ r[i]?.map inferCellType := by
  intro hall
  have h := hall [97, 44, 98, 10, 99, 44, 100, 10] (by decide +kernel)
  obtain ⟨h, r, rest, e, i, hi⟩ := h
  have e' : allFields {} {} [97, 44, 98, 10, 99, 44, 100, 10] = [[[97], [98]], [[99], [100]]] := by decide +kernel
  rw [e'] at e
  simp only [List.cons.injEq] at e
  obtain ⟨rfl, rfl, _⟩ := e
  match i with
  | 0 => exact hi (by decide +kernel)
  | 1 => exact hi (by decide +kernel)
  | i + 2 => exact hi rfl

end Vroom
