import Verif.Lemmas.ReaderFile
import Verif.Props.RowScan
/- Reading written files in chunks. -/
namespace Vroom
open Spec

/-! ### Parity of written rows -/

theorem render_even (M : Marks) (f : WField) (h : f.WF M) : (f.render M.quote).count M.quote % 2 = 0 := by
  cases f with
  | plain s => rw [WField.render, List.count_eq_zero.2 h.2.1]
  | quoted b =>
    rw [WField.render]
    simp only [List.cons_append, List.count_cons_self, List.count_append, escape_count, List.count_nil]
    omega

/-- Line-end bytes of a written field are inside quotes. -/
theorem render_inside (M : Marks) (hM : ReadSane M) (f : WField) (h : f.WF M) (k : Nat) (c : UInt8)
    (hk : (f.render M.quote)[k]? = some c) (hc : c = 10 ∨ c = 13) :
    ((f.render M.quote).take k).count M.quote % 2 = 1 := by
  have hcq : c ≠ M.quote := by
    rcases hc with h | h
    · rw [h, ← hM.eol_lf]; exact hM.eol_quote
    · rw [h]; exact hM.quote_cr.symm
  cases f with
  | plain s =>
    exfalso
    have hm := List.mem_of_getElem? hk
    rw [WField.render] at hm
    rcases hc with h' | h'
    · exact h.2.2.1 (by rw [hM.eol_lf, ← h']; exact hm)
    · exact h.2.2.2 (by rw [← h']; exact hm)
  | quoted b =>
    rw [WField.render] at hk ⊢
    cases k with
    | zero => simp at hk; exact absurd hk.symm hcq
    | succ k =>
      by_cases hlt : k < (escape M.quote b).length
      · have hk' : (escape M.quote b)[k]? = some c := by
          simpa [List.getElem?_append_left hlt] using hk
        have := escape_parity M.quote b k c hk' hcq
        simp only [List.cons_append, List.take_succ_cons, List.count_cons_self,
          List.take_append_of_le_length (Nat.le_of_lt hlt)]
        omega
      · exfalso
        simp only [List.cons_append, List.getElem?_cons_succ] at hk
        rw [List.getElem?_append_right (by omega)] at hk
        have := List.mem_of_getElem? hk
        simp [hcq] at this

/-- "Closed" text: balanced quotes, all line-end bytes inside quotes. -/
structure Closed (q : UInt8) (d : Bytes) : Prop where
  even : d.count q % 2 = 0
  inside : ∀ (k : Nat) (c : UInt8), d[k]? = some c → c = 10 ∨ c = 13 → (d.take k).count q % 2 = 1

theorem Closed.append {q : UInt8} {a b : Bytes} (ha : Closed q a) (hb : Closed q b) : Closed q (a ++ b) := by
  refine ⟨by rw [List.count_append]; have := ha.1; have := hb.1; omega, ?_⟩
  intro k c hk hc
  by_cases hlt : k < a.length
  · rw [List.getElem?_append_left hlt] at hk
    rw [List.take_append_of_le_length (by omega)]
    exact ha.2 k c hk hc
  · rw [List.getElem?_append_right (by omega)] at hk
    rw [List.take_append, List.take_of_length_le (by omega), List.count_append]
    have := hb.2 _ c hk hc
    have := ha.1
    omega

theorem closed_sep (M : Marks) (hM : ReadSane M) : Closed M.quote [M.sep] := by
  refine ⟨by simp [hM.sep_quote], ?_⟩
  intro k c hk hc
  cases k with
  | zero =>
    have e : M.sep = c := by simpa using hk
    rcases hc with h | h
    · exact absurd (e.trans h) (by rw [← hM.eol_lf]; exact hM.sep_eol)
    · exact absurd (e.trans h) hM.sep_cr
  | succ k => simp at hk

theorem closed_join (M : Marks) (hM : ReadSane M) (fs : List WField) (h : ∀ f ∈ fs, f.WF M) :
    Closed M.quote (joinFields M.sep (fs.map (·.render M.quote))) := by
  induction fs with
  | nil => exact ⟨rfl, by simp [joinFields]⟩
  | cons f fs ih =>
    have hf : Closed M.quote (f.render M.quote) :=
      ⟨render_even M f (h f (by simp)), fun k c => render_inside M hM f (h f (by simp)) k c⟩
    cases fs with
    | nil => exact hf
    | cons g gs =>
      have := (hf.append (closed_sep M hM)).append (ih (fun x hx => h x (by simp [List.mem_cons.1 hx])))
      simpa [joinFields] using this

theorem row_even (M : Marks) (hM : ReadSane M) (r : WRow) (h : ∀ f ∈ r.fields, f.WF M) :
    (r.render M).count M.quote % 2 = 0 := by
  unfold WRow.render
  rw [List.count_append]
  have := (closed_join M hM r.fields h).1
  have h0 : (if r.crlf = true then [(13 : UInt8)] else []).count M.quote = 0 := by
    have := hM.quote_cr
    cases r.crlf <;> simp [Ne.symm this]
  omega

theorem file_even (M : Marks) (hM : ReadSane M) (rows : List WRow) (h : ∀ r ∈ rows, ∀ f ∈ r.fields, f.WF M) :
    (renderFile M rows).count M.quote % 2 = 0 := by
  induction rows with
  | nil => rfl
  | cons r rows ih =>
    have hr := row_even M hM r (h r (by simp))
    cases rows with
    | nil => exact hr
    | cons a l =>
      have := ih (fun x hx => h x (by simp [List.mem_cons.1 hx]))
      simp only [renderFile, List.map_cons, joinFields, List.count_append] at this ⊢
      rw [List.count_cons_of_ne hM.eol_quote]
      omega

/-- Rows ended by a written row: none before its line end. -/
theorem rowCount_row (M : Marks) (hM : ReadSane M) (r : WRow) (h : ∀ f ∈ r.fields, f.WF M) (t : Bytes) :
    Spec.rowCount M.quote false (r.render M ++ 10 :: t) = 1 + Spec.rowCount M.quote false t := by
  have hq10 : M.quote ≠ 10 := by rw [← hM.eol_lf]; exact hM.eol_quote.symm
  have heven := row_even M hM r h
  have hin : insideAt M.quote false (r.render M ++ 10 :: t) (r.render M).length = false := by
    rw [insideAt_eq, List.take_left]
    simp [oddB, heven]
  unfold Spec.rowCount
  rw [rowEnds_split M.quote false _ (r.render M).length (by simp), List.length_append, List.length_map, List.drop_left,
    hin, rowEnds_cons, List.length_append, List.length_map]
  have h1 : ((10 : UInt8) == M.quote ^^ false) = false := by
    rw [beq_false_of_ne hq10.symm]; rfl
  rw [h1]
  have h2 : ((List.range (r.render M).length).filter (isRowEnd M.quote false (r.render M ++ 10 :: t))) = [] := by
    rw [List.filter_eq_nil_iff]
    intro k hk
    have hk := List.mem_range.1 hk
    unfold isRowEnd
    rw [List.getElem?_append_left hk]
    have hcl := closed_join M hM r.fields h
    have hrender : r.render M = joinFields M.sep (r.fields.map (·.render M.quote)) ++ (if r.crlf then [13] else []) := rfl
    have hge : (r.render M)[k]? = some (r.render M)[k] := List.getElem?_eq_getElem hk
    by_cases hkj : k < (joinFields M.sep (r.fields.map (·.render M.quote))).length
    · by_cases hc : (r.render M)[k] = 10 ∨ (r.render M)[k] = 13
      · have hj : (joinFields M.sep (r.fields.map (·.render M.quote)))[k]? = some (r.render M)[k] := by
          rw [← hge, hrender, List.getElem?_append_left hkj]
        have hodd := hcl.2 k _ hj hc
        have : insideAt M.quote false (r.render M ++ 10 :: t) k = true := by
          rw [insideAt_eq, List.take_append_of_le_length (by omega), hrender, List.take_append_of_le_length (by omega)]
          simp [oddB, hodd]
        rw [this]; simp
      · rw [not_or] at hc
        rw [hge]
        simp [hc.1, hc.2]
    · -- the trailing CR
      have hlen : (r.render M).length = (joinFields M.sep (r.fields.map (·.render M.quote))).length + (if r.crlf then [(13 : UInt8)] else []).length := by
        rw [hrender, List.length_append]
      cases hcr : r.crlf with
      | false => rw [hcr] at hlen; simp at hlen; omega
      | true =>
        rw [hcr] at hlen
        simp at hlen
        have hk1 : k = (joinFields M.sep (r.fields.map (·.render M.quote))).length := by omega
        have h13 : (r.render M)[k]? = some 13 := by
          rw [hrender, List.getElem?_append_right (by omega), hk1, hcr]; simp
        have hnext : (r.render M ++ 10 :: t)[k + 1]? = some 10 := by
          have : k + 1 = (r.render M).length := by omega
          rw [this, List.getElem?_append_right (by omega), Nat.sub_self]; rfl
        rw [h13, hnext]
        simp
  rw [h2]
  simp

/-! ### Chunks made of whole rows -/

theorem renderFile_append (M : Marks) (a b : List WRow) (ha : a ≠ []) (hb : b ≠ []) :
    renderFile M (a ++ b) = renderFile M a ++ M.eol :: renderFile M b := by
  induction a with
  | nil => exact absurd rfl ha
  | cons r a ih =>
    cases a with
    | nil =>
      cases b with
      | nil => exact absurd rfl hb
      | cons x l => simp [renderFile, joinFields]
    | cons s a =>
      have := ih (by simp)
      simp only [renderFile, List.map_cons, List.cons_append, joinFields, List.append_assoc] at this ⊢
      rw [this]

/-- The empty last row that stands for a final line end. -/
def emptyRow : WRow := { fields := [.plain []] }

theorem emptyRow_wf (M : Marks) : emptyRow.WF M :=
  ⟨by simp [emptyRow], by intro f hf; simp [emptyRow] at hf; subst hf; simp [WField.WF], by simp [emptyRow, TameAfterPlain]⟩

theorem renderFile_snoc (M : Marks) (a : List WRow) (ha : a ≠ []) :
    renderFile M (a ++ [emptyRow]) = renderFile M a ++ [M.eol] := by
  rw [renderFile_append M a _ ha (by simp)]
  simp [renderFile, joinFields, emptyRow, WRow.render, WField.render]

/-- Chunk texts of consecutive groups of rows: every chunk but the last ends with the line end. -/
def groupTexts (M : Marks) : List (List WRow) → List Bytes
  | [] => []
  | [g] => [renderFile M g]
  | g :: h :: gs => (renderFile M g ++ [M.eol]) :: groupTexts M (h :: gs)

/-- Expected columns of a group. -/
def groupCols (cfg : ReadCfg) (n : Nat) (g : List WRow) : List (List (Option Bytes)) :=
  (List.range n).map (fun j => (g.filter (fun r => !r.blank)).map (fun r => r.valueAt cfg.quote (commaPieces cfg.nullValues) j))

theorem cols_of_rows (cfg : ReadCfg) (n : Nat) (rs : List (List (Bytes × Bool))) (rows : List WRow) (h : RowsMatch cfg rs rows) :
    ((List.replicate n ([] : List Cell)).mapIdx (fun j col => col ++ rs.map (fun fs => cellAt cfg.nc cfg.quote fs j))).map
      (fun col => col.map Cell.toOption) = groupCols cfg n rows := by
  apply List.ext_getElem?
  intro j
  unfold groupCols
  simp only [List.getElem?_map, List.getElem?_mapIdx, List.getElem?_replicate]
  by_cases hj : j < n
  · simp only [hj, if_true, Option.map_some, List.nil_append, List.map_map, List.getElem?_range]
    rw [← h j]; rfl
  · simp [hj]

theorem rows_match_length (cfg : ReadCfg) (rs) (rows : List WRow) (h : RowsMatch cfg rs rows) :
    rs.length = (rows.filter (fun r => !r.blank)).length := by
  have := congrArg List.length (h 0)
  simpa using this

/-- Parsing the text of a group outside quotes. -/
theorem parseChunk_rows_of (cfg : ReadCfg) (hM : ReadSane cfg.dial) (n : Nat) (rows : List WRow)
    (hne : ∀ r ∈ rows, r.fields ≠ []) (hwf : ∀ r ∈ rows, ∀ f ∈ r.fields, f.WF cfg.dial) (hcut : CutsWhole cfg rows) :
    ∃ cols, parseChunk cfg n false (renderFile cfg.dial rows) =
        some (cols, if n = 0 then 0 else (rows.filter (fun r => !r.blank)).length) ∧
      cols.map (fun col => col.map Cell.toOption) = (if n = 0 then [] else groupCols cfg n rows) := by
  unfold parseChunk
  dsimp only
  by_cases hn : n = 0
  · subst hn
    exact ⟨[], by simp⟩
  · simp only [hn, or_false, if_false, Bool.false_eq_true]
    obtain ⟨rs, h1, h2⟩ := rawRows_file_of cfg hM rows hne hwf hcut _ (Nat.le_refl _)
    by_cases hl : (renderFile cfg.dial rows).length = 0
    · rw [if_pos hl]
      have hnil : renderFile cfg.dial rows = [] := List.length_eq_zero_iff.1 hl
      rw [hnil] at h1
      rw [rawRows_nil] at h1
      have : rs = [] := (Option.some.inj h1).symm
      subst this
      refine ⟨List.replicate n [], by rw [← rows_match_length cfg _ _ h2]; rfl, ?_⟩
      rw [← cols_of_rows cfg n [] rows h2]
      congr 1
      apply List.ext_getElem?
      intro j
      simp only [List.getElem?_mapIdx, List.getElem?_replicate, List.map_nil, List.append_nil]
      split <;> rfl
    · rw [if_neg hl, parseRows_spec, h1]
      refine ⟨_, by simp only [Option.map_some, Nat.zero_add]; rw [rows_match_length cfg _ _ h2], ?_⟩
      exact cols_of_rows cfg n rs rows h2

theorem states_false (cfg : ReadCfg) (chunks : List Bytes) (h : ∀ c ∈ chunks, c.count cfg.quote % 2 = 0) :
    Spec.chunkStates cfg.quote false chunks = List.replicate chunks.length false := by
  induction chunks with
  | nil => rfl
  | cons c cs ih =>
    rw [Spec.chunkStates, List.length_cons, List.replicate_succ]
    have : insideAt cfg.quote false c c.length = false := by
      rw [insideAt_eq, List.take_length]; simp [oddB, h c (by simp)]
    rw [this, ih (fun x hx => h x (by simp [hx]))]

theorem mem_groupTexts (M : Marks) (gs : List (List WRow)) (c : Bytes) (h : c ∈ groupTexts M gs) (hne : ∀ g ∈ gs, g ≠ []) :
    ∃ g ∈ gs, c = renderFile M g ∨ c = renderFile M (g ++ [emptyRow]) := by
  induction gs with
  | nil => simp [groupTexts] at h
  | cons g gs ih =>
    cases gs with
    | nil => simp [groupTexts] at h; exact ⟨g, by simp, Or.inl h⟩
    | cons g' gs =>
      rw [groupTexts, List.mem_cons] at h
      rcases h with h | h
      · exact ⟨g, by simp, Or.inr (by rw [h, renderFile_snoc M g (hne g (by simp))])⟩
      · obtain ⟨x, hx, hx'⟩ := ih h (fun y hy => hne y (by simp [List.mem_cons.1 hy]))
        exact ⟨x, by simp [List.mem_cons.1 hx], hx'⟩

theorem groupCols_snoc (cfg : ReadCfg) (n : Nat) (g : List WRow) :
    groupCols cfg n (g ++ [emptyRow]) = groupCols cfg n g := by
  unfold groupCols
  have : (g ++ [emptyRow]).filter (fun r => !r.blank) = g.filter (fun r => !r.blank) := by
    rw [List.filter_append]; simp [emptyRow, WRow.blank]
  rw [this]

/-- Every group, with the line end that follows it, is cut into its fields. -/
def GroupsWhole (cfg : ReadCfg) : List (List WRow) → Prop
  | [] => True
  | [g] => CutsWhole cfg g
  | g :: h :: gs => CutsWhole cfg (g ++ [emptyRow]) ∧ GroupsWhole cfg (h :: gs)

theorem mapM_groups_of (cfg : ReadCfg) (hM : ReadSane cfg.dial) (n : Nat) (hn : n ≠ 0) (gs : List (List WRow))
    (hne : ∀ g ∈ gs, g ≠ []) (hrn : ∀ g ∈ gs, ∀ r ∈ g, r.fields ≠ []) (hwf : ∀ g ∈ gs, ∀ r ∈ g, ∀ f ∈ r.fields, f.WF cfg.dial)
    (hcut : GroupsWhole cfg gs) :
    ∃ ps, ((groupTexts cfg.dial gs).zip (List.replicate (groupTexts cfg.dial gs).length false)).mapM
        (fun p => parseChunk cfg n p.2 p.1) = some ps ∧
      ps.map (fun p => p.1.map (fun col => col.map Cell.toOption)) = gs.map (groupCols cfg n) ∧
      ps.map Prod.snd = gs.map (fun g => (g.filter (fun r => !r.blank)).length) := by
  induction gs with
  | nil => exact ⟨[], rfl, rfl, rfl⟩
  | cons g gs ih =>
    obtain ⟨ps, h1, h2, h3⟩ := ih (fun x hx => hne x (by simp [hx])) (fun x hx => hrn x (by simp [hx])) (fun x hx => hwf x (by simp [hx])) (by cases gs with | nil => trivial | cons _ _ => exact hcut.2)
    cases gs with
    | nil =>
      obtain ⟨cols, e1, e2⟩ := parseChunk_rows_of cfg hM n g (hrn g (by simp)) (hwf g (by simp)) hcut
      simp only [hn, if_false] at e1 e2
      refine ⟨[(cols, (g.filter (fun r => !r.blank)).length)], ?_, ?_, ?_⟩
      · simp [groupTexts, e1]
      · simp [e2]
      · simp
    | cons g' gs =>
      obtain ⟨cols, e1, e2⟩ := parseChunk_rows_of cfg hM n (g ++ [emptyRow]) (by
        intro r hr
        rcases List.mem_append.1 hr with h | h
        · exact hrn g (by simp) r h
        · rw [List.mem_singleton.1 h]; exact (emptyRow_wf cfg.dial).ne) (by
        intro r hr
        rcases List.mem_append.1 hr with h | h
        · exact hwf g (by simp) r h
        · rw [List.mem_singleton.1 h]; exact (emptyRow_wf _).wf) hcut.1
      simp only [hn, if_false, groupCols_snoc] at e1 e2
      have hf : (g ++ [emptyRow]).filter (fun r => !r.blank) = g.filter (fun r => !r.blank) := by
        rw [List.filter_append]; simp [emptyRow, WRow.blank]
      rw [hf, renderFile_snoc _ _ (hne g (by simp))] at e1
      refine ⟨(cols, (g.filter (fun r => !r.blank)).length) :: ps, ?_, ?_, ?_⟩
      · rw [groupTexts, List.length_cons, List.replicate_succ, List.zip_cons_cons, List.mapM_cons]
        simp only [e1, h1]; rfl
      · rw [List.map_cons, h2]; simp [e2]
      · rw [List.map_cons, h3]; simp

/-- Parallel parsing of whole-row chunks. -/
theorem readChunks_groups_of (cfg : ReadCfg) (hM : ReadSane cfg.dial) (n : Nat) (hn : n ≠ 0) (gs : List (List WRow))
    (hne : ∀ g ∈ gs, g ≠ []) (hrn : ∀ g ∈ gs, ∀ r ∈ g, r.fields ≠ []) (hwf : ∀ g ∈ gs, ∀ r ∈ g, ∀ f ∈ r.fields, f.WF cfg.dial)
    (hcut : GroupsWhole cfg gs) :
    ∃ res, readChunks cfg n (groupTexts cfg.dial gs) = some res ∧
      res.chunks.map (fun c => c.map (fun col => col.map Cell.toOption)) = gs.map (groupCols cfg n) ∧
      res.totalRows = (gs.map (fun g => (g.filter (fun r => !r.blank)).length)).sum ∧
      res.rowCount = (analyzeAndLink cfg.cpu cfg.quote (groupTexts cfg.dial gs)).2 := by
  obtain ⟨ps, h1, h2, h3⟩ := mapM_groups_of cfg hM n hn gs hne hrn hwf hcut
  have hq : cfg.quote ≠ 10 ∧ cfg.quote ≠ 13 := by
    constructor
    · have := hM.eol_quote; rw [hM.eol_lf] at this; exact this.symm
    · exact hM.quote_cr
  have hstates : (analyzeAndLink cfg.cpu cfg.quote (groupTexts cfg.dial gs)).1 =
      List.replicate (groupTexts cfg.dial gs).length false := by
    unfold analyzeAndLink
    dsimp only
    rw [linkStates_spec cfg.cpu cfg.quote hq]
    apply states_false
    intro c hc
    obtain ⟨g, hg, hc⟩ := mem_groupTexts cfg.dial gs c hc hne
    rcases hc with h | h
    · rw [h]; exact file_even cfg.dial hM g (fun r hr => hwf g hg r hr)
    · rw [h]
      refine file_even cfg.dial hM _ (fun r hr => ?_)
      rcases List.mem_append.1 hr with h | h
      · exact hwf g hg r h
      · rw [List.mem_singleton.1 h]; exact (emptyRow_wf _).wf
  refine ⟨{ chunks := ps.map Prod.fst, totalRows := (ps.map Prod.snd).sum,
            rowCount := (analyzeAndLink cfg.cpu cfg.quote (groupTexts cfg.dial gs)).2 }, ?_, ?_, ?_, rfl⟩
  · unfold readChunks
    simp only [hstates, h1]; rfl
  · rw [← h2]; simp
  · rw [← h3]

theorem groupsWhole_tame (cfg : ReadCfg) (hM : ReadSane cfg.dial) (gs : List (List WRow)) (hwf : ∀ g ∈ gs, ∀ r ∈ g, r.WF cfg.dial) : GroupsWhole cfg gs := by
  induction gs with
  | nil => trivial
  | cons g gs ih =>
    cases gs with
    | nil => exact cutsWhole_tame cfg hM g (hwf g (by simp))
    | cons h gs =>
      refine ⟨cutsWhole_tame cfg hM _ ?_, ih (fun x hx => hwf x (by simp [List.mem_cons.1 hx]))⟩
      intro r hr
      rcases List.mem_append.1 hr with h | h
      · exact hwf g (by simp) r h
      · rw [List.mem_singleton.1 h]; exact emptyRow_wf _

theorem readChunks_groups (cfg : ReadCfg) (hM : ReadSane cfg.dial) (n : Nat) (hn : n ≠ 0) (gs : List (List WRow))
    (hne : ∀ g ∈ gs, g ≠ []) (hwf : ∀ g ∈ gs, ∀ r ∈ g, r.WF cfg.dial) :
    ∃ res, readChunks cfg n (groupTexts cfg.dial gs) = some res ∧
      res.chunks.map (fun c => c.map (fun col => col.map Cell.toOption)) = gs.map (groupCols cfg n) ∧
      res.totalRows = (gs.map (fun g => (g.filter (fun r => !r.blank)).length)).sum ∧
      res.rowCount = (analyzeAndLink cfg.cpu cfg.quote (groupTexts cfg.dial gs)).2 :=
  readChunks_groups_of cfg hM n hn gs hne (fun g hg r hr => (hwf g hg r hr).ne) (fun g hg r hr => (hwf g hg r hr).wf) (groupsWhole_tame cfg hM gs hwf)

/-! ### Boundaries of flat files -/

/-- No line-end byte inside quotes. -/
def WField.Flat : WField → Prop
  | .plain _ => True
  | .quoted b => (10 : UInt8) ∉ b ∧ (13 : UInt8) ∉ b

theorem field_flat (M : Marks) (hM : ReadSane M) (f : WField) (h : f.WF M) (hf : WField.Flat f) :
    (10 : UInt8) ∉ f.render M.quote ∧ (13 : UInt8) ∉ f.render M.quote := by
  have hl := hM.eol_lf
  have hq10 : (10 : UInt8) ≠ M.quote := by rw [← hl]; exact hM.eol_quote
  have hq13 : (13 : UInt8) ≠ M.quote := hM.quote_cr.symm
  cases f with
  | plain s => exact ⟨by rw [← hl]; exact h.2.2.1, h.2.2.2⟩
  | quoted b =>
    rw [WField.render]
    constructor
    · simp [hq10, mem_escape _ _ _ hq10, hf.1]
    · simp [hq13, mem_escape _ _ _ hq13, hf.2]

theorem mem_joinFields (sep c : UInt8) (fs : List Bytes) (h : c ∈ joinFields sep fs) : c = sep ∨ ∃ f ∈ fs, c ∈ f := by
  induction fs with
  | nil => simp [joinFields] at h
  | cons f fs ih =>
    cases fs with
    | nil => exact Or.inr ⟨f, by simp, h⟩
    | cons g gs =>
      rw [joinFields, List.mem_append, List.mem_cons] at h
      · rcases h with h | h | h
        · exact Or.inr ⟨f, by simp, h⟩
        · exact Or.inl h
        · rcases ih h with h | ⟨x, hx, hx'⟩
          · exact Or.inl h
          · exact Or.inr ⟨x, by simp [List.mem_cons.1 hx], hx'⟩
      · simp

theorem row_flat (M : Marks) (hM : ReadSane M) (r : WRow) (h : r.WF M) (hf : ∀ f ∈ r.fields, WField.Flat f) :
    (10 : UInt8) ∉ r.render M ∧ ∀ k, (r.render M)[k]? = some 13 → k + 1 = (r.render M).length := by
  have hbody : ∀ c, c = 10 ∨ c = 13 → c ∉ joinFields M.sep (r.fields.map (·.render M.quote)) := by
    intro c hc hm
    rcases mem_joinFields _ _ _ hm with h' | ⟨x, hx, hx'⟩
    · rcases hc with hc | hc
      · rw [hc, ← hM.eol_lf] at h'; exact hM.sep_eol h'.symm
      · rw [hc] at h'; exact hM.sep_cr h'.symm
    · obtain ⟨f, hfm, rfl⟩ := List.mem_map.1 hx
      have := field_flat M hM f (h.wf f hfm) (hf f hfm)
      rcases hc with hc | hc
      · rw [hc] at hx'; exact this.1 hx'
      · rw [hc] at hx'; exact this.2 hx'
  unfold WRow.render
  constructor
  · rw [List.mem_append, not_or]
    refine ⟨hbody 10 (Or.inl rfl), ?_⟩
    cases r.crlf <;> simp
  · intro k hk
    by_cases hlt : k < (joinFields M.sep (r.fields.map (·.render M.quote))).length
    · rw [List.getElem?_append_left hlt] at hk
      exact absurd (List.mem_of_getElem? hk) (hbody 13 (Or.inr rfl))
    · rw [List.getElem?_append_right (by omega)] at hk
      cases hcr : r.crlf with
      | false => rw [hcr] at hk; simp at hk
      | true =>
        rw [hcr] at hk
        rw [List.length_append]
        simp only [if_true] at hk ⊢
        have : k - (joinFields M.sep (r.fields.map (·.render M.quote))).length = 0 := by
          rw [List.getElem?_cons] at hk
          split at hk
          · assumption
          · simp at hk
        simp only [List.length_cons, List.length_nil]; omega

/-- A flat file: every row well-formed with no line end inside quotes. -/
def FlatRows (M : Marks) (rows : List WRow) : Prop := ∀ r ∈ rows, r.WF M ∧ ∀ f ∈ r.fields, WField.Flat f

/-- In a flat file every CR is followed by LF or is the last byte. -/
theorem flat_cr (M : Marks) (hM : ReadSane M) (rows : List WRow) (h : FlatRows M rows) (k : Nat)
    (hk : (renderFile M rows)[k]? = some 13) :
    (renderFile M rows)[k + 1]? = some 10 ∨ k + 1 = (renderFile M rows).length := by
  induction rows generalizing k with
  | nil => simp [renderFile, joinFields] at hk
  | cons r rows ih =>
    obtain ⟨h10, h13⟩ := row_flat M hM r (h r (by simp)).1 (h r (by simp)).2
    cases rows with
    | nil =>
      right
      simp only [renderFile, List.map_cons, List.map_nil, joinFields] at hk ⊢
      exact h13 k hk
    | cons a l =>
      have e : renderFile M (r :: a :: l) = r.render M ++ M.eol :: renderFile M (a :: l) := by
        simp [renderFile, joinFields]
      rw [e] at hk ⊢
      by_cases hlt : k < (r.render M).length
      · rw [List.getElem?_append_left hlt] at hk
        left
        rw [h13 k hk, List.getElem?_append_right (by omega), Nat.sub_self]
        simp [hM.eol_lf]
      · rw [List.getElem?_append_right (by omega)] at hk
        obtain ⟨m, hm⟩ : ∃ m, k = (r.render M).length + m := ⟨k - (r.render M).length, by omega⟩
        subst hm
        rw [Nat.add_sub_cancel_left] at hk
        cases m with
        | zero => simp [hM.eol_lf] at hk
        | succ m =>
          rw [List.getElem?_cons_succ] at hk
          rcases ih (fun x hx => h x (by simp [List.mem_cons.1 hx])) m hk with h' | h'
          · left
            rw [List.getElem?_append_right (by omega), show (r.render M).length + (m + 1) + 1 - (r.render M).length = (m + 1) + 1 by omega,
              List.getElem?_cons_succ]
            exact h'
          · right; simp; omega

/-- Cutting a flat file after an LF splits its rows. -/
theorem flat_cut (M : Marks) (hM : ReadSane M) (rows : List WRow) (h : FlatRows M rows) (b : Nat)
    (hb : (renderFile M rows)[b]? = some 10) :
    ∃ A B, rows = A ++ B ∧ A ≠ [] ∧ B ≠ [] ∧ (renderFile M rows).take (b + 1) = renderFile M A ++ [M.eol] ∧
      (renderFile M rows).drop (b + 1) = renderFile M B := by
  induction rows generalizing b with
  | nil => simp [renderFile, joinFields] at hb
  | cons r rows ih =>
    obtain ⟨h10, h13⟩ := row_flat M hM r (h r (by simp)).1 (h r (by simp)).2
    cases rows with
    | nil =>
      simp only [renderFile, List.map_cons, List.map_nil, joinFields] at hb
      exact absurd (List.mem_of_getElem? hb) h10
    | cons a l =>
      have e : renderFile M (r :: a :: l) = r.render M ++ M.eol :: renderFile M (a :: l) := by
        simp [renderFile, joinFields]
      rw [e] at hb ⊢
      by_cases hlt : b < (r.render M).length
      · rw [List.getElem?_append_left hlt] at hb
        exact absurd (List.mem_of_getElem? hb) h10
      · rw [List.getElem?_append_right (by omega)] at hb
        obtain ⟨m, hm⟩ : ∃ m, b = (r.render M).length + m := ⟨b - (r.render M).length, by omega⟩
        subst hm
        rw [Nat.add_sub_cancel_left] at hb
        cases m with
        | zero =>
          refine ⟨[r], a :: l, rfl, by simp, by simp, ?_, ?_⟩
          · rw [Nat.add_zero, List.take_append, List.take_of_length_le (by omega), Nat.add_sub_cancel_left]
            simp [renderFile, joinFields]
          · rw [Nat.add_zero, List.drop_append, List.drop_of_length_le (by omega), Nat.add_sub_cancel_left]
            simp
        | succ m =>
          rw [List.getElem?_cons_succ] at hb
          obtain ⟨A, B, h1, h2, h3, h4, h5⟩ := ih (fun x hx => h x (by simp [List.mem_cons.1 hx])) m hb
          refine ⟨r :: A, B, by rw [h1]; rfl, by simp, h3, ?_, ?_⟩
          · rw [List.take_append, List.take_of_length_le (by omega),
              show (r.render M).length + (m + 1) + 1 - (r.render M).length = (m + 1) + 1 by omega, List.take_succ_cons, h4]
            cases A with
            | nil => exact absurd rfl h2
            | cons x A => simp [renderFile, joinFields]
          · rw [List.drop_append, List.drop_of_length_le (by omega),
              show (r.render M).length + (m + 1) + 1 - (r.render M).length = (m + 1) + 1 by omega, List.drop_succ_cons, h5]
            rfl

theorem unstick_end (rowEnd : Nat → Nat) (size chunkSize fuel target e e' : Nat) (h : ∃ t, e = rowEnd t)
    (hu : unstick rowEnd size chunkSize fuel target e = some e') : ∃ t, e' = rowEnd t := by
  induction fuel generalizing target e with
  | zero => simp [unstick] at hu
  | succ fuel ih =>
    unfold unstick at hu
    split at hu
    · exact ih _ _ ⟨_, rfl⟩ hu
    · obtain ⟨t, ht⟩ := h
      exact ⟨t, by rw [← Option.some.inj hu, ht]⟩

theorem chunkRangesGo_ends (rowEnd : Nat → Nat) (size chunkSize fuel offset : Nat) (rs : List (Nat × Nat))
    (h : chunkRangesGo rowEnd size chunkSize fuel offset = some rs) : ∀ r ∈ rs, r.2 = size ∨ ∃ t, r.2 = rowEnd t := by
  induction fuel generalizing offset rs with
  | zero => simp [chunkRangesGo] at h
  | succ fuel ih =>
    unfold chunkRangesGo at h
    split at h
    · dsimp only at h
      split at h
      · simp at h
      · next ce hce =>
        cases hr : chunkRangesGo rowEnd size chunkSize fuel ce with
        | none => rw [hr] at h; simp at h
        | some rs' =>
          rw [hr] at h
          have : (offset, ce) :: rs' = rs := Option.some.inj h
          subst this
          intro r hmem
          rcases List.mem_cons.1 hmem with hm | hm
          · subst hm
            split at hce
            · left; exact (Option.some.inj hce).symm
            · right; exact unstick_end _ _ _ _ _ _ _ ⟨_, rfl⟩ hce
          · exact ih ce rs' hr r hm
    · have : rs = [] := (Option.some.inj h).symm
      subst this; simp

/-- Chunk texts of a flat file are whole-row groups, whatever the chunk size. -/
theorem flat_slices (M : Marks) (hM : ReadSane M) (file : Bytes) (start : Nat) (rows : List WRow) (hr : rows ≠ [])
    (hflat : FlatRows M rows) (hdata : file.drop start = renderFile M rows) (rs : List (Nat × Nat)) (hrs : rs ≠ [])
    (htiles : Spec.Tiles start file.length rs)
    (hends : ∀ r ∈ rs, r.2 = file.length ∨ (0 < r.2 ∧ file[r.2 - 1]? = some 10)) :
    ∃ gs, rs.map (slice file) = groupTexts M gs ∧ gs.flatten = rows ∧ (∀ g ∈ gs, g ≠ []) := by
  induction rs generalizing start rows with
  | nil => exact absurd rfl hrs
  | cons r rs ih =>
    obtain ⟨h1, h2, h3, h4⟩ := htiles
    subst h1
    have hlast : r.2 = file.length → rs = [] := by
      intro he
      cases rs with
      | nil => rfl
      | cons r' rs' =>
        obtain ⟨g1, g2, g3, _⟩ := h4
        omega
    cases rs with
    | nil =>
      have hend : r.2 = file.length := h4
      refine ⟨[rows], ?_, by simp, by simpa using hr⟩
      simp only [List.map_cons, List.map_nil, groupTexts, slice, hdata, List.cons.injEq, and_true]
      apply List.take_of_length_le
      rw [← hdata, List.length_drop, hend]; exact Nat.le_refl _
    | cons r' rs' =>
      have hne : r.2 ≠ file.length := fun he => by simpa using hlast he
      obtain ⟨hpos, hlf⟩ := (hends r (by simp)).resolve_left hne
      have hb : (renderFile M rows)[r.2 - r.1 - 1]? = some 10 := by
        rw [← hdata, List.getElem?_drop, show r.1 + (r.2 - r.1 - 1) = r.2 - 1 by omega]; exact hlf
      obtain ⟨A, B, e1, e2, e3, e4, e5⟩ := flat_cut M hM rows hflat _ hb
      rw [show r.2 - r.1 - 1 + 1 = r.2 - r.1 by omega] at e4 e5
      have hdrop : file.drop r.2 = renderFile M B := by
        rw [← e5, ← hdata, List.drop_drop]; congr 1; omega
      obtain ⟨gs, g1, g2, g3⟩ := ih r.2 B e3 (fun x hx => hflat x (by rw [e1]; simp [hx])) hdrop (by simp) h4
        (fun x hx => hends x (by simp [List.mem_cons.1 hx]))
      refine ⟨A :: gs, ?_, by rw [List.flatten_cons, g2, e1], ?_⟩
      · rw [List.map_cons, g1]
        cases gs with
        | nil => simp [groupTexts] at g1
        | cons y gs =>
          rw [groupTexts, ← e4]
          simp only [slice, hdata]
      · intro g hg
        rcases List.mem_cons.1 hg with h | h
        · rw [h]; exact e2
        · exact g3 g h

/-- Row-end positions in a flat file are just after an LF. -/
theorem flat_rowEnd (cfg : ReadCfg) (hM : ReadSane cfg.dial) (file : Bytes) (start : Nat) (rows : List WRow)
    (hflat : FlatRows cfg.dial rows) (hdata : file.drop start = renderFile cfg.dial rows) (t e : Nat)
    (hst : start < e) (he : e = findRowEnd cfg.cpu cfg.quote file t) :
    e = file.length ∨ (0 < e ∧ file[e - 1]? = some 10) := by
  have hq : cfg.quote ≠ 10 ∧ cfg.quote ≠ 13 := by
    constructor
    · have := hM.eol_quote; rw [hM.eol_lf] at this; exact this.symm
    · exact hM.quote_cr
  have hspec := C03_find_row_end cfg.cpu cfg.quote hq file t
  rw [← he] at hspec
  rcases hspec with ⟨i, h1, _, h3⟩ | ⟨_, h2⟩
  · unfold isRowEnd at h1
    rw [Bool.and_eq_true, Bool.or_eq_true, Bool.and_eq_true] at h1
    obtain ⟨_, h1⟩ := h1
    rw [List.getElem?_drop, List.getElem?_drop] at h1
    rcases h1 with h1 | ⟨h1, h1'⟩
    · right
      refine ⟨by omega, ?_⟩
      rw [h3, Nat.add_sub_cancel]; exact eq_of_beq h1
    · left
      have h13 : file[t + i]? = some 13 := eq_of_beq h1
      have hk : (renderFile cfg.dial rows)[t + i - start]? = some 13 := by
        rw [← hdata, List.getElem?_drop, show start + (t + i - start) = t + i by omega]; exact h13
      rcases flat_cr cfg.dial hM rows hflat _ hk with h | h
      · exfalso
        rw [← hdata, List.getElem?_drop, show start + (t + i - start + 1) = t + (i + 1) by omega] at h
        rw [h] at h1'; simp at h1'
      · rw [← hdata, List.length_drop] at h
        have : t + i < file.length := by
          by_contra hge
          rw [List.getElem?_eq_none (by omega)] at h13; simp at h13
        omega
  · exact Or.inl h2

end Vroom
