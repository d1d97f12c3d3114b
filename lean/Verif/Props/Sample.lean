import Verif.Spec.Sample
import Verif.Spec.QuoteAll
import Verif.Props.QuoteAll
import Verif.Props.Inference
import Verif.Props.Open
/- C18: the types inferred for any written file, quoted fields included. -/
namespace Vroom
open Spec

theorem sampleRow_plain (sep q : UInt8) (s : Bytes) (h1 : sep ∉ s) (h2 : q ∉ s) (h3 : (10 : UInt8) ∉ s) (h4 : (13 : UInt8) ∉ s)
    (hs : List Bytes) (rest : Bytes) : ∀ cur,
    sampleRow sep q false cur hs (s ++ rest) = sampleRow sep q false (if cur = [] then trimStart s else cur ++ s) hs rest := by
  induction s with
  | nil => intro cur; by_cases h : cur = [] <;> simp [h, trimStart]
  | cons c s ih =>
    intro cur
    simp only [List.mem_cons, not_or] at h1 h2 h3 h4
    have ih := ih h1.2 h2.2 h3.2 h4.2
    rw [List.cons_append, sampleRow.eq_def]
    dsimp only
    rw [if_neg (by rintro (h | h); exact h3.1 h.symm; exact h4.1 h.symm), if_neg (Ne.symm h2.1),
      if_neg (by rintro ⟨h, -⟩; exact h1.1 h.symm)]
    by_cases hc : cur = []
    · subst hc
      by_cases hb : c = 32 ∨ c = 9
      · rw [if_pos ⟨rfl, rfl, hb⟩, ih, if_pos rfl, if_pos rfl]
        congr 1
        unfold trimStart
        rw [List.dropWhile_cons_of_pos]
        rcases hb with h | h <;> simp [blank, h]
      · rw [if_neg (by rintro ⟨-, -, h⟩; exact hb h), ih, if_neg (by simp), if_pos rfl]
        congr 1
        unfold trimStart
        rw [List.dropWhile_cons_of_neg]
        · rfl
        · simpa [blank] using hb
    · rw [if_neg (by rintro ⟨h, -⟩; exact hc h), ih, if_neg (by simp), if_neg hc]
      simp

/-- A text in quotes without line end. -/
theorem sampleRow_quoted (sep q : UInt8) (hq : q ≠ 10 ∧ q ≠ 13) (b : Bytes) (h3 : (10 : UInt8) ∉ b) (h4 : (13 : UInt8) ∉ b) (hs : List Bytes) (rest : Bytes)
    (hr : rest.head? ≠ some q) : ∀ cur,
    sampleRow sep q true cur hs (escape q b ++ q :: rest) = sampleRow sep q false (cur ++ b) hs rest := by
  have hqe : ¬ (q = LF ∨ q = CR) := by rintro (h | h); exact hq.1 h; exact hq.2 h
  induction b with
  | nil =>
    intro cur
    rw [escape, List.nil_append, sampleRow.eq_def]
    dsimp only
    rw [if_neg hqe, if_pos rfl]
    cases rest with
    | nil => simp
    | cons d r =>
      dsimp only
      rw [if_neg (by rintro ⟨-, h⟩; exact hr (by rw [h]; rfl))]
      simp
  | cons c b ih =>
    intro cur
    simp only [List.mem_cons, not_or] at h3 h4
    have ih := ih h3.2 h4.2
    by_cases hc : c = q
    · subst hc
      rw [escape, if_pos rfl, List.cons_append, List.cons_append, sampleRow.eq_def]
      dsimp only
      rw [if_neg hqe, if_pos rfl, if_pos ⟨rfl, rfl⟩, ih]
      simp
    · rw [escape, if_neg hc, List.cons_append, sampleRow.eq_def]
      dsimp only
      rw [if_neg (by rintro (h | h); exact h3.1 h.symm; exact h4.1 h.symm), if_neg hc, if_neg (by simp), if_neg (by simp), ih]
      simp

/-- A text in quotes with a line end: the row ends there. -/
theorem sampleRow_cut (sep q : UInt8) (hq : q ≠ 10 ∧ q ≠ 13) (b : Bytes) (h : (10 : UInt8) ∈ b ∨ (13 : UInt8) ∈ b) (hs : List Bytes) (rest : Bytes) : ∀ cur,
    sampleRow sep q true cur hs (escape q b ++ rest) = hs ++ [trimRight (cur ++ b.takeWhile (fun c => c ≠ 10 && c ≠ 13))] := by
  have hqe : ¬ (q = LF ∨ q = CR) := by rintro (h | h); exact hq.1 h; exact hq.2 h
  induction b with
  | nil => simp at h
  | cons c b ih =>
    intro cur
    by_cases hl : c = 10 ∨ c = 13
    · have hc : c ≠ q := by rintro rfl; rcases hl with h | h; exact hq.1 h; exact hq.2 h
      rw [escape, if_neg hc, List.cons_append, sampleRow.eq_def]
      dsimp only
      rw [if_pos hl, List.takeWhile_cons_of_neg (by rcases hl with h | h <;> simp [h]), List.append_nil]
    · rw [not_or] at hl
      have ih := ih (by
        simp only [List.mem_cons] at h
        rcases h with (h | h) | (h | h)
        · exact absurd h.symm hl.1
        · exact .inl h
        · exact absurd h.symm hl.2
        · exact .inr h)
      rw [List.takeWhile_cons_of_pos (by simp [hl.1, hl.2])]
      by_cases hc : c = q
      · subst hc
        rw [escape, if_pos rfl, List.cons_append, List.cons_append, sampleRow.eq_def]
        dsimp only
        rw [if_neg hqe, if_pos rfl, if_pos ⟨rfl, rfl⟩, ih]
        simp
      · rw [escape, if_neg hc, List.cons_append, sampleRow.eq_def]
        dsimp only
        rw [if_neg (by rintro (h | h); exact hl.1 h; exact hl.2 h), if_neg hc, if_neg (by simp), if_neg (by simp), ih]
        simp

theorem sampleRow_open (sep q : UInt8) (hq : q ≠ 10 ∧ q ≠ 13) (hs : List Bytes) (d : UInt8) (r : Bytes) :
    sampleRow sep q false [] hs (q :: d :: r) = sampleRow sep q true [] hs (d :: r) := by
  rw [sampleRow.eq_def]
  dsimp only
  rw [if_neg (by rintro (h | h); exact hq.1 h; exact hq.2 h), if_pos rfl, if_neg (by simp)]
  rfl

/-- A whole written row followed by a line end. -/
theorem sampleRow_row (M : Marks) (hM : ReadSane M) (fs : List WField) (hne : fs ≠ []) (hf : ∀ f ∈ fs, f.WF M) (e : UInt8)
    (he : e = 10 ∨ e = 13) (rest : Bytes) : ∀ hs,
    sampleRow M.sep M.quote false [] hs (joinFields M.sep (fs.map (·.render M.quote)) ++ e :: rest) = hs ++ sampledCells fs := by
  have hq : M.quote ≠ 10 ∧ M.quote ≠ 13 := ⟨by rw [← hM.eol_lf]; exact hM.eol_quote.symm, hM.quote_cr⟩
  have heq : e ≠ M.quote := by
    rcases he with h | h <;> subst h
    · exact hq.1.symm
    · exact hq.2.symm
  have hsep : ¬ (M.sep = LF ∨ M.sep = CR) := by
    rintro (h | h)
    · exact hM.sep_eol (by rw [hM.eol_lf]; exact h)
    · exact hM.sep_cr h
  induction fs with
  | nil => exact absurd rfl hne
  | cons f fs ih =>
    intro hs
    obtain ⟨u, hu, hU⟩ : ∃ u, joinFields M.sep ((f :: fs).map (·.render M.quote)) ++ e :: rest = f.render M.quote ++ u ∧
        ((fs = [] ∧ u = e :: rest) ∨ (fs ≠ [] ∧ u = M.sep :: (joinFields M.sep (fs.map (·.render M.quote)) ++ e :: rest))) := by
      cases fs with
      | nil => exact ⟨e :: rest, rfl, .inl ⟨rfl, rfl⟩⟩
      | cons g gs => exact ⟨_, by simp [joinFields], .inr ⟨by simp, rfl⟩⟩
    rw [hu]
    have huq : u.head? ≠ some M.quote := by
      rcases hU with ⟨-, rfl⟩ | ⟨-, rfl⟩
      · simpa using heq
      · simpa using hM.sep_quote
    have hfin : ∀ cur, sampleRow M.sep M.quote false cur hs u = hs ++ trimRight cur :: sampledCells fs := by
      intro cur
      rcases hU with ⟨rfl, rfl⟩ | ⟨hfs, rfl⟩
      · rw [sampleRow.eq_def]
        dsimp only
        rw [if_pos he]; rfl
      · rw [sampleRow.eq_def]
        dsimp only
        rw [if_neg hsep, if_neg hM.sep_quote, if_pos ⟨rfl, rfl⟩, ih hfs (fun x hx => hf x (List.mem_cons_of_mem _ hx))]
        simp
    cases f with
    | plain s =>
      obtain ⟨h1, h2, h3, h4⟩ := hf (.plain s) (by simp)
      rw [hM.eol_lf] at h3
      rw [WField.render, sampleRow_plain _ _ s h1 h2 h3 h4, if_pos rfl, hfin]; rfl
    | quoted b =>
      have hx : ∃ d r, escape M.quote b ++ M.quote :: u = d :: r := by
        cases hx : escape M.quote b ++ M.quote :: u with
        | nil => simp at hx
        | cons d r => exact ⟨d, r, rfl⟩
      obtain ⟨d, r, hx⟩ := hx
      have e1 : (WField.quoted b).render M.quote ++ u = M.quote :: (escape M.quote b ++ M.quote :: u) := by simp [WField.render]
      rw [e1, hx, sampleRow_open _ _ hq, ← hx, sampledCells]
      by_cases hb : (10 : UInt8) ∈ b ∨ (13 : UInt8) ∈ b
      · rw [if_pos hb, sampleRow_cut _ _ hq b hb]; rfl
      · rw [if_neg hb]
        rw [not_or] at hb
        rw [sampleRow_quoted _ _ hq b hb.1 hb.2 hs u huq, List.nil_append, hfin]; rfl

/-- Written lines, each ended by LF. -/
def linesText (M : Marks) (rows : List WRow) : Bytes := rows.flatMap (fun r => r.render M ++ [10])

theorem linesText_render (M : Marks) (h10 : M.eol = 10) (rows : List WRow) : renderFile M (rows ++ [emptyRow]) = linesText M rows := by
  induction rows with
  | nil => simp [linesText, renderFile, emptyRow, WRow.render, joinFields, WField.render]
  | cons l lines ih =>
    rw [List.cons_append, renderFile_cons _ _ _ (by simp), ih, h10]
    simp [linesText]

theorem rowEnd_at (cpu : Cpu) (M : Marks) (hM : ReadSane M) (r : WRow) (h : ∀ f ∈ r.fields, f.WF M) (pre t : Bytes) :
    findRowEnd cpu M.quote (pre ++ (r.render M ++ 10 :: t)) pre.length = pre.length + ((r.render M).length + 1) := by
  have hq : M.quote ≠ 10 ∧ M.quote ≠ 13 := ⟨by rw [← hM.eol_lf]; exact hM.eol_quote.symm, hM.quote_cr⟩
  have h0 := findRowEnd_row cpu M hM r h t
  rw [findRowEnd_eq cpu _ hq, List.drop_zero] at h0
  rw [findRowEnd_eq cpu _ hq, List.drop_left' rfl]
  unfold firstEnd at *
  cases hE : (rowEnds M.quote false (r.render M ++ 10 :: t)).head? with
  | none =>
    rw [hE] at h0
    simp only [Option.map_none, Option.getD_none, List.length_append, List.length_cons] at h0 ⊢
    omega
  | some i =>
    rw [hE] at h0
    simp only [Option.map_some, Option.getD_some] at h0 ⊢
    omega

theorem sampleRow_line (M : Marks) (hM : ReadSane M) (r : WRow) (hne : r.fields ≠ []) (hf : ∀ f ∈ r.fields, f.WF M) :
    sampleRow M.sep M.quote false [] [] (r.render M ++ [10]) = sampledCells r.fields := by
  unfold WRow.render
  cases r.crlf with
  | true =>
    have := sampleRow_row M hM r.fields hne hf 13 (.inr rfl) [10] []
    simpa using this
  | false =>
    have := sampleRow_row M hM r.fields hne hf 10 (.inl rfl) [] []
    simpa using this

theorem sampleLoop_written (cfg : InferCfg) (hM : ReadSane cfg.marks) (maxRows : Nat) (rows : List WRow) (hne : ∀ r ∈ rows, r.fields ≠ [])
    (hwf : ∀ r ∈ rows, ∀ f ∈ r.fields, f.WF cfg.marks) (pre : Bytes) (fuel k : Nat) (types : List DataType) (hf : rows.length < fuel) :
    sampleLoop cfg (pre ++ linesText cfg.marks rows) maxRows fuel pre.length k types =
      ((rows.take (maxRows - k)).map (fun r => sampledCells r.fields)).foldl (updateTypes cfg) types := by
  induction rows generalizing pre fuel k types with
  | nil =>
    cases fuel with
    | zero => simp at hf
    | succ fuel => simp [sampleLoop, linesText]
  | cons r rows ih =>
    cases fuel with
    | zero => simp at hf
    | succ fuel =>
      have htext : linesText cfg.marks (r :: rows) = r.render cfg.marks ++ 10 :: linesText cfg.marks rows := by simp [linesText]
      unfold sampleLoop
      by_cases hk : k < maxRows
      · rw [if_pos ⟨by simp [htext], hk⟩]
        have hre : findRowEnd cfg.cpu cfg.quote (pre ++ linesText cfg.marks (r :: rows)) pre.length = pre.length + ((r.render cfg.marks).length + 1) := by
          rw [htext]; exact rowEnd_at cfg.cpu cfg.marks hM r (hwf r (by simp)) pre _
        simp only [hre]
        rw [if_neg (by omega)]
        have hslice : ((pre ++ linesText cfg.marks (r :: rows)).drop pre.length).take (pre.length + ((r.render cfg.marks).length + 1) - pre.length) =
            r.render cfg.marks ++ [10] := by
          rw [List.drop_left' rfl, Nat.add_sub_cancel_left, htext, show r.render cfg.marks ++ 10 :: linesText cfg.marks rows =
            (r.render cfg.marks ++ [10]) ++ linesText cfg.marks rows by simp, List.take_left' (by simp)]
        rw [hslice]
        have hsr := sampleRow_line cfg.marks hM r (hne r (by simp)) (hwf r (by simp))
        have hsr' : sampleRow cfg.sep cfg.quote false [] [] (r.render cfg.marks ++ [10]) = sampledCells r.fields := hsr
        rw [hsr']
        have := ih (fun x hx => hne x (by simp [hx])) (fun x hx => hwf x (by simp [hx])) (pre ++ (r.render cfg.marks ++ [10])) fuel (k + 1)
          (updateTypes cfg types (sampledCells r.fields)) (by simp at hf; omega)
        have hl : (pre ++ (r.render cfg.marks ++ [10])).length = pre.length + ((r.render cfg.marks).length + 1) := by simp
        have ht : pre ++ linesText cfg.marks (r :: rows) = pre ++ (r.render cfg.marks ++ [10]) ++ linesText cfg.marks rows := by rw [htext]; simp
        rw [hl, ← ht] at this
        rw [this, show maxRows - k = (maxRows - (k + 1)) + 1 by omega]
        simp
      · rw [if_neg (by tauto), show maxRows - k = 0 by omega]
        simp

theorem linesText_length (M : Marks) (rows : List WRow) : rows.length ≤ (linesText M rows).length := by
  induction rows with
  | nil => simp
  | cons r rows ih =>
    have : linesText M (r :: rows) = (r.render M ++ [10]) ++ linesText M rows := by simp [linesText]
    rw [this]; simp; omega

/-- **C18** The types inferred for any written file with a header line, quoted fields with any content included, LF or CRLF line ends, the last line ended by LF: column `j` gets the type of
the cells the sampling sees in rows 2 to `maxRows + 1` (the first data row is not sampled).  A quoted line end hides the rest of its row from the sampling. -/
theorem C18_written (cfg : InferCfg) (hh : cfg.hasHeader = true) (hM : ReadSane cfg.marks) (hdr first : WRow) (rows : List WRow)
    (hne : ∀ r ∈ hdr :: first :: rows, r.fields ≠ []) (hwf : ∀ r ∈ hdr :: first :: rows, ∀ f ∈ r.fields, f.WF cfg.marks)
    (n maxRows : Nat) (hn : n ≠ 0) (data : List UInt8) (hdata : data = renderFile cfg.marks (hdr :: first :: rows ++ [emptyRow])) :
    openInfer cfg data n maxRows = (List.range n).map (columnType cfg ((rows.take maxRows).map (fun r => sampledCells r.fields))) := by
  rw [linesText_render _ hM.eol_lf] at hdata
  subst hdata
  have e1 : linesText cfg.marks (hdr :: first :: rows) = hdr.render cfg.marks ++ 10 :: linesText cfg.marks (first :: rows) := by simp [linesText]
  have e2 : linesText cfg.marks (first :: rows) = first.render cfg.marks ++ 10 :: linesText cfg.marks rows := by simp [linesText]
  unfold openInfer
  simp only [hh, if_true]
  have r1 : findRowEnd cfg.cpu cfg.quote (linesText cfg.marks (hdr :: first :: rows)) 0 = (hdr.render cfg.marks ++ [10]).length := by
    rw [e1]
    have := findRowEnd_row cfg.cpu cfg.marks hM hdr (hwf hdr (by simp)) (linesText cfg.marks (first :: rows))
    rw [List.length_append]; exact this
  rw [r1]
  have d1 : (linesText cfg.marks (hdr :: first :: rows)).drop (hdr.render cfg.marks ++ [10]).length = linesText cfg.marks (first :: rows) := by
    rw [e1, show hdr.render cfg.marks ++ 10 :: linesText cfg.marks (first :: rows) = (hdr.render cfg.marks ++ [10]) ++ linesText cfg.marks (first :: rows) by simp,
      List.drop_left' rfl]
  rw [d1]
  unfold inferFromSample
  have hlen := linesText_length cfg.marks (first :: rows)
  simp only [List.length_cons] at hlen
  rw [if_neg (by omega)]
  simp only [hh, if_true]
  have r2 : findRowEnd cfg.cpu cfg.quote (linesText cfg.marks (first :: rows)) 0 = (first.render cfg.marks ++ [10]).length := by
    rw [e2]
    have := findRowEnd_row cfg.cpu cfg.marks hM first (hwf first (by simp)) (linesText cfg.marks rows)
    rw [List.length_append]; exact this
  rw [r2]
  have := sampleLoop_written cfg hM maxRows rows (fun x hx => hne x (by simp [hx])) (fun x hx => hwf x (by simp [hx])) (first.render cfg.marks ++ [10])
    ((linesText cfg.marks (first :: rows)).length + 1) 0 (List.replicate n .unknown) (by omega)
  rw [show first.render cfg.marks ++ [10] ++ linesText cfg.marks rows = linesText cfg.marks (first :: rows) by rw [e2]; simp] at this
  rw [this, Nat.sub_zero, finish_types]

/-- **C18** … and without a header line: rows 1 to `maxRows`. -/
theorem C18_written_no_header (cfg : InferCfg) (hh : cfg.hasHeader = false) (hM : ReadSane cfg.marks) (rows : List WRow) (hr : rows ≠ [])
    (hne : ∀ r ∈ rows, r.fields ≠ []) (hwf : ∀ r ∈ rows, ∀ f ∈ r.fields, f.WF cfg.marks)
    (n maxRows : Nat) (hn : n ≠ 0) (data : List UInt8) (hdata : data = renderFile cfg.marks (rows ++ [emptyRow])) :
    openInfer cfg data n maxRows = (List.range n).map (columnType cfg ((rows.take maxRows).map (fun r => sampledCells r.fields))) := by
  rw [linesText_render _ hM.eol_lf] at hdata
  subst hdata
  unfold openInfer inferFromSample
  have hlen := linesText_length cfg.marks rows
  have : rows.length ≠ 0 := by simpa using hr
  simp only [hh, Bool.false_eq_true, if_false, List.drop_zero]
  rw [if_neg (by omega)]
  have := sampleLoop_written cfg hM maxRows rows hne hwf [] ((linesText cfg.marks rows).length + 1) 0 (List.replicate n .unknown) (by omega)
  simp only [List.nil_append, List.length_nil, Nat.sub_zero] at this
  rw [this, finish_types]

/-- **C18** Quoting does not change the types: bare and quoted spellings of the same texts (without line ends; blanks only inside) give the same sample. -/
theorem C18_quoting_irrelevant (f : WField) (s : List UInt8) (hf : f = .plain s ∨ f = .quoted s) (h10 : (10 : UInt8) ∉ s) (h13 : (13 : UInt8) ∉ s)
    (hb : s.head? ≠ some 32 ∧ s.head? ≠ some 9) (fs : List WField) : sampledCells (f :: fs) = trimEnd s :: sampledCells fs := by
  rcases hf with rfl | rfl
  · rw [sampledCells]
    congr 2
    cases s with
    | nil => rfl
    | cons c s =>
      unfold trimStart
      rw [List.dropWhile_cons_of_neg]
      simp at hb
      simp [blank, hb.1, hb.2]
  · rw [sampledCells, if_neg (by rintro (h | h); exact h10 h; exact h13 h)]

/-- **C18** A file with every value in quotes (no line ends in the values): column `j` gets the type of the values of rows 2 to `maxRows + 1` without their trailing blanks. -/
theorem C18_quote_all (cfg : InferCfg) (hh : cfg.hasHeader = true) (hM : ReadSane cfg.marks) (names first : List (List UInt8)) (rows : List (List (List UInt8)))
    (hne : ∀ r ∈ names :: first :: rows, r ≠ []) (hflat : ∀ r ∈ rows, ∀ v ∈ r, (10 : UInt8) ∉ v ∧ (13 : UInt8) ∉ v) (n maxRows : Nat) (hn : n ≠ 0) :
    openInfer cfg (quoteAll cfg.marks (names :: first :: rows)) n maxRows =
      (List.range n).map (columnType cfg ((rows.take maxRows).map (fun r => r.map trimEnd))) := by
  have hwf := quoteAll_rows_wf cfg.marks _ hne
  rw [C18_written cfg hh hM (quotedRow names) (quotedRow first) (rows.map quotedRow)
    (fun r hr => (hwf r (by rw [List.map_cons, List.map_cons]; exact List.mem_append_left _ hr)).ne)
    (fun r hr => (hwf r (by rw [List.map_cons, List.map_cons]; exact List.mem_append_left _ hr)).wf) n maxRows hn _
    (by rw [quoteAll_render _ hM.eol_lf, List.map_cons, List.map_cons])]
  congr 1
  have key : ∀ vs : List (List UInt8), (∀ v ∈ vs, (10 : UInt8) ∉ v ∧ (13 : UInt8) ∉ v) → sampledCells (vs.map .quoted) = vs.map trimEnd := by
    intro vs h
    induction vs with
    | nil => rfl
    | cons v vs ih =>
      have hv := h v (by simp)
      rw [List.map_cons, sampledCells, if_neg (by rintro (h | h); exact hv.1 h; exact hv.2 h), ih (fun x hx => h x (by simp [hx]))]
      rfl
  rw [← List.map_take, List.map_map]
  congr 1
  refine List.map_congr_left fun r hr => ?_
  exact key r (hflat r (List.mem_of_mem_take hr))

/-- Non-vacuity of `C18_written`, `C18_quote_all`: quoted integers are inferred as such. -/
example : openInfer (defaultInfer fun _ => false) (quoteAll (defaultInfer fun _ => false).marks [[[97], [98]], [[120], [121]], [[49, 50], [44, 34]], [[45, 51, 32], []]]) 2 100 = [.int32, .string] := by
  decide +kernel

/-- A line end in quotes hides the later columns of its row: the text in the second column is not sampled, the column becomes INT32 and the text is lost. -/
theorem C18_hidden_by_line_end :
    let rows : List WRow := [⟨[.plain [104], .plain [107]], false⟩, ⟨[.plain [120], .plain [49]], false⟩, ⟨[.quoted [120, 10, 121], .plain [97]], false⟩, ⟨[.plain [122], .plain [50]], false⟩]
    openInfer (defaultInfer fun _ => false) (renderFile (defaultInfer fun _ => false).marks (rows ++ [emptyRow])) 2 100 = [.string, .int32] ∧
    storeText 32 (fun _ => false) .int32 [97] = .null := by decide +kernel

end Vroom
