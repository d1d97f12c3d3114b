import Verif.Lemmas.ReaderCuts
import Mathlib.Data.List.Basic
/-
C07, C08, C09, C12, C13, C14: reading CSV data into columns.
-/
namespace Vroom
open Spec

/-! ### C12: the streaming field iterator -/

/-- C12, for every input whatsoever: the iterator stops, never reads outside the buffer (the model
returns `none` for undefined behaviour), and it loses nothing: the fields joined by separators are
exactly the bytes consumed, up to a line end or the end of the buffer.  A non-empty field is
flagged as quoted exactly when it starts with the quote byte. -/
theorem C12_no_loss (cpu : Cpu) (D : Marks) (junk : Bool) (data : List UInt8) :
    ∃ fs tail, splitRow cpu D junk data = some (fs, tail) ∧ fs ≠ [] ∧
      (data = joinFields D.sep (fs.map Prod.fst) ++ D.eol :: tail ∨
        (data = joinFields D.sep (fs.map Prod.fst) ∧ tail = [])) ∧
      (∀ fn ∈ fs, fn.1 ≠ [] → fn.2 = (decide (D.quote ≠ 0) && fn.1.head? == some D.quote)) :=
  collect_total cpu D _ { rest := data } junk false rfl (CacheOK.zero _ _) (Nat.le_refl _)

/-- The full C12: every row of well-formed raw fields is cut into exactly these fields, wherever it
stands in the buffer. -/
def C12_full : Prop :=
  ∀ (cpu : Cpu) (D : Marks), D.Sane → ∀ (junk : Bool) (fs : List (List UInt8)) (t : List UInt8), fs ≠ [] →
    (∀ f ∈ fs, RawField D f) → (t = [] ∨ t.head? = some D.eol) →
    ∃ out, splitRow cpu D junk (joinFields D.sep fs ++ t) = some (out, t.drop 1) ∧ out.map Prod.fst = fs

/-- C12, proved part: it holds when at most 64 bytes remain, or when no quoted field containing a
separator or line end comes after an unquoted field of the same row.  Missing: rows that violate
this (see `C12_full_fails`: the code gets them wrong). -/
theorem C12_rows_partial (cpu : Cpu) (D : Marks) (hD : D.Sane) (junk : Bool) (fs : List (List UInt8))
    (t : List UInt8) (hfs : fs ≠ []) (hraw : ∀ f ∈ fs, RawField D f) (ht : t = [] ∨ t.head? = some D.eol)
    (hgood : (joinFields D.sep fs ++ t).length ≤ 64 ∨ QuotedSepsFirst D fs) :
    ∃ out, splitRow cpu D junk (joinFields D.sep fs ++ t) = some (out, t.drop 1) ∧ out.map Prod.fst = fs :=
  collect_row cpu D hD fs hfs t ht hraw _ { rest := joinFields D.sep fs ++ t } junk false rfl (CacheOK.zero _ _) rfl
    (Or.inl ⟨rfl, hgood⟩) (Nat.le_refl _)

/-- The usual marks. -/
def csvMarks : Marks := { sep := 44, quote := 34, eol := 10 }

theorem csvMarks_sane : csvMarks.Sane := ⟨by decide, by decide, by decide, by decide⟩

/-- Row `1,"a,b"`: cut into two fields in a short buffer, into three in a longer one. -/
theorem C12_full_fails : ¬ C12_full := by
  intro h
  obtain ⟨out, h1, h2⟩ := h cpu32 csvMarks csvMarks_sane false [[49], [34, 97, 44, 98, 34]]
    (10 :: List.replicate 64 97) (by simp)
    (by
      intro f hf
      simp only [List.mem_cons, List.not_mem_nil, or_false] at hf
      rcases hf with h | h <;> subst h
      · left; simp [PlainField, csvMarks]
      · right
        refine ⟨rfl, rfl, ?_⟩
        intro k c hk hc
        match k with
        | 0 | 1 | 2 | 3 | 4 => revert hc; simp at hk; subst hk; decide
        | k + 5 => simp at hk)
    (Or.inr rfl)
  have : splitRow cpu32 csvMarks false (joinFields csvMarks.sep [[49], [34, 97, 44, 98, 34]] ++ 10 :: List.replicate 64 97) =
      some ([([49], false), ([34, 97], true), ([98, 34], false)], List.replicate 64 97) := by decide +kernel
  rw [this] at h1
  have h3 := congrArg (Option.map (fun p => p.1.map Prod.fst)) h1
  simp only [Option.map_some, h2] at h3
  exact absurd h3 (by decide)

/-- Non-vacuity: a quoted field with separator and newline, then an unquoted one, more than 64 bytes. -/
example : ∃ out, splitRow cpu32 csvMarks true
    (joinFields 44 [34 :: List.replicate 70 10 ++ [44, 34], [98]] ++ 10 :: [99]) = some (out, [99]) ∧
    out.map Prod.fst = [34 :: List.replicate 70 10 ++ [44, 34], [98]] := by
  refine ⟨[(34 :: List.replicate 70 10 ++ [44, 34], true), ([98], false)], by decide +kernel, rfl⟩

/-! ### C14: null detection -/

/-- C14: a raw field (after removal of a trailing CR) is null exactly when it is empty or one of the
comma-separated spellings. -/
theorem C14_null_iff_member (nullValues v : List UInt8) :
    (NullChecker.mk' nullValues).isNull v = true ↔ v = [] ∨ v ∈ commaPieces nullValues :=
  isNull_iff nullValues v

/-- C14: the default list "NA,null,NULL,". -/
example : (NullChecker.mk' [78, 65, 44, 110, 117, 108, 108, 44, 78, 85, 76, 76, 44]).isNull [78, 65] = true ∧
    (NullChecker.mk' [78, 65, 44, 110, 117, 108, 108, 44, 78, 85, 76, 76, 44]).isNull [78] = false := by
  decide +kernel

/-- C14 at the cell level: a field is delivered as null exactly when its text (without a trailing CR)
is one of the null spellings, quoted fields being compared with their quotes. -/
theorem C14_cell_null (cfg : ReadCfg) (f : List UInt8) (needs : Bool) :
    cellOf cfg.nc cfg.quote f needs = .null ↔
      (stripCR f = [] ∨ stripCR f ∈ commaPieces cfg.nullValues) := by
  rw [← C14_null_iff_member]
  unfold cellOf
  change _ ↔ cfg.nc.isNull (stripCR f) = true
  dsimp only
  by_cases h : cfg.nc.isNull (stripCR f) = true
  · rw [if_pos h]; simp [h]
  · rw [if_neg h]
    simp only [h]
    split <;> simp

/-! ### C13: written values read back -/

/-- Un-doubling undoes doubling, for all bytes. -/
theorem C13_unescape_escape (q : UInt8) (b : List UInt8) : unescapeQuotes (escape q b) q = b := unescape_escape q b

/-- Columns of a read result, chunks concatenated. -/
def wholeCols (n : Nat) (res : ReadResult) : List (List Cell) :=
  (List.range n).map (fun j => (res.chunks.map (fun c => c.getD j [])).flatten)

/-- The table a list of written rows denotes: one column per `j < n`, blank lines carry no row. -/
def Spec.tableOf (q : UInt8) (nulls : List (List UInt8)) (n : Nat) (rows : List WRow) : List (List (Option (List UInt8))) :=
  (List.range n).map (fun j => (rows.filter (fun r => !r.blank)).map (fun r => r.valueAt q nulls j))

theorem readSerial_rows (cfg : ReadCfg) (hM : ReadSane cfg.dial) (n : Nat) (hn : n ≠ 0) (rows : List WRow)
    (hwf : ∀ r ∈ rows, r.WF cfg.dial) :
    ∃ res cols, readSerial cfg n (renderFile cfg.dial rows) = some res ∧ res.chunks = [cols] ∧
      cols.map (fun col => col.map Cell.toOption) = groupCols cfg n rows ∧
      res.totalRows = (rows.filter (fun r => !r.blank)).length ∧ res.rowCount = res.totalRows := by
  unfold readSerial
  rw [if_neg hn]
  obtain ⟨rs, h1, h2⟩ := rawRows_file cfg hM rows hwf _ (Nat.le_refl _)
  rw [parseRows_spec, h1]
  refine ⟨_, _, rfl, rfl, cols_of_rows cfg n rs rows h2, ?_, rfl⟩
  have h0 : 0 < n := Nat.pos_of_ne_zero hn
  simp [List.getElem?_mapIdx, List.getElem?_replicate, h0, rows_match_length cfg _ _ h2]

theorem wholeCols_of_groups (n : Nat) (chunks : List Cols) (t k : Nat)
    (gs : List (List (List (Option (List UInt8)))))
    (h : chunks.map (fun c => c.map (fun col => col.map Cell.toOption)) = gs) :
    (wholeCols n { chunks := chunks, totalRows := t, rowCount := k }).map (fun col => col.map Cell.toOption) =
      (List.range n).map (fun j => (gs.map (fun g => g.getD j [])).flatten) := by
  subst h
  unfold wholeCols
  rw [List.map_map]
  apply List.map_congr_left
  intro j _
  simp only [Function.comp, List.map_flatten, List.map_map]
  congr 1
  apply List.map_congr_left
  intro c _
  simp only [Function.comp, List.getD_eq_getElem?_getD, List.getElem?_map]
  cases c[j]? <;> rfl

theorem groupCols_getD (cfg : ReadCfg) (n j : Nat) (hj : j < n) (g : List WRow) :
    (groupCols cfg n g).getD j [] =
      (g.filter (fun r => !r.blank)).map (fun r => r.valueAt cfg.quote (commaPieces cfg.nullValues) j) := by
  unfold groupCols
  simp [List.getD_eq_getElem?_getD, hj]

/-- Grouping rows does not change the table. -/
theorem tableOf_groups (cfg : ReadCfg) (n : Nat) (gs : List (List WRow)) :
    (List.range n).map (fun j => ((gs.map (groupCols cfg n)).map (fun g => g.getD j [])).flatten) =
      tableOf cfg.quote (commaPieces cfg.nullValues) n gs.flatten := by
  unfold tableOf
  apply List.map_congr_left
  intro j hj
  rw [List.mem_range] at hj
  rw [List.map_map]
  induction gs with
  | nil => rfl
  | cons g gs ih =>
    rw [List.map_cons, List.flatten_cons, ih, List.flatten_cons, List.filter_append, List.map_append]
    simp only [Function.comp, groupCols_getD cfg n j hj]

/-- C13/C12, whole files read serially (partial: rows must not have a separator or line end in a quoted
field after an unquoted field).  Any bytes may occur in quoted fields, rows may be ragged, blank
lines, CRLF and a missing final newline are allowed: the columns delivered are the table. -/
theorem C13_serial_table_partial (cfg : ReadCfg) (hM : ReadSane cfg.dial) (n : Nat) (hn : n ≠ 0) (rows : List WRow)
    (hwf : ∀ r ∈ rows, r.WF cfg.dial) :
    ∃ res, readSerial cfg n (renderFile cfg.dial rows) = some res ∧
      (wholeCols n res).map (fun col => col.map Cell.toOption) =
        tableOf cfg.quote (commaPieces cfg.nullValues) n rows ∧
      res.totalRows = (rows.filter (fun r => !r.blank)).length := by
  obtain ⟨res, cols, h1, h2, h3, h4, _⟩ := readSerial_rows cfg hM n hn rows hwf
  refine ⟨res, h1, ?_, h4⟩
  obtain ⟨chunks, t, k⟩ := res
  simp only at h2
  subst h2
  rw [wholeCols_of_groups n [cols] t k [groupCols cfg n rows] (by simp [h3])]
  have := tableOf_groups cfg n [rows]
  simpa using this

/-- C13 in full: a table of arbitrary byte strings, written with every field quoted, reads back
exactly (with one value per row in each of the `n` columns), whatever bytes the values contain. -/
theorem C13_quoted_table_roundtrip (cfg : ReadCfg) (hM : ReadSane cfg.dial) (n : Nat) (hn : n ≠ 0)
    (table : List (List (List UInt8))) (hcols : ∀ row ∈ table, row.length = n)
    (hnull : ∀ v ∈ commaPieces cfg.nullValues, v.head? ≠ some cfg.quote) :
    ∃ res, readSerial cfg n (renderFile cfg.dial (table.map (fun row => ({ fields := row.map .quoted } : WRow)))) = some res ∧
      (wholeCols n res).map (fun col => col.map Cell.toOption) =
        (List.range n).map (fun j => table.map (fun row => some (row.getD j []))) ∧
      res.totalRows = table.length := by
  have hwf : ∀ r ∈ table.map (fun row => ({ fields := row.map .quoted } : WRow)), r.WF cfg.dial := by
    intro r hr
    obtain ⟨row, hrow, rfl⟩ := List.mem_map.1 hr
    refine ⟨?_, ?_, ?_⟩
    · intro h
      have := congrArg List.length h
      simp only [List.length_map, List.length_nil, hcols row hrow] at this
      exact hn this
    · intro f hf
      obtain ⟨b, _, rfl⟩ := List.mem_map.1 hf
      trivial
    · show TameAfterPlain _ (row.map WField.quoted)
      clear hrow hr
      induction row with
      | nil => trivial
      | cons b row ih => exact ih
  obtain ⟨res, h1, h2, h3⟩ := C13_serial_table_partial cfg hM n hn _ hwf
  have hfilter : (table.map (fun row => ({ fields := row.map .quoted } : WRow))).filter (fun r => !r.blank) =
      table.map (fun row => ({ fields := row.map .quoted } : WRow)) := by
    rw [List.filter_eq_self]
    intro r hr
    obtain ⟨row, hrow, rfl⟩ := List.mem_map.1 hr
    cases row with
    | nil => rfl
    | cons b row => simp [WRow.blank]
  refine ⟨res, h1, ?_, by rw [h3, hfilter, List.length_map]⟩
  rw [h2]
  unfold tableOf
  rw [hfilter]
  apply List.map_congr_left
  intro j hj
  rw [List.mem_range] at hj
  rw [List.map_map]
  apply List.map_congr_left
  intro row hrow
  have hl : j < row.length := by rw [hcols row hrow]; exact hj
  simp only [Function.comp, WRow.valueAt, List.getElem?_map, List.getElem?_eq_getElem hl, Option.map_some,
    WField.value, List.getD_eq_getElem?_getD, Option.getD_some]
  rw [if_neg]
  intro hm
  exact hnull _ hm rfl

/-- Reading configuration for the examples: comma, double quote, default null list. -/
def cfg0 : ReadCfg :=
  { cpu := cpu32, sep := 44, quote := 34, nullValues := [78, 65, 44, 110, 117, 108, 108, 44, 78, 85, 76, 76, 44] }

theorem cfg0_sane : ReadSane cfg0.dial :=
  { sep_quote := by decide, eol_quote := by decide, sep_eol := by decide, quote_nz := by decide,
    eol_lf := rfl, sep_cr := by decide, quote_cr := by decide }

/-- Non-vacuity of C13: values with quotes, separators, newlines, CR, empty. -/
example : (∀ v ∈ commaPieces cfg0.nullValues, v.head? ≠ some cfg0.quote) ∧
    readSerial cfg0 2 (renderFile cfg0.dial ([[[34, 10, 44], []], [[13], [78, 65]]].map
      (fun row => ({ fields := row.map .quoted } : WRow)))) =
    some { chunks := [[[.text [34, 10, 44], .text [13]], [.text [], .text [78, 65]]]], totalRows := 2, rowCount := 2 } := by
  refine ⟨by decide, by decide +kernel⟩

/-! ### C08: rectangular output -/

/-- C08: parsing any chunk, in either quote state, ends normally; all columns have the same length,
the number of parsed rows. -/
theorem C08_chunk_rectangular (cfg : ReadCfg) (n : Nat) (startInside : Bool) (data : List UInt8) :
    ∃ cols rows, parseChunk cfg n startInside data = some (cols, rows) ∧ cols.length = n ∧
      ∀ col ∈ cols, col.length = rows := by
  unfold parseChunk
  dsimp only
  by_cases h : data.length = 0 ∨ n = 0
  · rw [if_pos h]
    refine ⟨_, _, rfl, by simp, ?_⟩
    intro col hc
    rw [List.eq_of_mem_replicate hc]; rfl
  · rw [if_neg h]
    have skipClose : ∀ q (l : Bytes), (skipToClose q l).2.length ≤ l.length := by
      intro q l
      fun_induction skipToClose q l <;> simp_all <;> omega
    have skipRow : ∀ q b (l : Bytes), (skipPartialRow q b l).length ≤ l.length := by
      intro q b l
      fun_induction skipPartialRow q b l <;> simp_all <;> omega
    have hle : (if startInside = true then skipPartialRow cfg.quote (skipToClose cfg.quote data).1 (skipToClose cfg.quote data).2
        else data).length ≤ data.length := by
      split
      · have := skipClose cfg.quote data
        have := skipRow cfg.quote (skipToClose cfg.quote data).1 (skipToClose cfg.quote data).2
        omega
      · exact Nat.le_refl _
    obtain ⟨rs, hrs⟩ := rawRows_total cfg (data.length + 1) _ (Nat.add_le_add_right hle 1)
    rw [parseRows_spec, hrs]
    refine ⟨_, _, rfl, by simp, ?_⟩
    intro col hc
    obtain ⟨j, hj⟩ := List.getElem?_of_mem hc
    rw [List.getElem?_mapIdx, List.getElem?_replicate] at hj
    split at hj
    · have := (Option.some.inj hj).symm
      subst this
      simp
    · simp at hj

/-- C08: each row contributes exactly one cell to every column: field `j` for column `j`, null when the
row has fewer fields; fields beyond the last column are dropped. -/
theorem C08_row_padding (nc : NullChecker) (q : UInt8) (cols : Cols) (fs : List (List UInt8 × Bool)) (j : Nat) :
    (addRow nc q cols.length cols fs)[j]? =
      (cols[j]?).map (fun col => col ++ [match fs[j]? with | none => Cell.null | some f => cellOf nc q f.1 f.2]) := by
  rw [addRow_spec, List.getElem?_mapIdx]
  rfl

/-- A read result is rectangular: every chunk has `n` columns of one common length, and the lengths add
up to the reported total. -/
def Spec.Rectangular (n : Nat) (res : ReadResult) : Prop :=
  (∀ c ∈ res.chunks, c.length = n ∧ ∃ m, ∀ col ∈ c, col.length = m) ∧
  ∀ j, j < n → ((wholeCols n res).getD j []).length = res.totalRows

theorem rect_of_chunks (n : Nat) (ps : List (Cols × Nat)) (k : Nat)
    (h : ∀ p ∈ ps, p.1.length = n ∧ ∀ col ∈ p.1, col.length = p.2) :
    Rectangular n { chunks := ps.map Prod.fst, totalRows := (ps.map Prod.snd).sum, rowCount := k } := by
  refine ⟨?_, ?_⟩
  · intro c hc
    obtain ⟨p, hp, rfl⟩ := List.mem_map.1 hc
    exact ⟨(h p hp).1, p.2, (h p hp).2⟩
  · intro j hj
    unfold wholeCols
    simp only [List.getD_eq_getElem?_getD, List.getElem?_map, List.getElem?_range hj, Option.map_some, Option.getD_some,
      List.map_map, List.length_flatten]
    congr 1
    apply List.map_congr_left
    intro p hp
    have hl : j < p.1.length := by rw [(h p hp).1]; exact hj
    simp only [Function.comp, List.getElem?_eq_getElem hl, Option.getD_some]
    exact (h p hp).2 _ (List.getElem_mem hl)

theorem mapM_rect (cfg : ReadCfg) (n : Nat) (l : List (Bytes × Bool)) :
    ∃ ps, l.mapM (fun p => parseChunk cfg n p.2 p.1) = some ps ∧
      ∀ p ∈ ps, p.1.length = n ∧ ∀ col ∈ p.1, col.length = p.2 := by
  induction l with
  | nil => exact ⟨[], rfl, by simp⟩
  | cons a l ih =>
    obtain ⟨ps, h1, h2⟩ := ih
    obtain ⟨cols, rows, g1, g2, g3⟩ := C08_chunk_rectangular cfg n a.2 a.1
    refine ⟨(cols, rows) :: ps, by rw [List.mapM_cons]; simp only [g1, h1]; rfl, ?_⟩
    intro p hp
    rcases List.mem_cons.1 hp with h | h
    · subst h; exact ⟨g2, g3⟩
    · exact h2 p h

/-- C08 for the serial read, every byte content. -/
theorem C08_serial_rectangular (cfg : ReadCfg) (n : Nat) (data : List UInt8) :
    ∃ res, readSerial cfg n data = some res ∧ Rectangular n res := by
  unfold readSerial
  by_cases hn : n = 0
  · rw [if_pos hn]
    subst hn
    exact ⟨_, rfl, by simp [Rectangular]⟩
  · rw [if_neg hn]
    obtain ⟨rs, hrs⟩ := rawRows_total cfg (data.length + 1) data (Nat.le_refl _)
    rw [parseRows_spec, hrs]
    refine ⟨_, rfl, ?_⟩
    have h0 : 0 < n := Nat.pos_of_ne_zero hn
    have := rect_of_chunks n [((List.replicate n ([] : List Cell)).mapIdx
        (fun j col => col ++ rs.map (fun fs => cellAt cfg.nc cfg.quote fs j)), rs.length)] rs.length (by
      intro p hp
      rw [List.mem_singleton.1 hp]
      refine ⟨by simp, ?_⟩
      intro col hc
      obtain ⟨j, hj⟩ := List.getElem?_of_mem hc
      rw [List.getElem?_mapIdx, List.getElem?_replicate] at hj
      split at hj
      · rw [← Option.some.inj hj]; simp
      · simp at hj)
    simpa [List.getElem?_mapIdx, List.getElem?_replicate, h0] using this

/-- C08 for `read_all`, every byte content, chunk size and thread count: the read ends normally
with rectangular chunks whose lengths add up to the reported total. -/
theorem C08_read_rectangular (cfg : ReadCfg) (n threshold chunkSize : Nat)
    (hc : 0 < chunkSize) (file : List UInt8) (start : Nat) (hs : start ≤ file.length) :
    ∃ res, readAll cfg n threshold chunkSize file start = some res ∧ Rectangular n res := by
  unfold readAll
  by_cases hn : n = 0
  · rw [if_pos hn]
    subst hn
    exact ⟨_, rfl, by simp [Rectangular]⟩
  · rw [if_neg hn]
    split
    · exact C08_serial_rectangular cfg n _
    · obtain ⟨rs, h1, _⟩ := C06_ranges_tile cfg.cpu cfg.quote file start chunkSize hs hc
      simp only [h1, Option.bind_eq_bind, Option.bind_some]
      split
      · exact C08_serial_rectangular cfg n _
      · unfold readChunks
        obtain ⟨ps, g1, g2⟩ := mapM_rect cfg n
          ((rs.map (slice file)).zip (analyzeAndLink cfg.cpu cfg.quote (rs.map (slice file))).1)
        simp only [g1, Option.bind_eq_bind, Option.bind_some]
        exact ⟨_, rfl, rect_of_chunks n ps _ g2⟩

/-- Non-vacuity: ragged rows, a blank line, a stray quote. -/
example : readSerial cfg0 2 [97, 44, 98, 44, 99, 10, 10, 100, 10, 34, 101] =
    some { chunks := [[[.text [97], .text [100], .text [34, 101]], [.text [98], .null, .null]]], totalRows := 3, rowCount := 3 } := by
  decide +kernel

/-! ### C07: parallel equals serial -/

/-- The full C07. -/
def C07_full : Prop :=
  ∀ (cfg : ReadCfg), ReadSane cfg.dial → ∀ (n threshold chunkSize : Nat), 0 < chunkSize →
    ∀ (file : List UInt8) (start : Nat), start ≤ file.length → ∀ ser par,
    readSerial cfg n (file.drop start) = some ser → readAll cfg n threshold chunkSize file start = some par →
    wholeCols n par = wholeCols n ser

theorem toOption_inj : Function.Injective Cell.toOption := by
  intro a b h
  cases a <;> cases b <;> simp_all [Cell.toOption]

theorem sum_filter_flatten (gs : List (List WRow)) :
    (gs.map (fun g => (g.filter (fun r => !r.blank)).length)).sum = (gs.flatten.filter (fun r => !r.blank)).length := by
  induction gs with
  | nil => rfl
  | cons g gs ih => rw [List.map_cons, List.sum_cons, ih, List.flatten_cons, List.filter_append, List.length_append]

theorem flatten_groups_text (M : Marks) (gs : List (List WRow)) (hne : ∀ g ∈ gs, g ≠ []) :
    (groupTexts M gs).flatten = renderFile M gs.flatten := by
  induction gs with
  | nil => rfl
  | cons g gs ih =>
    cases gs with
    | nil => simp [groupTexts]
    | cons h gs =>
      rw [groupTexts, List.flatten_cons, ih (fun x hx => hne x (by simp [List.mem_cons.1 hx])), List.flatten_cons (l := g),
        renderFile_append M g _ (hne g (by simp)) (by
          intro he
          have := hne h (by simp)
          cases h with
          | nil => exact this rfl
          | cons a l => simp at he)]
      simp

/-- C07, proved part: for files of written rows (quoted fields may hold any bytes, line ends included; no
separator or line end in a quoted field after an unquoted one, see C12), if the file is below the parallel
threshold or no chunk boundary falls inside quotes then the parallel read delivers the same columns and row total as the serial read, for every chunk size,
parallel threshold and header length; both are the table written.  Missing: boundaries inside quotes and lone
CRs, for which the claim is false (`C07_full_fails`, `C07_lone_cr_fails`). -/
theorem C07_parallel_eq_serial_partial (cfg : ReadCfg) (hM : ReadSane cfg.dial) (n threshold chunkSize : Nat)
    (hc : 0 < chunkSize) (file : List UInt8) (start : Nat) (hs : start ≤ file.length)
    (rows : List WRow) (hwf : ∀ r ∈ rows, r.WF cfg.dial) (hfile : file.drop start = renderFile cfg.dial rows) (hn : n ≠ 0)
    (hcut : threshold ≤ file.length - start → CutsOutside cfg file start chunkSize) :
    ∃ ser par, readSerial cfg n (file.drop start) = some ser ∧ readAll cfg n threshold chunkSize file start = some par ∧
      wholeCols n par = wholeCols n ser ∧ par.totalRows = ser.totalRows ∧
      (wholeCols n par).map (fun col => col.map Cell.toOption) =
        tableOf cfg.quote (commaPieces cfg.nullValues) n rows := by
  have hq : cfg.quote ≠ 10 ∧ cfg.quote ≠ 13 := by
    constructor
    · have := hM.eol_quote; rw [hM.eol_lf] at this; exact this.symm
    · exact hM.quote_cr
  obtain ⟨ser, s1, s2, s3⟩ := C13_serial_table_partial cfg hM n hn rows hwf
  rw [← hfile] at s1
  have inj : ∀ a b : List (List Cell), a.map (fun col => col.map Cell.toOption) = b.map (fun col => col.map Cell.toOption) →
      a = b := fun a b h =>
    (List.map_injective_iff.2 (List.map_injective_iff.2 toOption_inj)) h
  unfold readAll
  rw [if_neg hn]
  split
  · exact ⟨ser, ser, s1, s1, rfl, rfl, s2⟩
  · obtain ⟨rs, h1, h2⟩ := C06_ranges_tile cfg.cpu cfg.quote file start chunkSize hs hc
    simp only [h1, Option.bind_eq_bind, Option.bind_some]
    split
    · exact ⟨ser, ser, s1, s1, rfl, rfl, s2⟩
    · next hlen =>
      have hrs : rs ≠ [] := by intro h; rw [h] at hlen; simp at hlen
      have hrows : rows ≠ [] := by
        intro h
        subst h
        have : start = file.length := by
          have := congrArg List.length hfile
          simp [renderFile, joinFields] at this; omega
        cases rs with
        | nil => exact hrs rfl
        | cons r rs => obtain ⟨a, b, c, _⟩ := h2; omega
      obtain ⟨gs, g1, g2, g3⟩ := cuts_groups cfg hM file start chunkSize rows hrows (fun r hr => (hwf r hr).wf) hfile rs h1 h2 hrs (hcut (by omega))
      have gwf : ∀ g ∈ gs, ∀ r ∈ g, r.WF cfg.dial := by
        intro g hg r hr
        apply hwf r
        rw [← g2]
        exact List.mem_flatten.2 ⟨g, hg, hr⟩
      obtain ⟨res, r1, r2, r3, _⟩ := readChunks_groups cfg hM n hn gs g3 gwf
      have htab : (wholeCols n res).map (fun col => col.map Cell.toOption) =
          tableOf cfg.quote (commaPieces cfg.nullValues) n rows := by
        obtain ⟨chunks, t, k⟩ := res
        rw [wholeCols_of_groups n chunks t k _ r2, tableOf_groups, g2]
      refine ⟨ser, res, s1, by rw [g1]; exact r1, inj _ _ (htab.trans s2.symm), ?_, htab⟩
      rw [r3, s3, ← g2]
      exact sum_filter_flatten gs

/-- C07 without a condition on the boundaries: files in which no line-end byte occurs inside quotes. -/
theorem C07_no_quoted_line_ends (cfg : ReadCfg) (hM : ReadSane cfg.dial) (n threshold chunkSize : Nat)
    (hc : 0 < chunkSize) (file : List UInt8) (start : Nat) (hs : start ≤ file.length)
    (rows : List WRow) (hflat : FlatRows cfg.dial rows) (hfile : file.drop start = renderFile cfg.dial rows) (hn : n ≠ 0) :
    ∃ ser par, readSerial cfg n (file.drop start) = some ser ∧ readAll cfg n threshold chunkSize file start = some par ∧
      wholeCols n par = wholeCols n ser ∧ par.totalRows = ser.totalRows ∧
      (wholeCols n par).map (fun col => col.map Cell.toOption) =
        tableOf cfg.quote (commaPieces cfg.nullValues) n rows :=
  C07_parallel_eq_serial_partial cfg hM n threshold chunkSize hc file start hs rows (fun r hr => (hflat r hr).1) hfile hn
    (fun _ => flat_cutsOutside cfg hM file start chunkSize hs hc rows hflat hfile)

/-- Non-vacuity: a quoted line end, three chunks, all boundaries outside quotes. -/
example : CutsOutside cfg0 [34, 97, 10, 98, 34, 10, 99, 10, 100, 10] 0 5 ∧
    (∀ r ∈ [{ fields := [.quoted [97, 10, 98]] }, { fields := [.plain [99]] }, { fields := [.plain [100]] }, emptyRow],
      WRow.WF cfg0.dial r) ∧
    [34, 97, 10, 98, 34, 10, 99, 10, 100, 10] = renderFile cfg0.dial
      [{ fields := [.quoted [97, 10, 98]] }, { fields := [.plain [99]] }, { fields := [.plain [100]] }, emptyRow] ∧
    (readAll cfg0 1 0 5 [34, 97, 10, 98, 34, 10, 99, 10, 100, 10] 0).map (fun r => r.chunks) =
      some [[[.text [97, 10, 98]]], [[.text [99], .text [100]]]] := by
  refine ⟨?_, ?_, by decide +kernel, by decide +kernel⟩
  · intro rs h
    have : chunkRanges cfg0.cpu cfg0.quote [34, 97, 10, 98, 34, 10, 99, 10, 100, 10] 0 5 = some [(0, 6), (6, 10)] := by decide +kernel
    rw [this, Option.some.injEq] at h
    subst h
    decide
  · intro r hr
    simp only [List.mem_cons, List.not_mem_nil, or_false] at hr
    have lf : LF = 10 := rfl
    rcases hr with h | h | h | h <;> subst h
    all_goals first
      | exact emptyRow_wf _
      | exact ⟨by decide, by intro f hf; simp at hf; subst hf; simp [WField.WF, cfg0, ReadCfg.dial, lf], by simp [TameAfterPlain]⟩

/-- A quoted line end near a chunk boundary is read differently in parallel. -/
theorem C07_full_fails : ¬ C07_full := by
  intro h
  have hne : (readAll cfg0 1 0 2 [34, 97, 97, 10, 98, 34, 10, 99, 10] 0).map (wholeCols 1) ≠
      (readSerial cfg0 1 [34, 97, 97, 10, 98, 34, 10, 99, 10]).map (wholeCols 1) := by decide +kernel
  obtain ⟨ser, hs, _⟩ := C08_serial_rectangular cfg0 1 [34, 97, 97, 10, 98, 34, 10, 99, 10]
  obtain ⟨par, hp, _⟩ := C08_read_rectangular cfg0 1 0 2 (by decide) [34, 97, 97, 10, 98, 34, 10, 99, 10] 0 (by decide)
  apply hne
  rw [hs, hp]
  exact congrArg some (h cfg0 cfg0_sane 1 0 2 (by decide) _ 0 (by decide) _ _ hs hp)

/-- A lone CR near a chunk boundary is also read differently (no quotes involved). -/
theorem C07_lone_cr_fails : ∃ file, (34 : UInt8) ∉ file ∧
    (readAll cfg0 1 0 2 file 0).map (wholeCols 1) ≠ (readSerial cfg0 1 file).map (wholeCols 1) :=
  ⟨[97, 97, 13, 98, 98, 98, 10, 99, 10], by decide, by decide +kernel⟩

/-- Non-vacuity of C07_no_quoted_line_ends: several chunks, quoted separators, CRLF, blank line, header. -/
example : FlatRows cfg0.dial
      [{ fields := [.quoted [44, 34], .plain [98]], crlf := true }, { fields := [.plain []] }, { fields := [.plain [99], .plain []] }] ∧
    [104, 10, 34, 44, 34, 34, 34, 44, 98, 13, 10, 10, 99, 44].drop 2 = renderFile cfg0.dial
      [{ fields := [.quoted [44, 34], .plain [98]], crlf := true }, { fields := [.plain []] }, { fields := [.plain [99], .plain []] }] ∧
    (readAll cfg0 2 0 3 [104, 10, 34, 44, 34, 34, 34, 44, 98, 13, 10, 10, 99, 44] 2).map (fun r => r.chunks.length) = some 2 := by
  refine ⟨?_, by decide +kernel, by decide +kernel⟩
  intro r hr
  simp only [List.mem_cons, List.not_mem_nil, or_false] at hr
  have lf : LF = 10 := rfl
  rcases hr with h | h | h <;> subst h <;>
    exact ⟨⟨by decide, by intro f hf; simp at hf; rcases hf with rfl | rfl <;> simp [WField.WF, cfg0, ReadCfg.dial, lf],
      by simp [TameAfterPlain, WField.Tame, cfg0, ReadCfg.dial]⟩,
      by intro f hf; simp at hf; rcases hf with rfl | rfl <;> simp [WField.Flat]⟩

/-! ### C09: reported row count -/

/-- C09 for serial reads, every byte content: the reported count is the number of rows delivered. -/
theorem C09_serial (cfg : ReadCfg) (n : Nat) (data : List UInt8) :
    ∃ res, readSerial cfg n data = some res ∧ res.rowCount = res.totalRows ∧
      ∀ j, j < n → ((wholeCols n res).getD j []).length = res.rowCount := by
  obtain ⟨res, h1, h2⟩ := C08_serial_rectangular cfg n data
  have : res.rowCount = res.totalRows := by
    unfold readSerial at h1
    split at h1
    · rw [← Option.some.inj h1]
    · cases hp : parseRows cfg (data.length + 1) (List.replicate n []) 0 data with
      | none => rw [hp] at h1; simp at h1
      | some r => rw [hp] at h1; rw [← Option.some.inj h1]
  exact ⟨res, h1, this, fun j hj => by rw [this]; exact h2.2 j hj⟩

/-- The full C09. -/
def C09_full : Prop :=
  ∀ (cfg : ReadCfg), ReadSane cfg.dial → ∀ (n threshold chunkSize : Nat), 0 < chunkSize →
    ∀ (file : List UInt8) (start : Nat), start ≤ file.length → ∀ res,
    readAll cfg n threshold chunkSize file start = some res → res.rowCount = res.totalRows

/-- A blank line makes the reported count differ from the rows delivered. -/
theorem C09_full_fails : ¬ C09_full := by
  intro h
  have hne : (readAll cfg0 1 0 2 [97, 97, 10, 10, 98, 98, 10] 0).map (fun r => r.rowCount) ≠
      (readAll cfg0 1 0 2 [97, 97, 10, 10, 98, 98, 10] 0).map (fun r => r.totalRows) := by decide +kernel
  obtain ⟨par, hp, _⟩ := C08_read_rectangular cfg0 1 0 2 (by decide) [97, 97, 10, 10, 98, 98, 10] 0 (by decide)
  apply hne
  rw [hp]
  exact congrArg some (h cfg0 cfg0_sane 1 0 2 (by decide) _ 0 (by decide) _ hp)

/-- So does a missing final newline. -/
theorem C09_no_final_newline_fails : ∃ file, (13 : UInt8) ∉ file ∧ (34 : UInt8) ∉ file ∧
    (readAll cfg0 1 0 2 file 0).map (fun r => (r.rowCount, r.totalRows)) = some (1, 2) :=
  ⟨[97, 97, 97, 10, 98, 98], by decide, by decide, by decide +kernel⟩

theorem rowCount_file (M : Marks) (hM : ReadSane M) (rows : List WRow) (h : ∀ r ∈ rows, ∀ f ∈ r.fields, f.WF M) :
    Spec.rowCount M.quote false (renderFile M (rows ++ [emptyRow])) = rows.length := by
  induction rows with
  | nil => simp [renderFile, joinFields, emptyRow, WRow.render, WField.render, Spec.rowCount, Spec.rowEnds]
  | cons r rows ih =>
    rw [List.cons_append, show r :: (rows ++ [emptyRow]) = [r] ++ (rows ++ [emptyRow]) from rfl,
      renderFile_append M [r] _ (by simp) (by simp)]
    have : renderFile M [r] = r.render M := by simp [renderFile, joinFields]
    rw [this, hM.eol_lf, rowCount_row M hM r (h r (by simp)), ih (fun x hx => h x (by simp [hx]))]
    simp; omega

theorem noSplit_groups (M : Marks) (hM : ReadSane M) (gs : List (List WRow)) : Spec.NoSplitCRLF (groupTexts M gs) := by
  induction gs with
  | nil => trivial
  | cons g gs ih =>
    cases gs with
    | nil => exact ⟨by simp, trivial⟩
    | cons g' gs =>
      refine ⟨?_, ih⟩
      rw [List.getLast?_append]
      simp [hM.eol_lf]

/-- C09, proved part for parallel reads: on files of non-blank written rows that end with a newline, read with no
chunk boundary inside quotes, the reported count equals the rows delivered.  Missing: blank lines, no final newline,
lone CR, boundaries inside quotes, where the claim is false. -/
theorem C09_parallel_partial (cfg : ReadCfg) (hM : ReadSane cfg.dial) (n threshold chunkSize : Nat)
    (hc : 0 < chunkSize) (file : List UInt8) (start : Nat) (hs : start ≤ file.length)
    (rows : List WRow) (hwf : ∀ r ∈ rows, r.WF cfg.dial) 
    (hcut : threshold ≤ file.length - start → CutsOutside cfg file start chunkSize) (hblank : ∀ r ∈ rows, r.blank = false)
    (hfile : file.drop start = renderFile cfg.dial (rows ++ [emptyRow])) (hn : n ≠ 0) :
    ∃ res, readAll cfg n threshold chunkSize file start = some res ∧ res.rowCount = res.totalRows ∧
      res.rowCount = rows.length := by
  have hq : cfg.quote ≠ 10 ∧ cfg.quote ≠ 13 := by
    constructor
    · have := hM.eol_quote; rw [hM.eol_lf] at this; exact this.symm
    · exact hM.quote_cr
  have hwf' : ∀ r ∈ rows ++ [emptyRow], r.WF cfg.dial := by
    intro r hr
    rcases List.mem_append.1 hr with h | h
    · exact hwf r h
    · rw [List.mem_singleton.1 h]; exact emptyRow_wf _
  have hfil : ((rows ++ [emptyRow]).filter (fun r => !r.blank)) = rows := by
    rw [List.filter_append]
    have h1 : rows.filter (fun r => !r.blank) = rows := by
      rw [List.filter_eq_self]; intro r hr; simp [hblank r hr]
    rw [h1]; simp [emptyRow, WRow.blank]
  have hser : ∃ res, readSerial cfg n (file.drop start) = some res ∧ res.rowCount = res.totalRows ∧ res.rowCount = rows.length := by
    obtain ⟨res, cols, h1, _, _, h4, h5⟩ := readSerial_rows cfg hM n hn (rows ++ [emptyRow]) hwf'
    rw [hfile]
    exact ⟨res, h1, h5, by rw [h5, h4, hfil]⟩
  obtain ⟨ser, par, s1, p1, _, p3, _⟩ := C07_parallel_eq_serial_partial cfg hM n threshold chunkSize hc file start hs
    (rows ++ [emptyRow]) hwf' hfile hn hcut
  obtain ⟨ser', s1', s2', s3'⟩ := hser
  rw [s1] at s1'
  have := Option.some.inj s1'
  subst this
  refine ⟨par, p1, ?_⟩
  have htot : par.totalRows = rows.length := by rw [p3, ← s2', s3']
  unfold readAll at p1
  rw [if_neg hn] at p1
  split at p1
  · rw [s1] at p1
    have := Option.some.inj p1
    subst this
    exact ⟨s2', s3'⟩
  · obtain ⟨rs, h1, h2⟩ := C06_ranges_tile cfg.cpu cfg.quote file start chunkSize hs hc
    simp only [h1, Option.bind_eq_bind, Option.bind_some] at p1
    split at p1
    · rw [s1] at p1
      have := Option.some.inj p1
      subst this
      exact ⟨s2', s3'⟩
    · next hlen =>
      have hcount : par.rowCount = (analyzeAndLink cfg.cpu cfg.quote (rs.map (slice file))).2 := by
        unfold readChunks at p1
        obtain ⟨ps, g1, g2⟩ := mapM_rect cfg n
          ((rs.map (slice file)).zip (analyzeAndLink cfg.cpu cfg.quote (rs.map (slice file))).1)
        simp only [g1, Option.bind_eq_bind, Option.bind_some] at p1
        rw [← Option.some.inj p1]
      have hrs : rs ≠ [] := by intro h; rw [h] at hlen; simp at hlen
      obtain ⟨gs, g1, g2, g3⟩ := cuts_groups cfg hM file start chunkSize _ (by simp) (fun r hr => (hwf' r hr).wf) hfile rs h1 h2 hrs (hcut (by omega))
      have : par.rowCount = rows.length := by
        rw [hcount, g1, C05_total_count cfg.cpu cfg.quote hq _ (noSplit_groups cfg.dial hM gs),
          flatten_groups_text cfg.dial gs g3, g2]
        exact rowCount_file cfg.dial hM rows (fun r hr => (hwf r hr).wf)
      exact ⟨by rw [this, htot], this⟩

example : FlatRows cfg0.dial [{ fields := [.plain [97]] }, { fields := [.plain [98]] }] ∧
    (readAll cfg0 1 0 1 [97, 10, 98, 10] 0).map (fun r => (r.rowCount, r.totalRows, r.chunks.length)) = some (2, 2, 2) := by
  refine ⟨?_, by decide +kernel⟩
  intro r hr
  simp only [List.mem_cons, List.not_mem_nil, or_false] at hr
  rcases hr with h | h <;> subst h <;>
    exact ⟨⟨by decide, by intro f hf; simp at hf; subst hf; simp [WField.WF, cfg0, ReadCfg.dial, show LF = 10 from rfl],
      by simp [TameAfterPlain]⟩, by intro f hf; simp at hf; subst hf; simp [WField.Flat]⟩

end Vroom
