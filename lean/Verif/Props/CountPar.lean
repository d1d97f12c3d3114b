import Verif.Props.ClearPar
/-
C09: the row count a parallel read reports, for every content of the file.
-/
namespace Vroom
open Parquet Spec

/-- The chunks of a file never separate a CR from its LF. -/
theorem ranges_noSplit (cfg : ReadCfg) (hq : cfg.quote ≠ 10 ∧ cfg.quote ≠ 13) (file : List UInt8) (start : Nat) (rs : List (Nat × Nat))
    (htiles : Spec.Tiles start file.length rs) (hends : ∀ r ∈ rs, r.2 = file.length ∨ ∃ t, r.2 = findRowEnd cfg.cpu cfg.quote file t) :
    Spec.NoSplitCRLF (rs.map (slice file)) := by
  induction rs generalizing start with
  | nil => trivial
  | cons r rs ih =>
    obtain ⟨h1, h2, h3, h4⟩ := htiles
    refine ⟨?_, ih r.2 h4 (fun x hx => hends x (by simp [hx]))⟩
    rw [tiles_slices file rs r.2 h4]
    rintro ⟨g1, g2⟩
    rw [List.head?_drop] at g2
    have hlast : file[r.2 - 1]? = some 13 := by
      have hl : (slice file r).length = r.2 - r.1 := by unfold slice; rw [List.length_take, List.length_drop]; omega
      rw [List.getLast?_eq_getElem?, hl] at g1
      unfold slice at g1
      rw [List.getElem?_take, if_pos (by omega), List.getElem?_drop, show r.1 + (r.2 - r.1 - 1) = r.2 - 1 by omega] at g1
      exact g1
    rcases hends r (by simp) with he | ⟨t, he⟩
    · rw [he, List.getElem?_eq_none (Nat.le_refl _)] at g2; cases g2
    · rcases C03_find_row_end cfg.cpu cfg.quote hq file t with ⟨i, i1, -, i3⟩ | ⟨-, i2⟩
      · unfold isRowEnd at i1
        rw [Bool.and_eq_true, Bool.or_eq_true, Bool.and_eq_true] at i1
        obtain ⟨-, i1⟩ := i1
        rw [List.getElem?_drop, List.getElem?_drop] at i1
        rw [he, i3, Nat.add_sub_cancel] at hlast
        rw [he, i3, Nat.add_assoc] at g2
        rcases i1 with i1 | ⟨-, i1⟩
        · rw [hlast] at i1; exact absurd i1 (by decide)
        · rw [g2] at i1; exact absurd i1 (by decide)
      · rw [he, i2, List.getElem?_eq_none (Nat.le_refl _)] at g2; cases g2

/-- **C09** What `read_all` reports as the number of rows, for every content of the file: if the data was cut into at least two chunks, the number of line ends outside quotes (LF, CRLF or lone CR,
quotes counted from the start of the data); otherwise the number of rows delivered. -/
theorem C09_count_exact (cfg : ReadCfg) (hq : cfg.quote ≠ 10 ∧ cfg.quote ≠ 13) (n threshold chunkSize : Nat) (hn : n ≠ 0)
    (hc : 0 < chunkSize) (file : List UInt8) (start : Nat) (hs : start ≤ file.length) :
    ∃ rs res, chunkRanges cfg.cpu cfg.quote file start chunkSize = some rs ∧ readAll cfg n threshold chunkSize file start = some res ∧
      res.rowCount = if threshold ≤ file.length - start ∧ 1 < rs.length then Spec.rowCount cfg.quote false (file.drop start) else res.totalRows := by
  obtain ⟨rs, h1, h2⟩ := C06_ranges_tile cfg.cpu cfg.quote file start chunkSize hs hc
  obtain ⟨ser, s1, s2, -⟩ := C09_serial cfg n (file.drop start)
  unfold readAll
  rw [if_neg hn]
  by_cases ht : file.length - start < threshold
  · rw [if_pos ht]
    exact ⟨rs, ser, h1, s1, by rw [if_neg (by omega)]; exact s2⟩
  · rw [if_neg ht]
    simp only [h1, Option.bind_eq_bind, Option.bind_some]
    by_cases hl : rs.length ≤ 1
    · rw [if_pos hl]
      exact ⟨rs, ser, rfl, s1, by rw [if_neg (by omega)]; exact s2⟩
    · rw [if_neg hl]
      unfold readChunks
      obtain ⟨ps, g1, g2⟩ := mapM_rect cfg n ((rs.map (slice file)).zip (analyzeAndLink cfg.cpu cfg.quote (rs.map (slice file))).1)
      simp only [g1, Option.bind_eq_bind, Option.bind_some]
      refine ⟨rs, _, rfl, rfl, ?_⟩
      rw [if_pos ⟨by omega, by omega⟩]
      dsimp only
      rw [C05_total_count cfg.cpu cfg.quote hq _ (ranges_noSplit cfg hq file start rs h2 (fun r hr => by
        rcases chunkRangesGo_ends _ _ _ _ _ _ h1 r hr with h | ⟨t, h⟩
        · exact .inl h
        · exact .inr ⟨t, h⟩)), tiles_slices file rs start h2]

/-- The fields of a row do not end with a CR. -/
theorem fields_last (M : Marks) (hM : ReadSane M) (fs : List WField) (h : ∀ f ∈ fs, f.WF M) : (joinFields M.sep (fs.map (·.render M.quote))).getLast? ≠ some 13 := by
  intro hl
  have hj := closed_join M hM fs h
  generalize joinFields M.sep (fs.map (·.render M.quote)) = x at *
  rw [List.getLast?_eq_getElem?] at hl
  have h3 := hj.2 _ 13 hl (Or.inr rfl)
  have hev := hj.1
  have e2 : x = x.take (x.length - 1) ++ [13] := by
    conv_lhs => rw [← List.take_append_drop (x.length - 1) x]
    congr 1
    obtain ⟨hlt, he⟩ := List.getElem?_eq_some_iff.1 hl
    rw [List.drop_eq_getElem_cons hlt, he, List.drop_eq_nil_of_le (by omega)]
  rw [e2, List.count_append] at hev
  have : [(13 : UInt8)].count M.quote = 0 := by simp [Ne.symm hM.quote_cr]
  omega

/-- Line ends outside quotes of a written file: one between two rows, and one more if the last row ends with a CR. -/
theorem rowCount_rows (M : Marks) (hM : ReadSane M) (rows : List WRow) (h : ∀ r ∈ rows, ∀ f ∈ r.fields, f.WF M) :
    Spec.rowCount M.quote false (renderFile M rows) = rows.length - 1 + (if (rows.getLast?.map (·.crlf)) = some true then 1 else 0) := by
  induction rows with
  | nil => simp [renderFile, joinFields, Spec.rowCount, Spec.rowEnds]
  | cons r rows ih =>
    cases rows with
    | nil =>
      have h1 := rowCount_row M hM r (h r (by simp)) []
      have e : renderFile M [r] = r.render M := by simp [renderFile, joinFields]
      rw [e]
      have hz : Spec.rowCount M.quote false [] = 0 := rfl
      cases hcr : r.crlf with
      | false =>
        have er : r.render M = joinFields M.sep (r.fields.map (·.render M.quote)) := by unfold WRow.render; rw [hcr]; simp
        have hl : ¬ ((r.render M).getLast? = some 13 ∧ [(10 : UInt8)].head? = some 10) := by
          rw [er]
          exact fun h' => fields_last M hM r.fields (h r (by simp)) h'.1
        have h2 := rowCount_append M.quote false (r.render M) [10] hl
        have hin : insideAt M.quote false (r.render M) (r.render M).length = false := by
          rw [insideAt_eq, List.take_length]; simp [oddB, row_even M hM r (h r (by simp))]
        have h10 : Spec.rowCount M.quote false [10] = 1 := rfl
        rw [hin, h10, h1, hz] at h2
        simp [hcr]
        omega
      | true =>
        simp only [List.length_singleton, Nat.sub_self, List.getLast?_singleton, Option.map_some, hcr, if_true, Nat.zero_add]
        have er : r.render M = joinFields M.sep (r.fields.map (·.render M.quote)) ++ [13] := by unfold WRow.render; rw [hcr]; simp
        have h2 := rowCount_row M hM { r with crlf := false } (h r (by simp)) []
        have er' : WRow.render M { r with crlf := false } = joinFields M.sep (r.fields.map (·.render M.quote)) := by unfold WRow.render; simp
        have hj := closed_join M hM r.fields (h r (by simp))
        rw [er'] at h2
        have hlast := fields_last M hM r.fields (h r (by simp))
        have hin : insideAt M.quote false (joinFields M.sep (r.fields.map (·.render M.quote))) (joinFields M.sep (r.fields.map (·.render M.quote))).length = false := by
          rw [insideAt_eq, List.take_length]; simp [oddB, hj.1]
        have h10 : Spec.rowCount M.quote false [10] = 1 := rfl
        have h13 : Spec.rowCount M.quote false [13] = 1 := rfl
        have h3 := rowCount_append M.quote false (joinFields M.sep (r.fields.map (·.render M.quote))) [10] (by rintro ⟨a, -⟩; exact hlast a)
        have h4 := rowCount_append M.quote false (joinFields M.sep (r.fields.map (·.render M.quote))) [13] (by rintro ⟨a, -⟩; exact hlast a)
        rw [hin, h10, h2, hz] at h3
        rw [hin, h13, ← er] at h4
        omega
    | cons a l =>
      rw [renderFile_cons2, hM.eol_lf, rowCount_row M hM r (h r (by simp)), ih (fun x hx => h x (by simp [List.mem_cons.1 hx]))]
      rw [List.getLast?_cons_cons]
      simp only [List.length_cons]
      omega

/-- **C09** For clear files read in several chunks, none starting inside quotes, the reported count is the number of line ends, the total the number of rows that are not blank;
so they agree exactly if the file has one blank row (for example the one after a final line end), or none and a last CR. -/
theorem C09_clear_iff (cfg : ReadCfg) (hM : ReadSane cfg.dial) (n threshold chunkSize : Nat) (hn : n ≠ 0) (hc : 0 < chunkSize)
    (file : List UInt8) (start : Nat) (hs : start ≤ file.length)
    (rows : List WRow) (hr : rows ≠ []) (hne : ∀ r ∈ rows, r.fields ≠ []) (hwf : ∀ r ∈ rows, ∀ f ∈ r.fields, f.WF cfg.dial) (hclear : FileClear cfg.dial rows)
    (hfile : file.drop start = renderFile cfg.dial rows) (ht : threshold ≤ file.length - start) (hcut : CutsOutside cfg file start chunkSize)
    (rs : List (Nat × Nat)) (hrs : chunkRanges cfg.cpu cfg.quote file start chunkSize = some rs) (hl : 1 < rs.length) :
    ∃ res, readAll cfg n threshold chunkSize file start = some res ∧
      (res.rowCount = res.totalRows ↔ (rows.filter (·.blank)).length = if (rows.getLast?.map (·.crlf)) = some true then 0 else 1) := by
  obtain ⟨rs', res, h1, h2, h3⟩ := C09_count_exact cfg (readSane_quote hM) n threshold chunkSize hn hc file start hs
  rw [hrs, Option.some.injEq] at h1
  subst h1
  rw [if_pos ⟨ht, hl⟩, hfile] at h3
  obtain ⟨ser, par, -, e2, -, e4, e5, -⟩ := C07_clear_partial cfg hM n threshold chunkSize hc file start hs rows hne hwf hclear hfile hn (fun _ => hcut)
  rw [h2, Option.some.injEq] at e2
  subst e2
  have h4 := rowCount_rows cfg.dial hM rows hwf
  have h4' : Spec.rowCount cfg.quote false (renderFile cfg.dial rows) = _ := h4
  refine ⟨res, h2, ?_⟩
  rw [h3, h4', e4, e5]
  have hsplit : rows.length = (rows.filter (·.blank)).length + (rows.filter (fun r => !r.blank)).length := by
    clear * -
    induction rows with
    | nil => rfl
    | cons r rows ih => cases hb : r.blank <;> simp [hb, ih] <;> omega
  have := List.length_pos_iff.2 hr
  split_ifs <;> omega

/-- Non-vacuity: the clear file of `clearRows` in two chunks, without a final line end; two line ends are reported for three rows. -/
example : (readAll cfg0 2 0 60 (renderFile cfg0.dial clearRows) 0).map (fun r => (r.chunks.length, r.rowCount, r.totalRows)) = some (2, 2, 3) ∧
    (readAll cfg0 2 0 60 (renderFile cfg0.dial (clearRows ++ [emptyRow])) 0).map (fun r => (r.chunks.length, r.rowCount, r.totalRows)) = some (2, 3, 3) := by
  constructor <;> decide +kernel

end Vroom
