import Verif.Props.Python
/-
C70, exactly: which rows of a CSV text `read_csv` exports.
-/
namespace Vroom
open Spec Parquet

theorem beginning_prefix (M : Marks) : ∀ (rows : List WRow) (k l : Nat), k ≤ l → rowsBeginning M k rows <+: rowsBeginning M l rows
  | [], _, _, _ => by simp [rowsBeginning]
  | r :: rest, k, l, h => by
    simp only [rowsBeginning]
    rw [List.cons_prefix_cons]
    refine ⟨rfl, ?_⟩
    by_cases hk : (r.render M).length + 1 ≤ k
    · rw [if_pos hk, if_pos (by omega)]
      exact beginning_prefix M rest _ _ (by omega)
    · rw [if_neg hk]; exact List.nil_prefix

theorem beginning_of (M : Marks) : ∀ (rows : List WRow) (k : Nat), rowsBeginning M k rows <+: rows
  | [], _ => by simp [rowsBeginning]
  | r :: rest, k => by
    simp only [rowsBeginning]
    rw [List.cons_prefix_cons]
    refine ⟨rfl, ?_⟩
    split
    · exact beginning_of M rest _
    · exact List.nil_prefix

/-- **C70** exactly, for CSV texts of any size: `read_csv` returns a table that announces all rows; the rows exported are those of the first chunk (all
rows below 1 MiB of data, else those that begin within the chunk size). If these are all rows, the stream delivers the table; else its batch is invalid: a
consumer that believes the announced length leaves the columns' memory. -/
theorem C70_exact (m : Machine) (a : PyArgs) (mode : ErrMode) (hm : PyMode a.errorMode mode) (fo : FileOpts) (hfo : PyFollows m a mode .zstd fo)
    (data : List UInt8) (names rows types table) (h : CsvTable fo data names rows types table) :
    ∃ t, readCsv m a (some data) = some (.value t) ∧ t.columnNames = names ∧ t.numColumns = names.length ∧
      t.numRows = (rows.filter (fun r => !r.blank)).length ∧
      t.fields = (names.zip types).map (fun p => ⟨arrowFormat (stored p.2), cString p.1, true⟩) ∧
      ∃ b s, PyStream.next ⟨t, false⟩ = (some b, s) ∧ s.next.1 = none ∧
        Arrow.table t.fields b =
          if ((if (renderFile fo.infer.marks rows).length < 2 ^ 20 then rows else
              rowsBeginning fo.infer.marks (calculateChunkSize (renderFile fo.infer.marks rows).length names.length fo.nThreads) rows).filter (fun r => !r.blank)).length =
            (rows.filter (fun r => !r.blank)).length
          then some (arrowTable m.lanes m.floatBits types table) else none := by
  obtain ⟨c, hc, rfl⟩ := py_follows m a hm hfo
  obtain ⟨t, chunk, rest, cells0, cells, h1, h2, h3, h4, h5, h6, h7, h8, h9, h10, -, h12⟩ := readCsv_table m a hc h
  generalize hF : (if (renderFile (m.fileOpts c .zstd).infer.marks rows).length < 2 ^ 20 then rows else
    rowsBeginning (m.fileOpts c .zstd).infer.marks (calculateChunkSize (renderFile (m.fileOpts c .zstd).infer.marks rows).length names.length
      (m.fileOpts c .zstd).nThreads) rows) = F at h12 ⊢
  have hFle : (F.filter (fun r => !r.blank)).length ≤ (rows.filter (fun r => !r.blank)).length := by
    have : F <+: rows := by
      rw [← hF]
      split
      · exact List.prefix_rfl
      · exact beginning_of _ _ _
    exact (this.filter _).length_le
  cases h7 with
  | @cons _ _ _ _ n hcols hrest =>
    rw [← h2] at hcols
    have hlen := colsAre_len hcols
    have l1 : names.length = t.schema.length := by rw [← h3, List.length_map]
    have l2 : types.length = t.schema.length := by rw [← h4, List.length_map]
    have l3 : table.length = t.schema.length := by rw [h.table_eq, ← l1]; simp [tableOf]
    have hpos : 0 < t.schema.length := List.length_pos_iff.2 h6
    have hn : n = (F.filter (fun r => !r.blank)).length := by
      have e := hlen.2.2 0 hpos
      have a1 : 0 < cells0.length := by omega
      rw [List.getD_eq_getElem?_getD, List.getElem?_eq_getElem a1] at e
      rw [← e]
      exact h12 _ (List.getElem_mem a1)
    have hfields : t.fields = (names.zip types).map (fun p => ⟨arrowFormat (stored p.2), cString p.1, true⟩) := by
      have e := C70_fields (t := { t with numRows := n }) hcols
      have e2 : t.fields = t.schema.map _ := e
      rw [e2, ← h3, ← h4, List.zip_map', List.map_map]
      rfl
    refine ⟨t, h1, h3, ?_, h5, hfields, t.batch, ⟨t, true⟩, rfl, rfl, ?_⟩
    · show t.columns.length = _
      rw [hlen.1, l1]
    by_cases hall : (F.filter (fun r => !r.blank)).length = (rows.filter (fun r => !r.blank)).length
    · rw [if_pos hall]
      have hn2 : n = t.numRows := by rw [h5, hn, hall]
      have hcol : ∀ j, j < t.schema.length → cells0.getD j [] = (table.getD j []).map (cellVal m.lanes m.floatBits (stored (types.getD j .unknown))) := by
        intro j hj
        have e := h10 j _ (List.getElem?_eq_getElem (by omega : j < types.length))
        unfold tableColumn at e
        simp only [List.map_cons, List.flatten_cons] at e
        have el := congrArg List.length e
        have ht : (table.getD j []).length = (rows.filter (fun r => !r.blank)).length := by
          rw [h.table_eq, List.getD_eq_getElem?_getD]
          simp [tableOf, l1, hj]
        rw [List.length_append, List.length_map, ht, hlen.2.2 j hj, hn, hall] at el
        have hz : (cells.map (fun c => c.getD j [])).flatten = [] := List.length_eq_zero_iff.1 (by omega)
        rw [hz, List.append_nil] at e
        rw [e, List.getD_eq_getElem?_getD (l := types), List.getElem?_eq_getElem (by omega : j < types.length)]
        rfl
      rw [hn2] at hcols
      rw [C70_batch hcols (by rw [h2]; exact h8) (fun c hc => by have := (h9 c hc).1; omega)]
      congr 1
      unfold arrowTable
      apply List.ext_getElem?
      intro j
      by_cases hj : j < t.schema.length
      · have e := hcol j hj
        rw [List.getElem?_map, List.getElem?_map]
        have a1 : j < cells0.length := by omega
        have a2 : j < types.length := by omega
        have a3 : j < table.length := by omega
        rw [List.getD_eq_getElem?_getD (l := cells0), List.getElem?_eq_getElem a1, List.getD_eq_getElem?_getD (l := types), List.getElem?_eq_getElem a2,
          List.getD_eq_getElem?_getD (l := table), List.getElem?_eq_getElem a3] at e
        simp only [Option.getD_some] at e
        have hz : (types.zip table)[j]? = some (types[j], table[j]) := by
          rw [List.getElem?_zip_eq_some]
          exact ⟨List.getElem?_eq_getElem a2, List.getElem?_eq_getElem a3⟩
        rw [hz, List.getElem?_eq_getElem a1, e]
        simp only [Option.map_some, List.map_map]
        rfl
      · rw [List.getElem?_eq_none (by rw [List.length_map, hlen.2.1]; omega), List.getElem?_eq_none (by rw [List.length_map, List.length_zip]; omega)]
    · rw [if_neg hall]
      exact C70_batch_invalid hcols h6 (by omega)

/-- **C70** So every text whose non-blank rows begin in the first MiB of its data is exported rightly, … -/
theorem C70_first_mebibyte (m : Machine) (a : PyArgs) (mode : ErrMode) (hm : PyMode a.errorMode mode) (fo : FileOpts) (hfo : PyFollows m a mode .zstd fo)
    (data : List UInt8) (names rows types table) (h : CsvTable fo data names rows types table)
    (hin : (rowsBeginning fo.infer.marks 1048576 rows).filter (fun r => !r.blank) = rows.filter (fun r => !r.blank)) :
    ∃ t, readCsv m a (some data) = some (.value t) ∧ t.columnNames = names ∧ t.numRows = (rows.filter (fun r => !r.blank)).length ∧
      Arrow.table t.fields t.batch = some (arrowTable m.lanes m.floatBits types table) := by
  obtain ⟨t, h1, h2, -, h4, -, b, s, h6, -, h8⟩ := C70_exact m a mode hm fo hfo data names rows types table h
  cases h6
  refine ⟨t, h1, h2, h4, ?_⟩
  refine h8.trans (if_pos ?_)
  split
  · rfl
  · have hb := (C50_chunk_size_bounds (renderFile fo.infer.marks rows).length names.length fo.nThreads).1
    refine Nat.le_antisymm ((beginning_of _ _ _).filter _).length_le ?_
    rw [← hin]
    exact ((beginning_prefix _ rows _ _ hb).filter _).length_le

/-- **C70 finding** … and no text with a non-blank row that begins beyond the first 4 MiB of its data, whatever the number of threads. -/
theorem C70_beyond_4MiB (m : Machine) (a : PyArgs) (mode : ErrMode) (hm : PyMode a.errorMode mode) (fo : FileOpts) (hfo : PyFollows m a mode .zstd fo)
    (data : List UInt8) (names rows types table) (h : CsvTable fo data names rows types table) (hbig : 2 ^ 20 ≤ (renderFile fo.infer.marks rows).length)
    (hout : ((rowsBeginning fo.infer.marks 4194304 rows).filter (fun r => !r.blank)).length < (rows.filter (fun r => !r.blank)).length) :
    ∃ t, readCsv m a (some data) = some (.value t) ∧ t.numRows = (rows.filter (fun r => !r.blank)).length ∧ Arrow.table t.fields t.batch = none := by
  obtain ⟨t, h1, h2, -, h4, -, b, s, h6, -, h8⟩ := C70_exact m a mode hm fo hfo data names rows types table h
  cases h6
  refine ⟨t, h1, h4, ?_⟩
  refine h8.trans (if_neg ?_)
  rw [if_neg (by omega)]
  have hb := (C50_chunk_size_bounds (renderFile fo.infer.marks rows).length names.length fo.nThreads).2
  have := ((beginning_prefix fo.infer.marks rows _ _ hb).filter (fun r => !r.blank)).length_le
  omega

theorem beginning_replicate (M : Marks) (r : WRow) : ∀ (n k : Nat), (rowsBeginning M k (List.replicate n r)).length ≤ k / ((r.render M).length + 1) + 1
  | 0, _ => by simp [rowsBeginning]
  | n + 1, k => by
    rw [List.replicate_succ, rowsBeginning]
    split
    · next h =>
      have ih := beginning_replicate M r n (k - ((r.render M).length + 1))
      rw [List.length_cons]
      have : k / ((r.render M).length + 1) = (k - ((r.render M).length + 1)) / ((r.render M).length + 1) + 1 := by
        rw [Nat.div_eq_sub_div (by omega) h]
      omega
    · simp

theorem tall_length (M : Marks) (n : Nat) : (renderFile M (tallRows (n + 1))).length = 2 * n + 1 := by
  induction n with
  | zero => rfl
  | succ n ih =>
    have := renderFile_append M [{ fields := [.plain [120]] }] (tallRows (n + 1)) (by simp) (by simp [tallRows])
    rw [show tallRows (n + 1 + 1) = [{ fields := [.plain [120]] }] ++ tallRows (n + 1) from rfl, this, List.length_append, List.length_cons, ih]
    simp [renderFile, joinFields, WRow.render, WField.render]; omega

/-- **C70 finding** The header `a` and more than 2,097,153 rows `x` (a file of 4 MiB): whatever the number of threads and the error mode, `read_csv` returns a table
that announces all rows and whose batch no consumer can read without leaving the columns' memory. With half a million rows the batch is right. -/
theorem C70_tall_refuted (m : Machine) (a : PyArgs) (hs : a.separator = none) (hq : a.quote = none) (hh : a.hasHeader = true) (mode : ErrMode) (hm : PyMode a.errorMode mode)
    (n : Nat) (hn : 2097153 < n) :
    ∃ t, readCsv m a (some (renderFile ⟨44, 34, 10⟩ (tallHeader :: tallRows n))) = some (.value t) ∧ t.numRows = n ∧ Arrow.table t.fields t.batch = none := by
  obtain ⟨c, hc, hfo⟩ := py_follows_exists m a hm .zstd
  obtain ⟨types, table, h⟩ := tall_table m a c hc hs hq hh n (by omega)
  have hf : ((tallRows n).filter (fun r => !r.blank)).length = n := by
    rw [List.filter_eq_self.2 (fun r hr => by rw [List.eq_of_mem_replicate hr]; decide), tallRows, List.length_replicate]
  obtain ⟨k, rfl⟩ : ∃ k, n = k + 1 := ⟨n - 1, by omega⟩
  obtain ⟨t, h1, h2, h3⟩ := C70_beyond_4MiB m a mode hm _ hfo _ _ _ _ _ h (by rw [tall_length]; omega) (by
    rw [hf]
    refine Nat.lt_of_le_of_lt (List.length_filter_le _ _) ?_
    refine Nat.lt_of_le_of_lt (beginning_replicate _ _ _ _) ?_
    simp only [WRow.render, List.map_cons, List.map_nil, joinFields, WField.render, Bool.false_eq_true, if_false, List.append_nil, List.length_singleton]
    omega)
  exact ⟨t, h1, by rw [h2, hf], h3⟩

theorem tall_first (m : Machine) (a : PyArgs) (hs : a.separator = none) (hq : a.quote = none) (hh : a.hasHeader = true) (mode : ErrMode) (hm : PyMode a.errorMode mode)
    (n : Nat) (hn : 0 < n) (hle : n ≤ 500000) :
    ∃ t v, readCsv m a (some (renderFile ⟨44, 34, 10⟩ (tallHeader :: tallRows n))) = some (.value t) ∧ t.numRows = n ∧ Arrow.table t.fields t.batch = some v := by
  obtain ⟨c, hc, hfo⟩ := py_follows_exists m a hm .zstd
  obtain ⟨types, table, h⟩ := tall_table m a c hc hs hq hh n hn
  have hf : ((tallRows n).filter (fun r => !r.blank)).length = n := by
    rw [List.filter_eq_self.2 (fun r hr => by rw [List.eq_of_mem_replicate hr]; decide), tallRows, List.length_replicate]
  obtain ⟨k, rfl⟩ : ∃ k, n = k + 1 := ⟨n - 1, by omega⟩
  obtain ⟨t, h1, -, h3, h4⟩ := C70_first_mebibyte m a mode hm _ hfo _ _ _ _ _ h (by
    apply beginning_all
    · intro r hr; rw [List.eq_of_mem_replicate hr]; simp
    · intro P S e hP hS hk
      have h1 := tall_length (m.fileOpts c .zstd).infer.marks k
      rw [e, renderFile_append _ P S hP hS, List.length_append, List.length_cons] at h1
      omega)
  exact ⟨t, _, h1, by rw [h3, hf], h4⟩

/- The hypotheses of these theorems are met by the tables of `tall_table` (Props/Python) for every number of rows; the example there builds one. -/

end Vroom
