import Verif.Spec.QuoteAll
import Verif.Props.ClearPar
/- C13: a table written with every value in quotes is read back exactly, whatever bytes it holds. -/
namespace Vroom
open Parquet Spec

/-- The written row of a list of values. -/
def quotedRow (vs : List (List UInt8)) : WRow := ⟨vs.map .quoted, false⟩

theorem quotedRow_blank (vs : List (List UInt8)) : (quotedRow vs).blank = false := by
  cases vs with
  | nil => rfl
  | cons v vs =>
    unfold WRow.blank quotedRow
    simp

theorem quoteAllLine_render (M : Marks) (vs : List (List UInt8)) : quoteAllLine M vs = (quotedRow vs).render M ++ [10] := by
  simp [quoteAllLine, quotedRow, WRow.render, List.map_map, Function.comp_def, WField.render]

theorem quoteAll_render (M : Marks) (h10 : M.eol = 10) (lines : List (List (List UInt8))) : quoteAll M lines = renderFile M (lines.map quotedRow ++ [emptyRow]) := by
  induction lines with
  | nil => simp [quoteAll, renderFile, emptyRow, WRow.render, joinFields, WField.render]
  | cons l lines ih =>
    rw [List.map_cons, List.cons_append, renderFile_cons _ _ _ (by simp), ← ih, quoteAll, List.flatMap_cons, quoteAllLine_render, h10]
    simp [quoteAll]

theorem renderFile_row_le (M : Marks) (rows : List WRow) : ∀ r ∈ rows, (r.render M).length ≤ (renderFile M rows).length := by
  induction rows with
  | nil => intro r hr; cases hr
  | cons a rows ih =>
    intro r hr
    by_cases hne : rows = []
    · subst hne
      rw [List.mem_singleton.1 hr]
      simp [renderFile, joinFields]
    · rw [renderFile_cons _ _ _ hne]
      simp only [List.length_append, List.length_cons]
      rcases List.mem_cons.1 hr with rfl | hr
      · omega
      · have := ih r hr
        omega

theorem quotedRow_tame (M : Marks) (vs : List (List UInt8)) : TameAfterPlain M (vs.map .quoted) := by
  induction vs with
  | nil => trivial
  | cons v vs ih => exact ih

theorem quotedRow_wf (M : Marks) (vs : List (List UInt8)) (h : vs ≠ []) : (quotedRow vs).WF M :=
  ⟨by simpa [quotedRow] using h, fun f hf => by
    obtain ⟨v, -, rfl⟩ := List.mem_map.1 hf
    trivial, quotedRow_tame M vs⟩

theorem quoteAll_rows_wf (M : Marks) (rows : List (List (List UInt8))) (h : ∀ r ∈ rows, r ≠ []) : ∀ r ∈ rows.map quotedRow ++ [emptyRow], r.WF M := by
  intro r hr
  rcases List.mem_append.1 hr with hr | hr
  · obtain ⟨v, hv, rfl⟩ := List.mem_map.1 hr
    exact quotedRow_wf M v (h v hv)
  · rw [List.mem_singleton.1 hr]
    exact emptyRow_wf M

theorem quoteAll_filter (rows : List (List (List UInt8))) : (rows.map quotedRow ++ [emptyRow]).filter (fun r => !r.blank) = rows.map quotedRow := by
  rw [List.filter_append]
  have h1 : (rows.map quotedRow).filter (fun r => !r.blank) = rows.map quotedRow := by
    refine List.filter_eq_self.2 fun r hr => ?_
    obtain ⟨v, -, rfl⟩ := List.mem_map.1 hr
    rw [quotedRow_blank]; rfl
  rw [h1, show [emptyRow].filter (fun r => !r.blank) = [] by decide, List.append_nil]

theorem quotedRow_valueAt (q : UInt8) (nulls : List (List UInt8)) (hnull : ∀ v ∈ nulls, v.head? ≠ some q) (vs : List (List UInt8)) (j : Nat) :
    (quotedRow vs).valueAt q nulls j = vs[j]? := by
  unfold WRow.valueAt quotedRow
  rw [List.getElem?_map]
  cases h : vs[j]? with
  | none => rfl
  | some b =>
    simp only [Option.map_some, WField.value]
    rw [if_neg]
    intro hm
    exact hnull _ hm rfl

theorem quoteAll_table (q : UInt8) (nulls : List (List UInt8)) (hnull : ∀ v ∈ nulls, v.head? ≠ some q) (n : Nat) (rows : List (List (List UInt8))) :
    tableOf q nulls n (rows.map quotedRow ++ [emptyRow]) = columnsOf n rows := by
  unfold tableOf columnsOf
  rw [quoteAll_filter]
  simp only [List.map_map, Function.comp_def, quotedRow_valueAt q nulls hnull]

/-- A clear CSV file of any size is read back when no chunk starts inside quotes (the exact condition, `C13_read_big_iff`). -/
theorem C13_read_cuts {o : FileOpts} {data names rows} (hin : CsvInput o data names rows) (hM : ReadSane o.infer.marks)
    (hne : ∀ r ∈ rows, r.fields ≠ []) (hwf : ∀ r ∈ rows, ∀ f ∈ r.fields, f.WF o.infer.marks) (hclear : FileClear o.infer.marks rows)
    (hcut : 2 ^ 20 ≤ (renderFile o.infer.marks rows).length → CutsOutside o.read data (data.length - (renderFile o.infer.marks rows).length)
      (calculateChunkSize (renderFile o.infer.marks rows).length names.length o.nThreads)) :
    ReadFile o data names (openInfer o.infer data names.length o.sampleRows) (tableOf o.infer.quote (commaPieces o.infer.nullValues) names.length rows)
      (rows.filter (fun r => !r.blank)).length := by
  obtain ⟨st, h1, h2, h3, h4, h5, h6, h7⟩ := csv_opened hin hM hne hwf
  have hlen : (renderFile o.infer.marks rows).length = data.length - st.dataStart := by rw [← h5, List.length_drop]
  have hcs : 0 < calculateChunkSize (data.length - st.dataStart) st.schema.length o.nThreads :=
    Nat.lt_of_lt_of_le (by decide) (C50_chunk_size_bounds (data.length - st.dataStart) st.schema.length o.nThreads).1
  obtain ⟨ser, par, -, e2, -, e4, e5, e6⟩ := C07_clear_partial o.read hM names.length (1024 * 1024) _ hcs data st.dataStart h4 rows hne hwf hclear h5 h7 (by
    intro ht
    have := hcut (by omega)
    rw [hlen, show data.length - (data.length - st.dataStart) = st.dataStart by omega, ← h6] at this
    exact this)
  refine ⟨⟨st, par, h1, ?_, h2.symm, h3.symm, ?_, ?_⟩⟩
  · unfold readAll'
    rw [← h6] at e2
    exact e2
  · rw [h6]; exact e6.symm
  · rw [e4, e5]

/-- **C13** A table of arbitrary texts (separators, line ends, quotes, null spellings, empty texts, any bytes) written with every value between quotes is read back as it is: the names in
the first line (without their trailing blanks), one row per further line, every value exactly, a null where a line has no value.  Any values and numbers of rows and columns below 1 MiB;
from 1 MiB on for texts without line ends (with them the parallel reader can cut inside quotes: C07). -/
theorem C13_quote_all (o : FileOpts) (hh : o.infer.hasHeader = true) (hM : ReadSane o.infer.marks)
    (hnull : ∀ v ∈ commaPieces o.infer.nullValues, v.head? ≠ some o.infer.quote)
    (names : List (List UInt8)) (rows : List (List (List UInt8))) (hn : names ≠ []) (hr : ∀ r ∈ rows, r ≠ [])
    (hgood : names.map trimEnd ≠ [[]] ∨ o.mode = .disabled ∨ o.mode = .bestEffort)
    (data : List UInt8) (hdata : data = quoteAll o.infer.marks (names :: rows))
    (hlen : data.length < 2 ^ 20 ∨ ∀ r ∈ rows, ∀ v ∈ r, (10 : UInt8) ∉ v ∧ (13 : UInt8) ∉ v) :
    ReadFile o data (names.map trimEnd) (openInfer o.infer data names.length o.sampleRows) (columnsOf names.length rows) rows.length := by
  have hnm : (quotedRow names).fields.map (·.columnName) = names.map trimEnd := by
    simp [quotedRow, List.map_map, Function.comp_def, WField.columnName]
  have hfile : data = renderFile o.infer.marks (quotedRow names :: (rows.map quotedRow ++ [emptyRow])) := by
    rw [hdata, quoteAll_render _ hM.eol_lf]; rfl
  have hwf := quoteAll_rows_wf o.infer.marks rows hr
  have hclear : FileClear o.infer.marks (rows.map quotedRow ++ [emptyRow]) := fileClear_tame o.read hM _ hwf
  have hin : CsvInput o data ((quotedRow names).fields.map (·.columnName)) (rows.map quotedRow ++ [emptyRow]) :=
    .header (quotedRow names) _ hh hfile (by simp) (by simpa [quotedRow] using hn) (quotedRow_wf o.infer.marks names hn).wf (by rw [hnm]; exact hgood)
  rw [hnm] at hin
  have hsplit := hfile
  rw [renderFile_cons _ _ _ (by simp)] at hsplit
  have hdl := congrArg List.length hsplit
  simp only [List.length_append, List.length_cons] at hdl
  have := C13_read_cuts hin hM (fun r h => (hwf r h).ne) (fun r h => (hwf r h).wf) hclear (by
    intro hbig
    rcases hlen with hlen | hflat
    · omega
    · refine flat_cutsOutside o.read hM data _ _ (by omega)
        (Nat.lt_of_lt_of_le (by decide) (C50_chunk_size_bounds _ _ _).1) (rows.map quotedRow ++ [emptyRow]) ?_ ?_
      · intro r hr
        refine ⟨hwf r hr, ?_⟩
        rcases List.mem_append.1 hr with hr | hr
        · obtain ⟨vs, hvs, rfl⟩ := List.mem_map.1 hr
          intro f hf
          obtain ⟨v, hv, rfl⟩ := List.mem_map.1 hf
          exact hflat vs hvs v hv
        · rw [List.mem_singleton.1 hr]
          intro f hf
          rw [List.mem_singleton.1 hf]
          simp [WField.Flat]
      · rw [hsplit]
        have : (((quotedRow names).render o.infer.marks) ++ o.infer.marks.eol :: renderFile o.infer.marks (rows.map quotedRow ++ [emptyRow])) =
            ((quotedRow names).render o.infer.marks ++ [o.infer.marks.eol]) ++ renderFile o.infer.marks (rows.map quotedRow ++ [emptyRow]) := by simp
        rw [this]
        refine List.drop_left' ?_
        simp only [List.length_append, List.length_cons, List.length_nil]
        omega)
  rw [quoteAll_filter, quoteAll_table _ _ hnull, List.length_map, List.length_map] at this
  exact this

/-- **C62** … and converting it gives a Parquet file that holds those names and texts, each as its column's type stores it.  Partial: integer columns that hold the minimum of their
type (C17), long texts in columns without inferred type, footers of 4 GiB, LZ4 and dictionaries with compression (C35), 1 MiB or more. -/
theorem C62_quote_all_partial (o : FileOpts) (hdict : o.env.enableDictionary = false ∨ o.env.compression = .none)
    (dec : Int → List UInt8 → Option (List UInt8)) (hcodec : CodecOk o.env dec) (hlz : o.env.compression ≠ .lz4)
    (w : ConvWorld) (hw : Spoken w) (data : List UInt8) (r : ConvResult) (out : Option (List UInt8)) (h : ConvertedFile o w data r out) (hok : r.ok = true)
    (hh : o.infer.hasHeader = true) (hM : ReadSane o.infer.marks)
    (hnull : ∀ v ∈ commaPieces o.infer.nullValues, v.head? ≠ some o.infer.quote)
    (names : List (List UInt8)) (rows : List (List (List UInt8))) (hn : names ≠ []) (hr : ∀ r ∈ rows, r ≠ [])
    (hgood : names.map trimEnd ≠ [[]] ∨ o.mode = .disabled ∨ o.mode = .bestEffort)
    (hdata : data = quoteAll o.infer.marks (names :: rows)) (hlen : data.length < 2 ^ 20)
    (hfoot : footerBound (data.length / 2 ^ 20 + 1) (names.map trimEnd) < 2 ^ 32)
    (types : List DataType) (htypes : types = openInfer o.infer data names.length o.sampleRows)
    (hmin : ¬ HasMinimum types (columnsOf names.length rows))
    (hN : ∀ (j : Nat) t, types[j]? = some t → t = .na ∨ t = .unknown → ∀ v, some v ∈ (columnsOf names.length rows).getD j [] → v.length ≤ 4096) :
    ∃ bytes, out = some bytes ∧ Holds dec o.lanes o.floatBits bytes (names.map trimEnd) types (columnsOf names.length rows) rows.length := by
  have hnm : (quotedRow names).fields.map (·.columnName) = names.map trimEnd := by
    simp [quotedRow, List.map_map, Function.comp_def, WField.columnName]
  have hfile : data = renderFile o.infer.marks (quotedRow names :: (rows.map quotedRow ++ [emptyRow])) := by
    rw [hdata, quoteAll_render _ hM.eol_lf]; rfl
  have hwf := quoteAll_rows_wf o.infer.marks rows hr
  have hclear : FileClear o.infer.marks (rows.map quotedRow ++ [emptyRow]) := fileClear_tame o.read hM _ hwf
  have hin : CsvInput o data ((quotedRow names).fields.map (·.columnName)) (rows.map quotedRow ++ [emptyRow]) :=
    .header (quotedRow names) _ hh hfile (by simp) (by simpa [quotedRow] using hn) (quotedRow_wf o.infer.marks names hn).wf (by rw [hnm]; exact hgood)
  rw [hnm] at hin
  have hrl : (renderFile o.infer.marks (rows.map quotedRow ++ [emptyRow])).length ≤ data.length := by
    rw [hfile, renderFile_cons _ _ _ (by simp)]; simp only [List.length_append, List.length_cons]; omega
  have hcsv : ClearCsv o data (names.map trimEnd) (rows.map quotedRow ++ [emptyRow]) :=
    ⟨hin, hM, fun r h => (hwf r h).ne, fun r h => (hwf r h).wf, hclear, fun h => absurd h (by omega)⟩
  have hread := C13_quote_all o hh hM hnull names rows hn hr hgood data hdata (Or.inl hlen)
  rw [← htypes] at hread
  have hrow : ∀ r ∈ rows.map quotedRow ++ [emptyRow], (r.render o.infer.marks).length ≤ 2 ^ 25 := by
    intro r hr
    have := renderFile_row_le o.infer.marks _ r hr
    omega
  obtain ⟨bytes, e1, e2, -⟩ := C83_convert_partial o hdict dec hcodec hlz w hw data r out h hok hread hmin (clear_moderate hcsv types _ hrow hN) hfoot
  exact ⟨bytes, e1, e2⟩

/-- Non-vacuity of `C13_quote_all`: separators, line ends, quotes, an empty text, a null spelling and a short row. -/
example : let data := quoteAll Demo.fopts.infer.marks [[[97], [98]], [[44, 10, 34], []], [[78, 65]], [[13], [49]]]
    data.length < 2 ^ 20 ∧ (∀ v ∈ commaPieces Demo.fopts.infer.nullValues, v.head? ≠ some Demo.fopts.infer.quote) ∧
    (readSerial Demo.fopts.read 2 (data.drop 8)).map (fun r => (wholeCols 2 r).map (fun c => c.map Cell.toOption)) =
      some [[some [44, 10, 34], some [78, 65], some [13]], [some [], none, some [49]]] := by
  decide +kernel

end Vroom
