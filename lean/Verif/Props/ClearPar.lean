import Verif.Lemmas.ClearGroups
import Verif.Spec.ClearCsv
import Verif.Props.AnyConvert
import Verif.Props.ClearFile
/-
C07, C13, C62, C64: files of any size, with the exact condition on quoted fields (`FileClear`).
-/
namespace Vroom
open Parquet Spec

/-- **C07** For a clear file (the exact condition for the serial read, `C13_serial_iff`), if it is below the parallel threshold or no chunk starts inside quotes, the parallel read
delivers the columns and the row total of the serial read, for every chunk size, threshold and header length; both are the table written.  Partial: see `C07_full_fails`. -/
theorem C07_clear_partial (cfg : ReadCfg) (hM : ReadSane cfg.dial) (n threshold chunkSize : Nat)
    (hc : 0 < chunkSize) (file : List UInt8) (start : Nat) (hs : start ≤ file.length)
    (rows : List WRow) (hne : ∀ r ∈ rows, r.fields ≠ []) (hwf : ∀ r ∈ rows, ∀ f ∈ r.fields, f.WF cfg.dial) (hclear : FileClear cfg.dial rows)
    (hfile : file.drop start = renderFile cfg.dial rows) (hn : n ≠ 0)
    (hcut : threshold ≤ file.length - start → CutsOutside cfg file start chunkSize) :
    ∃ ser par, readSerial cfg n (file.drop start) = some ser ∧ readAll cfg n threshold chunkSize file start = some par ∧
      wholeCols n par = wholeCols n ser ∧ par.totalRows = ser.totalRows ∧ ser.totalRows = (rows.filter (fun r => !r.blank)).length ∧
      (wholeCols n par).map (fun col => col.map Cell.toOption) = tableOf cfg.quote (commaPieces cfg.nullValues) n rows := by
  obtain ⟨ser, s1, s2, s3⟩ := C13_serial_clear cfg hM n hn rows hne hwf hclear
  rw [← hfile] at s1
  have inj : ∀ a b : List (List Cell), a.map (fun col => col.map Cell.toOption) = b.map (fun col => col.map Cell.toOption) → a = b := fun a b h =>
    (List.map_injective_iff.2 (List.map_injective_iff.2 toOption_inj)) h
  unfold readAll
  rw [if_neg hn]
  split
  · exact ⟨ser, ser, s1, s1, rfl, rfl, s3, s2⟩
  · obtain ⟨rs, h1, h2⟩ := C06_ranges_tile cfg.cpu cfg.quote file start chunkSize hs hc
    simp only [h1, Option.bind_eq_bind, Option.bind_some]
    split
    · exact ⟨ser, ser, s1, s1, rfl, rfl, s3, s2⟩
    · next hlen =>
      have hrs : rs ≠ [] := by intro h; rw [h] at hlen; simp at hlen
      have hrows : rows ≠ [] := by
        intro h
        subst h
        have : start = file.length := by
          have := congrArg List.length hfile
          simp [renderFile, joinFields] at this; omega
        cases rs with
        | nil => exact hrs rfl
        | cons r rs => obtain ⟨a, b, c, _⟩ := h2; omega
      obtain ⟨gs, g1, g2, g3⟩ := cuts_groups cfg hM file start chunkSize rows hrows hwf hfile rs h1 h2 hrs (hcut (by omega))
      have hsub : ∀ g ∈ gs, ∀ r ∈ g, r ∈ rows := by
        intro g hg r hr
        rw [← g2]
        exact List.mem_flatten.2 ⟨g, hg, hr⟩
      have gne : ∀ g ∈ gs, ∀ r ∈ g, r.fields ≠ [] := fun g hg r hr => hne r (hsub g hg r hr)
      have gwf : ∀ g ∈ gs, ∀ r ∈ g, ∀ f ∈ r.fields, f.WF cfg.dial := fun g hg r hr => hwf r (hsub g hg r hr)
      obtain ⟨res, r1, r2, r3, _⟩ := readChunks_groups_of cfg hM n hn gs g3 gne gwf (groupsWhole_clear cfg hM gs g3 gne gwf (by rw [g2]; exact hclear))
      have htab : (wholeCols n res).map (fun col => col.map Cell.toOption) = tableOf cfg.quote (commaPieces cfg.nullValues) n rows := by
        obtain ⟨chunks, t, k⟩ := res
        rw [wholeCols_of_groups n chunks t k _ r2, tableOf_groups, g2]
      refine ⟨ser, res, s1, by rw [g1]; exact r1, inj _ _ (htab.trans s2.symm), ?_, s3, htab⟩
      rw [r3, s3, ← g2]
      exact sum_filter_flatten gs

/-- How a CSV file is opened. -/
theorem csv_opened {o : FileOpts} {data names rows} (hin : CsvInput o data names rows) (hM : ReadSane o.infer.marks) (hne : ∀ r ∈ rows, r.fields ≠ [])
    (hwf : ∀ r ∈ rows, ∀ f ∈ r.fields, f.WF o.infer.marks) :
    ∃ st, openData o.infer o.sampleRows (ReaderState.new o.mode o.maxErrors) data = (none, st) ∧ st.schema.map (·.name) = names ∧
      st.schema.map (·.type) = openInfer o.infer data names.length o.sampleRows ∧ st.dataStart ≤ data.length ∧
      data.drop st.dataStart = renderFile o.infer.marks rows ∧ st.schema.length = names.length ∧ names.length ≠ 0 := by
  cases hin with
  | header hdr rows hh hfile hr hne' hhwf hgood =>
    obtain ⟨st, h1, h2, h3, h4, h5, h6, h7⟩ := C58_open_partial o.infer hh hM o.sampleRows o.mode o.maxErrors hdr rows hne' hhwf hr data hfile hgood
    refine ⟨st, h1, h3, by rw [h5, List.length_map], h6, h7, by rw [← h3, List.length_map], ?_⟩
    rw [List.length_map]
    exact fun h => hne' (List.length_eq_zero_iff.1 h)
  | bare first rows hh hfile hr =>
    have hne' := hne first (by simp)
    obtain ⟨st, h1, h2, h3, h4, h5, h6, h7⟩ := C59_open_no_header o.infer hh hM o.sampleRows o.mode o.maxErrors first rows hne' (hwf first (by simp)) hr data hfile
    refine ⟨st, h1, h4, by rw [h6, List.length_map, List.length_range], by omega, by rw [h3]; exact hfile, by rw [← h4, List.length_map], ?_⟩
    rw [List.length_map, List.length_range]
    exact fun h => hne' (List.length_eq_zero_iff.1 h)

/-- **C13** Opening and reading a clear CSV file of any size, with or without a header line: its names, the inferred types and the table written. -/
theorem C13_read_clear {o : FileOpts} {data names rows} (h : ClearCsv o data names rows) :
    ReadFile o data names (openInfer o.infer data names.length o.sampleRows) (tableOf o.infer.quote (commaPieces o.infer.nullValues) names.length rows)
      (rows.filter (fun r => !r.blank)).length := by
  obtain ⟨st, h1, h2, h3, h4, h5, h6, h7⟩ := csv_opened h.input h.sane h.fields h.wf
  have hlen : (renderFile o.infer.marks rows).length = data.length - st.dataStart := by rw [← h5, List.length_drop]
  have hcs : 0 < calculateChunkSize (data.length - st.dataStart) st.schema.length o.nThreads :=
    Nat.lt_of_lt_of_le (by decide) (C50_chunk_size_bounds (data.length - st.dataStart) st.schema.length o.nThreads).1
  obtain ⟨ser, par, -, e2, -, e4, e5, e6⟩ := C07_clear_partial o.read h.sane names.length (1024 * 1024) _ hcs data st.dataStart h4 rows h.fields h.wf h.clear h5 h7 (by
    intro ht
    have := h.cuts (by omega)
    rw [hlen, show data.length - (data.length - st.dataStart) = st.dataStart by omega, ← h6] at this
    exact targets_cutsOutside o.read (readSane_quote h.sane) data st.dataStart _ h4 hcs this)
  refine ⟨⟨st, par, h1, ?_, h2.symm, h3.symm, ?_, ?_⟩⟩
  · unfold readAll'
    rw [← h6] at e2
    exact e2
  · rw [h6]; exact e6.symm
  · rw [e4, e5]

/-- Rows of at most 32 MiB and short texts in columns without inferred type keep a clear file within the limits of `Moderate`. -/
theorem clear_moderate {o : FileOpts} {data names rows} (h : ClearCsv o data names rows) (types : List DataType) (table : List (List (Option (List UInt8))))
    (hL : ∀ r ∈ rows, (r.render o.infer.marks).length ≤ 2 ^ 25)
    (hN : ∀ (j : Nat) t, types[j]? = some t → t = .na ∨ t = .unknown → ∀ v, some v ∈ table.getD j [] → v.length ≤ 4096) : Moderate o data types table := by
  refine Or.inr ⟨?_, hN⟩
  intro st rs ho ht hrs
  obtain ⟨st', h1, h2, h3, h4, h5, h6, h7⟩ := csv_opened h.input h.sane h.fields h.wf
  rw [ho, Prod.mk.injEq] at h1
  obtain ⟨-, rfl⟩ := h1
  have hlen : (renderFile o.infer.marks rows).length = data.length - st.dataStart := by rw [← h5, List.length_drop]
  obtain ⟨c1, c2⟩ := C50_chunk_size_bounds (data.length - st.dataStart) st.schema.length o.nThreads
  have hT := h.cuts (by omega)
  rw [hlen, show data.length - (data.length - st.dataStart) = st.dataStart by omega, ← h6] at hT
  intro r hr
  have := C63_chunk_bound_partial o.read h.sane data st.dataStart _ (2 ^ 25) h4 (by omega) rows h.wf h5 hL hT rs hrs r hr
  omega

/-- **C62** Converting a clear CSV file of any size, with or without a header line: the output holds the table written.  Partial: integer columns that hold the minimum of their type (C17),
rows above 32 MiB, long texts in columns without inferred type, footers of 4 GiB, LZ4 and dictionaries with compression (C35), files that are not clear (C12, C07). -/
theorem C62_convert_any_size_partial (o : FileOpts) (hdict : o.env.enableDictionary = false ∨ o.env.compression = .none)
    (dec : Int → List UInt8 → Option (List UInt8)) (hcodec : CodecOk o.env dec) (hlz : o.env.compression ≠ .lz4)
    (w : ConvWorld) (hw : Spoken w) (data : List UInt8) (r : ConvResult) (out : Option (List UInt8)) (h : ConvertedFile o w data r out) (hok : r.ok = true)
    (names : List (List UInt8)) (rows : List WRow) (hcsv : ClearCsv o data names rows)
    (hfoot : footerBound (data.length / 2 ^ 20 + 1) names < 2 ^ 32) (hL : ∀ r ∈ rows, (r.render o.infer.marks).length ≤ 2 ^ 25)
    (types : List DataType) (htypes : types = openInfer o.infer data names.length o.sampleRows)
    (table : List (List (Option (List UInt8)))) (htable : table = tableOf o.infer.quote (commaPieces o.infer.nullValues) names.length rows)
    (hmin : ¬ HasMinimum types table)
    (hN : ∀ (j : Nat) t, types[j]? = some t → t = .na ∨ t = .unknown → ∀ v, some v ∈ table.getD j [] → v.length ≤ 4096) :
    ∃ bytes, out = some bytes ∧ Holds dec o.lanes o.floatBits bytes names types table (rows.filter (fun r => !r.blank)).length := by
  have hread := C13_read_clear hcsv
  rw [← htypes, ← htable] at hread
  obtain ⟨bytes, e1, e2, -⟩ := C83_convert_partial o hdict dec hcodec hlz w hw data r out h hok hread hmin (clear_moderate hcsv types table hL hN) hfoot
  exact ⟨bytes, e1, e2⟩

/-- **C64** `count` on a clear CSV file prints its number of rows. -/
theorem C64_count_clear_partial (L : Libc) {o : FileOpts} {data names rows} (h : ClearCsv o data names rows)
    (hmin : ¬ HasMinimum (openInfer o.infer data names.length o.sampleRows) (tableOf o.infer.quote (commaPieces o.infer.nullValues) names.length rows))
    (hsize : data.length < 2 ^ 32) :
    CliCmd.count.run L o (.file data) = some (.exit 0 (asc (toString (rows.filter (fun r => !r.blank)).length) ++ [10])) :=
  C82_count_partial L (C13_read_clear h) hmin hsize

/-- **C64** `head -n N` on a clear CSV file prints the names (if there is a header) and the first `N` rows. -/
theorem C64_head_clear_partial (L : Libc) {o : FileOpts} {data names rows} (h : ClearCsv o data names rows) (types : List DataType)
    (htypes : types = openInfer o.infer data names.length o.sampleRows)
    (table : List (List (Option (List UInt8)))) (htable : table = tableOf o.infer.quote (commaPieces o.infer.nullValues) names.length rows)
    (hmin : ¬ HasMinimum types table) (hsize : data.length < 2 ^ 32) (n : Nat) :
    (CliCmd.head n).run L o (.file data) = some (.exit 0 ((if o.infer.hasHeader then csvLine o.infer.marks names else []) ++
      (List.range (min n (rows.filter (fun r => !r.blank)).length)).flatMap
        (fun i => csvLine o.infer.marks ((List.range names.length).map (displayed L o.lanes o.floatBits types table i))))) := by
  subst htypes htable
  exact C82_head_partial L (C13_read_clear h) hmin hsize n

/-- **C69** `vroom convert` of a clear CSV file: exit status 0 means the output holds the table written. -/
theorem C69_convert_clear_partial (m : Machine) (w : ConvWorld) (hw : Spoken w) (data : List UInt8)
    (items : List ConvItem) (hv : ∀ it ∈ items, it.Valid)
    (hf : (items.filterMap ConvItem.file?).length = 1) (ho : items.filterMap ConvItem.output? ≠ []) (out : Option (List UInt8))
    (h : VroomConverts m w data (asc "convert" :: items.flatMap ConvItem.args) 0 out)
    (fo : FileOpts) (hfo : Follows m (convSettings items).common (lastOf items ConvItem.compression? .zstd) fo)
    (dec : Int → List UInt8 → Option (List UInt8)) (hcodec : CodecOk fo.env dec) (hlz : fo.env.compression ≠ .lz4)
    (names : List (List UInt8)) (rows : List WRow) (hcsv : ClearCsv fo data names rows)
    (hfoot : footerBound (data.length / 2 ^ 20 + 1) names < 2 ^ 32) (hL : ∀ r ∈ rows, (r.render fo.infer.marks).length ≤ 2 ^ 25)
    (types : List DataType) (htypes : types = openInfer fo.infer data names.length fo.sampleRows)
    (table : List (List (Option (List UInt8)))) (htable : table = tableOf fo.infer.quote (commaPieces fo.infer.nullValues) names.length rows)
    (hmin : ¬ HasMinimum types table)
    (hN : ∀ (j : Nat) t, types[j]? = some t → t = .na ∨ t = .unknown → ∀ v, some v ∈ table.getD j [] → v.length ≤ 4096) :
    ∃ bytes, out = some bytes ∧ Holds dec fo.lanes fo.floatBits bytes names types table (rows.filter (fun r => !r.blank)).length := by
  have hread := C13_read_clear hcsv
  rw [← htypes, ← htable] at hread
  exact C83_command_partial m w hw data items hv hf ho out h fo hfo dec hcodec hlz hread hmin (clear_moderate hcsv types table hL hN) hfoot

/-- **C72** `to_parquet` of a clear CSV file: if it returns, the output holds the table written. -/
theorem C72_clear_partial (m : Machine) (w : ConvWorld) (hw : Spoken w) (data : List UInt8) (a : PyConvArgs)
    (codec : Compression) (hc : PyCodec a.compression codec) (mode : ErrMode) (hm : PyMode a.errorMode mode)
    (fo : FileOpts) (hfo : PyFollows m { errorMode := a.errorMode, maxErrors := a.maxErrors } mode codec fo)
    (out : Option (List UInt8)) (h : ToParquet m w data a (.value ()) out)
    (dec : Int → List UInt8 → Option (List UInt8)) (hcodec : CodecOk fo.env dec) (hlz : codec ≠ .lz4)
    (names : List (List UInt8)) (rows : List WRow) (hcsv : ClearCsv fo data names rows)
    (hfoot : footerBound (data.length / 2 ^ 20 + 1) names < 2 ^ 32) (hL : ∀ r ∈ rows, (r.render fo.infer.marks).length ≤ 2 ^ 25)
    (types : List DataType) (htypes : types = openInfer fo.infer data names.length fo.sampleRows)
    (table : List (List (Option (List UInt8)))) (htable : table = tableOf fo.infer.quote (commaPieces fo.infer.nullValues) names.length rows)
    (hmin : ¬ HasMinimum types table)
    (hN : ∀ (j : Nat) t, types[j]? = some t → t = .na ∨ t = .unknown → ∀ v, some v ∈ table.getD j [] → v.length ≤ 4096) :
    ∃ bytes, out = some bytes ∧ Holds dec fo.lanes fo.floatBits bytes names types table (rows.filter (fun r => !r.blank)).length := by
  have hread := C13_read_clear hcsv
  rw [← htypes, ← htable] at hread
  exact C83_python_partial m w hw data a codec hc mode hm fo hfo out h dec hcodec hlz hread hmin (clear_moderate hcsv types table hL hN) hfoot

/-- **C92** (number of threads, any size): conversions of a CSV file that is clear, with chunk ends outside quotes for both numbers of threads, give files that hold the same table.
Partial: the conditions of `C62_convert_any_size_partial`; the bytes may differ (row groups). -/
theorem C92_threads_clear_partial (o : FileOpts) (k : Nat) (hdict : o.env.enableDictionary = false ∨ o.env.compression = .none)
    (dec : Int → List UInt8 → Option (List UInt8)) (hcodec : CodecOk o.env dec) (hlz : o.env.compression ≠ .lz4)
    {w w' : ConvWorld} (hw : Spoken w) (hw' : Spoken w') (data : List UInt8) {r r' : ConvResult} {out out' : Option (List UInt8)}
    (h : ConvertedFile o w data r out) (hok : r.ok = true) (h' : ConvertedFile { o with nThreads := k } w' data r' out') (hok' : r'.ok = true)
    (names : List (List UInt8)) (rows : List WRow) (hcsv : ClearCsv o data names rows) (hcsv' : ClearCsv { o with nThreads := k } data names rows)
    (hfoot : footerBound (data.length / 2 ^ 20 + 1) names < 2 ^ 32) (hL : ∀ r ∈ rows, (r.render o.infer.marks).length ≤ 2 ^ 25)
    (types : List DataType) (htypes : types = openInfer o.infer data names.length o.sampleRows)
    (table : List (List (Option (List UInt8)))) (htable : table = tableOf o.infer.quote (commaPieces o.infer.nullValues) names.length rows)
    (hmin : ¬ HasMinimum types table)
    (hN : ∀ (j : Nat) t, types[j]? = some t → t = .na ∨ t = .unknown → ∀ v, some v ∈ table.getD j [] → v.length ≤ 4096) :
    ∃ bytes bytes', out = some bytes ∧ out' = some bytes' ∧
      Holds dec o.lanes o.floatBits bytes names types table (rows.filter (fun r => !r.blank)).length ∧
      Holds dec o.lanes o.floatBits bytes' names types table (rows.filter (fun r => !r.blank)).length := by
  obtain ⟨b, e1, e2⟩ := C62_convert_any_size_partial o hdict dec hcodec hlz w hw data r out h hok names rows hcsv hfoot hL types htypes table htable hmin hN
  obtain ⟨b', e1', e2'⟩ := C62_convert_any_size_partial { o with nThreads := k } hdict dec hcodec hlz w' hw' data r' out' h' hok' names rows hcsv' hfoot hL types htypes table htable hmin hN
  exact ⟨b, b', e1, e1', e2, e2'⟩

/-- **C13** Below 1 MiB the condition is exact also through `open` and `read_all`: the table written is read back if and only if the file is clear. -/
theorem C13_read_iff (o : FileOpts) (data : List UInt8) (names : List (List UInt8)) (rows : List WRow) (hin : CsvInput o data names rows) (hM : ReadSane o.infer.marks)
    (hne : ∀ r ∈ rows, r.fields ≠ [] ∧ r.fields.length ≤ names.length) (hwf : ∀ r ∈ rows, ∀ f ∈ r.fields, f.WF o.infer.marks)
    (hnull : ∀ v ∈ commaPieces o.infer.nullValues, v.head? ≠ some o.infer.quote) (hlen : data.length < 2 ^ 20) :
    (∃ types n, ReadFile o data names types (tableOf o.infer.quote (commaPieces o.infer.nullValues) names.length rows) n) ↔ FileClear o.infer.marks rows := by
  have hrl : (renderFile o.infer.marks rows).length ≤ data.length := by
    cases hin with
    | header hdr rows hh hfile hr =>
      rw [hfile, renderFile_cons _ _ _ hr]; simp only [List.length_append, List.length_cons]; omega
    | bare first rows hh hfile => rw [hfile]
  constructor
  · rintro ⟨types, n, ⟨st, res, h1, h2, h3, -, h4, -⟩⟩
    obtain ⟨st', g1, g2, g3, g4, g5, g6, g7⟩ := csv_opened hin hM (fun r hr => (hne r hr).1) hwf
    rw [h1, Prod.mk.injEq] at g1
    obtain ⟨-, rfl⟩ := g1
    refine (C13_serial_iff o.read hM names.length g7 rows hne hwf hnull).1 ⟨res, ?_, ?_⟩
    · unfold readAll' readAll at h2
      rw [if_neg (by rw [g6]; exact g7), if_pos (by omega), g5, g6] at h2
      exact h2
    · rw [g6] at h4; exact h4.symm
  · intro hclear
    exact ⟨_, _, C13_read_clear ⟨hin, hM, fun r hr => (hne r hr).1, hwf, hclear, fun h => absurd h (by omega)⟩⟩

/-- Non-vacuity of `C07_clear_partial`: the clear file whose third line has a separator in quotes after an unquoted field, read in several chunks. -/
example : CutsOutside cfg0 (renderFile cfg0.dial clearRows) 0 60 ∧ FileClear cfg0.dial clearRows ∧ ¬ (∀ r ∈ clearRows, TameAfterPlain cfg0.dial r.fields) ∧
    (readAll cfg0 2 0 60 (renderFile cfg0.dial clearRows) 0).map (fun r => r.chunks.length) = some 2 := by
  refine ⟨?_, clearRows_ok.1, clearRows_ok.2.2.2, by decide +kernel⟩
  intro rs h
  rw [show chunkRanges cfg0.cpu cfg0.quote (renderFile cfg0.dial clearRows) 0 60 = some [(0, 75), (75, 165)] by decide +kernel] at h
  cases h
  decide +kernel

/-- Non-vacuity of `ClearCsv` (and so of `C13_read_clear`, `C62_convert_any_size_partial`, `C64_*_clear_partial`, `C69_convert_clear_partial`). -/
example : ClearCsv Demo.fopts (renderFile Demo.fopts.infer.marks (Demo.csvHeader :: clearRows)) (Demo.csvHeader.fields.map (·.columnName)) clearRows := by
  obtain ⟨c1, c2, c3, -⟩ := clearRows_ok
  refine ⟨.header Demo.csvHeader clearRows rfl rfl (by simp [clearRows]) (by decide) ?_ (Or.inr (Or.inl rfl)), cfg0_sane, fun r h => (c2 r h).1, c3, c1, ?_⟩
  · intro f hf
    simp only [Demo.csvHeader, List.mem_cons, List.not_mem_nil, or_false] at hf
    rcases hf with rfl | rfl
    · simp only [WField.WF]; decide +kernel
    · trivial
  · intro h
    have : (renderFile Demo.fopts.infer.marks clearRows).length < 2 ^ 20 := by decide +kernel
    omega

end Vroom
