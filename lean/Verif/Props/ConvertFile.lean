import Verif.Model.ConvertFile
import Verif.Props.EndToEnd
import Verif.Props.Open
import Mathlib.Tactic.ByContra
/-
C62: from the CSV file to the Parquet file, in one theorem.
-/
namespace Vroom
open Parquet Spec

/-- Everything after a successful `open` whose outcome is known. -/
theorem converted_file (o : FileOpts) (hM : ReadSane o.infer.marks) (hdict : o.env.enableDictionary = false ∨ o.env.compression = .none)
    (dec : Int → List UInt8 → Option (List UInt8)) (hcodec : CodecOk o.env dec) (hlz : o.env.compression ≠ .lz4)
    (w : ConvWorld) (hw : Spoken w) (file : Bytes) (st : ReaderState)
    (r : ConvResult) (out : Option (List UInt8)) (h : Converted (o.conv st file) w file st.dataStart r out) (hok : r.ok = true)
    (names : List (List UInt8)) (types : List DataType) (hnames : st.schema.map (·.name) = names) (htypes : st.schema.map (·.type) = types)
    (hnull : ∀ c ∈ st.schema, c.nullable = true) (hstart : st.dataStart ≤ file.length)
    (rows : List WRow) (hwf : ∀ r ∈ rows, r.WF o.infer.marks) (hdata : file.drop st.dataStart = renderFile o.infer.marks rows)
    (hne : names ≠ []) (hfoot : footerBound (file.length / 2 ^ 20 + 1) names < 2 ^ 32)
    (hL : ∀ r ∈ rows, (r.render o.infer.marks).length ≤ 2 ^ 25)
    (hT : 2 ^ 20 ≤ file.length - st.dataStart →
      TargetsOutside o.read file st.dataStart (calculateChunkSize (file.length - st.dataStart) names.length o.nThreads))
    (table : List (List (Option (List UInt8))))
    (htable : table = tableOf o.infer.quote (commaPieces o.infer.nullValues) names.length rows)
    (hmin : ¬ HasMinimum types table)
    (hN : ∀ j t, types[j]? = some t → t = .na ∨ t = .unknown → ∀ v, some v ∈ table.getD j [] → v.length ≤ 4096) :
    ∃ bytes, out = some bytes ∧ Holds dec o.lanes o.floatBits bytes names types table (rows.filter (fun r => !r.blank)).length := by
  have hlen : st.schema.length = names.length := by rw [← hnames, List.length_map]
  have hq : o.read.quote ≠ 10 ∧ o.read.quote ≠ 13 := readSane_quote hM
  obtain ⟨c1, c2⟩ := C50_chunk_size_bounds (file.length - st.dataStart) names.length o.nThreads
  have hcs : (o.conv st file).chunkSize = calculateChunkSize (file.length - st.dataStart) names.length o.nThreads := by
    simp only [FileOpts.conv, hlen]
  generalize calculateChunkSize (file.length - st.dataStart) names.length o.nThreads = cs at *
  have hc : 0 < (o.conv st file).chunkSize := by omega
  have hget : ∀ (j : Nat) (c : ColSchema), (o.conv st file).schema[j]? = some c → types[j]? = some c.type := by
    intro j c hj
    have hj : st.schema[j]? = some c := hj
    rw [← htypes, List.getElem?_map, hj]; rfl
  have htypes' : (o.conv st file).schema.map (·.type) = types := htypes
  have hnames' : (o.conv st file).schema.map (·.name) = names := hnames
  have hfl : file.length < 2 ^ 50 := by
    have : (file.length / 2 ^ 20 + 1 + 1) * 400 ≤ footerBound (file.length / 2 ^ 20 + 1) names := Nat.mul_le_mul_left _ (by omega)
    omega
  have := C56_csv_to_parquet_partial h hw hok hM hc hstart rows hwf hdata
    (by
      intro ht
      rw [hcs]
      exact targets_cutsOutside o.read hq file st.dataStart cs hstart (by omega) (hT ht))
    (by intro hz; rw [show (o.conv st file).schema = st.schema from rfl] at hz; rw [hz] at hnames; exact hne hnames.symm)
    hnull table (by rw [htable, show (o.conv st file).schema = st.schema from rfl, hlen]; rfl)
    (by rw [htypes']; exact hmin)
    (4194304 + 2 ^ 25 + 1) 4096 (by show 1024 * 1024 ≤ _; omega)
    (by
      intro ht rs hrs r hr
      rw [hcs] at hrs
      have := C63_chunk_bound_partial o.read hM file st.dataStart cs (2 ^ 25) hstart (by omega) rows (fun r hr => (hwf r hr).wf) hdata hL (hT ht) rs hrs r hr
      omega)
    (fun j c hj ht v hv => hN j c.type (hget j c hj) ht v hv)
    (by rw [show (o.conv st file).target = 262144 from rfl]; omega)
    (by
      rw [hnames', hcs]
      refine Nat.lt_of_le_of_lt ?_ hfoot
      unfold footerBound
      apply Nat.mul_le_mul_right
      have : (file.length - st.dataStart) / cs ≤ file.length / 2 ^ 20 := Nat.div_le_div (by omega) (by omega) (by omega)
      omega)
    (fun _ _ _ _ _ _ _ _ p _ => pagesAgree_of_options o.env p.1 p.2 hdict)
    dec hcodec hlz
  rw [htypes', hnames'] at this
  exact this

/-! ### Column names are no longer than the header row -/

theorem trimStart_length (s : List UInt8) : (trimStart s).length ≤ s.length := by
  unfold trimStart
  exact (List.dropWhile_sublist _).length_le

theorem trimEnd_length (s : List UInt8) : (trimEnd s).length ≤ s.length := by
  unfold trimEnd
  rw [List.length_reverse]
  have := (List.dropWhile_sublist blank (l := s.reverse)).length_le
  simpa using this

theorem escape_length (q : UInt8) (b : List UInt8) : b.length ≤ (escape q b).length := by
  induction b with
  | nil => simp
  | cons c r ih =>
    simp only [escape]
    split <;> simp only [List.length_cons] <;> omega

theorem joinFields_mem_length (sep : UInt8) {f : List UInt8} {fs : List (List UInt8)} (h : f ∈ fs) : f.length ≤ (joinFields sep fs).length := by
  induction fs with
  | nil => simp at h
  | cons g gs ih =>
    cases gs with
    | nil =>
      rw [List.mem_singleton] at h
      subst h
      exact Nat.le_refl _
    | cons g' gs' =>
      have e : joinFields sep (g :: g' :: gs') = g ++ sep :: joinFields sep (g' :: gs') := rfl
      rw [e, List.length_append, List.length_cons]
      rcases List.mem_cons.1 h with rfl | h
      · omega
      · have := ih h; omega

theorem columnName_length (q : UInt8) (f : WField) : f.columnName.length ≤ (f.render q).length := by
  cases f with
  | plain s => exact Nat.le_trans (trimEnd_length _) (trimStart_length s)
  | quoted b =>
    have h1 := trimEnd_length b
    have h2 := escape_length q b
    simp only [WField.columnName, WField.render, List.length_append, List.length_cons]
    omega

theorem columnName_row (M : Marks) (hdr : WRow) {f : WField} (hf : f ∈ hdr.fields) : f.columnName.length ≤ (hdr.render M).length := by
  have h1 := columnName_length M.quote f
  have h2 := joinFields_mem_length M.sep (List.mem_map.2 ⟨f, hf, rfl⟩ : f.render M.quote ∈ hdr.fields.map (·.render M.quote))
  unfold WRow.render
  rw [List.length_append]
  omega

theorem byteList_length (b : ByteArray) : b.toList.length = b.size := by
  have key : ∀ (k i : Nat) (r : List UInt8), k = b.size - i → (ByteArray.toList.loop b i r).length = r.length + (b.size - i) := by
    intro k
    induction k with
    | zero =>
      intro i r hk
      rw [ByteArray.toList.loop.eq_def, if_neg (by omega), List.length_reverse]; omega
    | succ k ih =>
      intro i r hk
      rw [ByteArray.toList.loop.eq_def, if_pos (by omega), ih _ _ (by omega), List.length_cons]; omega
  unfold ByteArray.toList
  rw [key _ 0 [] rfl]; simp

theorem utf8_length (l : List Char) : (String.ofList l).toUTF8.toList.length ≤ 4 * l.length := by
  rw [byteList_length]
  simp only [String.toUTF8_eq_toByteArray, String.toByteArray_ofList]
  induction l with
  | nil => simp
  | cons c l ih =>
    rw [List.utf8Encode_cons, ByteArray.size_append]
    have := Char.utf8Size_le_four c
    have h2 : [c].utf8Encode.size = c.utf8Size := by simp [List.utf8Encode_singleton]
    simp only [List.length_cons]
    omega

/-- The generated names are short. -/
theorem vname_length (i : Nat) (h : i + 1 < 10 ^ 10) : ("V" ++ toString (i + 1)).toUTF8.toList.length ≤ 44 := by
  have h1 : ("V" ++ toString (i + 1)).length ≤ 11 := by
    have h1 := (Nat.length_repr_le_iff (n := i + 1) (k := 10) (by omega)).2 h
    have h2 : (toString (i + 1)) = (i+1).repr := rfl
    rw [String.length_append, h2]
    have h3 : "V".length = 1 := rfl
    omega
  have := utf8_length ("V" ++ toString (i + 1)).toList
  rw [String.ofList_toList] at this
  have h2 : ("V" ++ toString (i + 1)).toList.length = ("V" ++ toString (i + 1)).length := String.length_toList
  omega

/-- A conversion that reports success got past `open`. -/
theorem file_ok_opened {o : FileOpts} {w : ConvWorld} {file : Bytes} {r : ConvResult} {out : Option (List UInt8)} (hw : Spoken w)
    (h : ConvertedFile o w file r out) (hok : r.ok = true) :
    ∃ st, openData o.infer o.sampleRows (ReaderState.new o.mode o.maxErrors) file = (none, st) ∧
      Converted (o.conv st file) w file st.dataStart r out := by
  cases h with
  | unmapped m hm =>
    have : m ≠ [] := fun hz => hw.1 (by rw [hm, hz])
    simp [ConvResult.ok] at hok
    exact absurd hok this
  | @rejected e st _ _ =>
    exfalso
    revert hok
    cases e <;> decide +kernel
  | opened _ h1 h2 => exact ⟨_, h1, h2⟩

/-- The metadata bound is no small print: a file of 10 GiB with a thousand columns of ten-byte names satisfies it. -/
example : footerBound (10 * 2 ^ 30 / 2 ^ 20 + 1) (List.replicate 1000 (List.replicate 10 0x61)) < 2 ^ 32 := by
  decide +kernel

/-- **C62** Converting a CSV file with header: if the conversion reports success, an independent reader finds in the output file the
columns named by the header, with the types inferred by `open`, nullable, and in each column the values of the CSV rows,
in order, converted by the rules of that type; null texts and missing fields are null, blank lines carry no row.
For every number of threads, SIMD width, pipeline schedule and sample size, for every file whose metadata stays below 4 GiB (`footerBound`: 400 bytes and about 265 per column, for each MiB of the file); rows up to 32 MiB; if the data is 1 MiB or more, no
nominal chunk end inside quotes; texts in columns without inferred type up to 4096 bytes; no dictionary or no
compression (the default has no dictionary); no LZ4; no field after an unquoted one with quoted separators (C12), and no
integer minimum in integer columns (C17). -/
theorem C62_convert_file_partial (o : FileOpts) (hh : o.infer.hasHeader = true) (hM : ReadSane o.infer.marks)
    (hdict : o.env.enableDictionary = false ∨ o.env.compression = .none)
    (dec : Int → List UInt8 → Option (List UInt8)) (hcodec : CodecOk o.env dec) (hlz : o.env.compression ≠ .lz4)
    (w : ConvWorld) (hw : Spoken w) (file : Bytes) (r : ConvResult) (out : Option (List UInt8))
    (h : ConvertedFile o w file r out) (hok : r.ok = true)
    (hdr : WRow) (rows : List WRow) (hfile : file = renderFile o.infer.marks (hdr :: rows)) (hr : rows ≠ [])
    (hne : hdr.fields ≠ []) (hhwf : ∀ f ∈ hdr.fields, f.WF o.infer.marks) (hwf : ∀ r ∈ rows, r.WF o.infer.marks)
    (hfoot : footerBound (file.length / 2 ^ 20 + 1) (hdr.fields.map (·.columnName)) < 2 ^ 32)
    (hL : ∀ r ∈ rows, (r.render o.infer.marks).length ≤ 2 ^ 25)
    (hT : 2 ^ 20 ≤ (renderFile o.infer.marks rows).length →
      TargetsOutside o.read file ((hdr.render o.infer.marks).length + 1)
        (calculateChunkSize (renderFile o.infer.marks rows).length hdr.fields.length o.nThreads))
    (types : List DataType) (htypes : types = openInfer o.infer file hdr.fields.length o.sampleRows)
    (table : List (List (Option (List UInt8))))
    (htable : table = tableOf o.infer.quote (commaPieces o.infer.nullValues) hdr.fields.length rows)
    (hmin : ¬ HasMinimum types table)
    (hN : ∀ j t, types[j]? = some t → t = .na ∨ t = .unknown → ∀ v, some v ∈ table.getD j [] → v.length ≤ 4096) :
    ∃ bytes, out = some bytes ∧ Holds dec o.lanes o.floatBits bytes (hdr.fields.map (·.columnName)) types table (rows.filter (fun r => !r.blank)).length := by
  obtain ⟨st, hopen, hconv⟩ := file_ok_opened hw h hok
  have hgood : hdr.fields.map (·.columnName) ≠ [[]] ∨ o.mode = .disabled ∨ o.mode = .bestEffort := by
    by_contra hbad
    obtain ⟨-, g2, -⟩ := C57_header_errors o.infer hh hM o.sampleRows o.mode o.maxErrors hdr rows hne hhwf hr _ rfl
    rw [← hfile, hopen] at g2
    have := g2.2 (by
      constructor
      · by_contra h; exact hbad (.inl h)
      · cases hm : o.mode <;> simp_all)
    simp at this
  obtain ⟨st', h1, h2, h3, h4, h5, h6, h7⟩ := C58_open_partial o.infer hh hM o.sampleRows o.mode o.maxErrors hdr rows hne hhwf hr file hfile hgood
  rw [hopen, Prod.mk.injEq] at h1
  obtain ⟨-, rfl⟩ := h1
  have hfl : file.length = (hdr.render o.infer.marks).length + 1 + (renderFile o.infer.marks rows).length := by
    rw [hfile, renderFile_cons _ _ _ hr, List.length_append, List.length_cons]; omega
  have hds : st.dataStart = (hdr.render o.infer.marks).length + 1 := by
    have := congrArg List.length h7
    rw [List.length_drop] at this
    omega
  have hdl : file.length - st.dataStart = (renderFile o.infer.marks rows).length := by omega
  refine converted_file o hM hdict dec hcodec hlz w hw file st r out hconv hok (hdr.fields.map (·.columnName)) types h3
    (by rw [h5, htypes]) h4 h6 rows hwf h7 (by simpa using hne) hfoot hL ?_ table
    (by rw [htable, List.length_map]) hmin hN
  rw [hdl, hds, List.length_map]
  exact hT

/-- **C62** The same without header: the columns are named V1, V2, …, their number is that of the fields of the first row, and
every row of the file is data. -/
theorem C62_convert_headerless_partial (o : FileOpts) (hh : o.infer.hasHeader = false) (hM : ReadSane o.infer.marks)
    (hdict : o.env.enableDictionary = false ∨ o.env.compression = .none)
    (dec : Int → List UInt8 → Option (List UInt8)) (hcodec : CodecOk o.env dec) (hlz : o.env.compression ≠ .lz4)
    (w : ConvWorld) (hw : Spoken w) (file : Bytes) (r : ConvResult) (out : Option (List UInt8))
    (h : ConvertedFile o w file r out) (hok : r.ok = true)
    (first : WRow) (rows : List WRow) (hfile : file = renderFile o.infer.marks (first :: rows)) (hr : rows ≠ [])
    (hwf : ∀ r ∈ first :: rows, r.WF o.infer.marks)
    (hfoot : footerBound (file.length / 2 ^ 20 + 1) ((List.range first.fields.length).map (fun i => ("V" ++ toString (i + 1)).toUTF8.toList)) < 2 ^ 32)
    (hL : ∀ r ∈ first :: rows, (r.render o.infer.marks).length ≤ 2 ^ 25)
    (hT : 2 ^ 20 ≤ file.length → TargetsOutside o.read file 0 (calculateChunkSize file.length first.fields.length o.nThreads))
    (types : List DataType) (htypes : types = openInfer o.infer file first.fields.length o.sampleRows)
    (table : List (List (Option (List UInt8))))
    (htable : table = tableOf o.infer.quote (commaPieces o.infer.nullValues) first.fields.length (first :: rows))
    (hmin : ¬ HasMinimum types table)
    (hN : ∀ j t, types[j]? = some t → t = .na ∨ t = .unknown → ∀ v, some v ∈ table.getD j [] → v.length ≤ 4096) :
    ∃ bytes, out = some bytes ∧ Holds dec o.lanes o.floatBits bytes ((List.range first.fields.length).map (fun i => ("V" ++ toString (i + 1)).toUTF8.toList)) types table ((first :: rows).filter (fun r => !r.blank)).length := by
  obtain ⟨st, hopen, hconv⟩ := file_ok_opened hw h hok
  have hne := (hwf first (by simp)).ne
  obtain ⟨st', h1, h2, h3, h4, h5, h6, h7⟩ := C59_open_no_header o.infer hh hM o.sampleRows o.mode o.maxErrors first rows hne
    (hwf first (by simp)).wf hr file hfile
  rw [hopen, Prod.mk.injEq] at h1
  obtain ⟨-, rfl⟩ := h1
  have hlen : ((List.range first.fields.length).map (fun i => ("V" ++ toString (i + 1)).toUTF8.toList)).length = first.fields.length := by
    rw [List.length_map, List.length_range]
  refine converted_file o hM hdict dec hcodec hlz w hw file st r out hconv hok _ types h4
    (by rw [h6, htypes]) h5 (by omega) (first :: rows) hwf (by rw [h3]; exact hfile) ?_ hfoot hL ?_ table
    (by rw [htable, hlen]) hmin hN
  · intro hz
    rw [hz] at hlen
    exact hne (List.length_eq_zero_iff.1 hlen.symm)
  · rw [h3, Nat.sub_zero, hlen]
    exact hT

/-- **C62** corollary: with no quote character after the header row nothing is said about chunk boundaries. -/
theorem C62_convert_quote_free_partial (o : FileOpts) (hh : o.infer.hasHeader = true) (hM : ReadSane o.infer.marks)
    (hdict : o.env.enableDictionary = false ∨ o.env.compression = .none)
    (dec : Int → List UInt8 → Option (List UInt8)) (hcodec : CodecOk o.env dec) (hlz : o.env.compression ≠ .lz4)
    (w : ConvWorld) (hw : Spoken w) (file : Bytes) (r : ConvResult) (out : Option (List UInt8))
    (h : ConvertedFile o w file r out) (hok : r.ok = true)
    (hdr : WRow) (rows : List WRow) (hfile : file = renderFile o.infer.marks (hdr :: rows)) (hr : rows ≠ [])
    (hne : hdr.fields ≠ []) (hhwf : ∀ f ∈ hdr.fields, f.WF o.infer.marks) (hwf : ∀ r ∈ rows, r.WF o.infer.marks)
    (hfoot : footerBound (file.length / 2 ^ 20 + 1) (hdr.fields.map (·.columnName)) < 2 ^ 32)
    (hL : ∀ r ∈ rows, (r.render o.infer.marks).length ≤ 2 ^ 25)
    (hfree : o.infer.quote ∉ renderFile o.infer.marks rows)
    (types : List DataType) (htypes : types = openInfer o.infer file hdr.fields.length o.sampleRows)
    (table : List (List (Option (List UInt8))))
    (htable : table = tableOf o.infer.quote (commaPieces o.infer.nullValues) hdr.fields.length rows)
    (hmin : ¬ HasMinimum types table)
    (hN : ∀ j t, types[j]? = some t → t = .na ∨ t = .unknown → ∀ v, some v ∈ table.getD j [] → v.length ≤ 4096) :
    ∃ bytes, out = some bytes ∧ Holds dec o.lanes o.floatBits bytes (hdr.fields.map (·.columnName)) types table (rows.filter (fun r => !r.blank)).length := by
  refine C62_convert_file_partial o hh hM hdict dec hcodec hlz w hw file r out h hok hdr rows hfile hr hne hhwf hwf hfoot hL ?_
    types htypes table htable hmin hN
  intro _
  apply noQuote_targetsOutside
  have hd : file.drop ((hdr.render o.infer.marks).length + 1) = renderFile o.infer.marks rows := by
    rw [hfile, renderFile_cons _ _ _ hr, List.drop_append, List.drop_of_length_le (by omega),
      show (hdr.render o.infer.marks).length + 1 - (hdr.render o.infer.marks).length = 1 by omega]
    rfl
  rw [hd]
  exact hfree

/-! ### A concrete conversion -/

namespace Demo

def fopts : FileOpts :=
  { infer := openCfg, nThreads := 4, mode := .disabled, maxErrors := 10, lanes := 16, floatBits := fun _ => none,
    env := { compression := .none, enableDictionary := false, compress := fun _ b => b, ratioLt := fun _ => true } }

/-- `a,"b"` / `x,1` / `"y,z",` / `,22` -/
def csv : Bytes := [97, 44, 34, 98, 34, 10, 120, 44, 49, 10, 34, 121, 44, 122, 34, 44, 10, 44, 50, 50, 10]

def csvHeader : WRow := { fields := [.plain [97], .quoted [98]] }
def csvRows : List WRow :=
  [{ fields := [.plain [120], .plain [49]] }, { fields := [.quoted [121, 44, 122], .plain []] }, { fields := [.plain [], .plain [50, 50]] },
    { fields := [.plain []] }]

def opened : ReaderState := (openData fopts.infer fopts.sampleRows (ReaderState.new fopts.mode fopts.maxErrors) csv).2
def conv2 : ConvCfg := fopts.conv opened csv
def res2 : ReadResult := (readAll conv2.read conv2.schema.length conv2.threshold conv2.chunkSize csv opened.dataStart).get (by decide +kernel)
def chunks2 : List (List ArrowColumn) := (conv2.typed res2.chunks).get (by decide +kernel)
def groups2 : List (List ArrowColumn) := (rowGroupsOf conv2.target conv2.schema chunks2).get (by decide +kernel)
def start2 : PWriter := { ({} : PWriter).openFile with schema := conv2.schema }
def end2 : PWriter := (groups2.foldlM (PWriter.write conv2.env) start2).get (by decide +kernel)

end Demo

/-- Non-vacuity of C62: a conversion with its hypotheses, and what is found in the file. -/
example : ∃ (r : ConvResult) (f : List UInt8), ConvertedFile Demo.fopts { whats := fun m => m ≠ [] } Demo.csv r (some f) ∧ r.ok = true ∧
    r.rows = 3 ∧ Demo.csv = renderFile Demo.fopts.infer.marks (Demo.csvHeader :: Demo.csvRows) ∧ (∀ r ∈ Demo.csvRows, r.WF Demo.fopts.infer.marks) ∧
    openInfer Demo.fopts.infer Demo.csv 2 1000 = [.string, .int32] ∧
    tableOf 34 (commaPieces []) 2 Demo.csvRows = [[some [120], some [121, 44, 122], none], [some [49], none, some [50, 50]]] ∧
    readFile (fun _ _ => none) f = some ([([97], 6, true), ([98], 1, true)],
      [⟨3, [[some (.bytes [120]), some (.bytes [121, 44, 122]), none], [some (.num 1), none, some (.num 22)]]⟩]) := by
  have hw := WritePhase.direct (env := Demo.conv2.env) (whats := fun m => m ≠ []) (p := Demo.start2) (nChunks := Demo.chunks2.length)
    (groups := Demo.groups2) (p' := Demo.end2) (by decide +kernel) (Option.some_get _).symm
  have hc := Converted.wrote (C := Demo.conv2) (w := { whats := fun m => m ≠ [] }) (file := Demo.csv) (start := Demo.opened.dataStart) (by decide)
    (res := Demo.res2) (chunks := Demo.chunks2) (groups := Demo.groups2) (Option.some_get _).symm (Option.some_get _).symm (Option.some_get _).symm hw
  rw [if_neg (by decide +kernel)] at hc
  have ho : openData Demo.fopts.infer Demo.fopts.sampleRows (ReaderState.new Demo.fopts.mode Demo.fopts.maxErrors) Demo.csv = (none, Demo.opened) := by
    have : (openData Demo.fopts.infer Demo.fopts.sampleRows (ReaderState.new Demo.fopts.mode Demo.fopts.maxErrors) Demo.csv).1 = none := by
      decide +kernel
    rw [← this]; rfl
  refine ⟨_, _, ConvertedFile.opened rfl ho hc, by decide +kernel, by decide +kernel, by decide +kernel, ?_, by decide +kernel, by decide +kernel,
    by decide +kernel⟩
  intro r hr
  simp only [Demo.csvRows, List.mem_cons, List.not_mem_nil, or_false] at hr
  rcases hr with h | h | h | h <;> subst h <;>
    exact ⟨by decide, by intro f hf; simp at hf; rcases hf with rfl | rfl <;> simp [WField.WF, Demo.fopts, openCfg, InferCfg.marks],
      by simp [TameAfterPlain, WField.Tame, Demo.fopts, openCfg, InferCfg.marks]⟩

end Vroom
