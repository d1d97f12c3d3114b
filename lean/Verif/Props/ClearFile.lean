import Verif.Props.WindowRow
import Verif.Props.AnyConvert
/-
C62, C13: from CSV to Parquet for files below 1 MiB, with the exact condition on quoted fields (`FileClear`) instead of the order of quoted and unquoted fields.
-/
namespace Vroom
open Parquet Spec

/-- **C13** Opening and reading a file of less than 1 MiB with a header: names, types and the table written, if (and, by `C13_serial_iff`, only if) its rows are clear. -/
theorem C13_open_clear (o : FileOpts) (hh : o.infer.hasHeader = true) (hM : ReadSane o.infer.marks) (file : List UInt8)
    (hdr : WRow) (rows : List WRow) (hfile : file = renderFile o.infer.marks (hdr :: rows)) (hr : rows ≠ [])
    (hne : hdr.fields ≠ []) (hhwf : ∀ f ∈ hdr.fields, f.WF o.infer.marks) (hrn : ∀ r ∈ rows, r.fields ≠ []) (hwf : ∀ r ∈ rows, ∀ f ∈ r.fields, f.WF o.infer.marks)
    (hclear : FileClear o.infer.marks rows) (hlen : file.length < 2 ^ 20)
    (hgood : hdr.fields.map (·.columnName) ≠ [[]] ∨ o.mode = .disabled ∨ o.mode = .bestEffort) :
    ReadFile o file (hdr.fields.map (·.columnName)) (openInfer o.infer file hdr.fields.length o.sampleRows)
      (tableOf o.infer.quote (commaPieces o.infer.nullValues) hdr.fields.length rows) (rows.filter (fun r => !r.blank)).length := by
  obtain ⟨st, h1, h2, h3, h4, h5, h6, h7⟩ := C58_open_partial o.infer hh hM o.sampleRows o.mode o.maxErrors hdr rows hne hhwf hr file hfile hgood
  have hn : st.schema.length = hdr.fields.length := by
    have := congrArg List.length h3
    simpa using this
  have hpos : hdr.fields.length ≠ 0 := fun h => hne (List.length_eq_zero_iff.1 h)
  obtain ⟨res, g1, g2, g3⟩ := C13_serial_clear o.read hM hdr.fields.length hpos rows hrn hwf hclear
  refine ⟨⟨st, res, h1, ?_, h3.symm, h5.symm, ?_, g3.symm⟩⟩
  · unfold readAll' readAll
    rw [if_neg (by rw [hn]; exact hpos), if_pos (by omega), h7, hn]
    exact g1
  · rw [hn]
    exact g2.symm

/-- **C62** Converting a file of less than 1 MiB: the output holds the table written if its rows are clear.  Partial: integer columns that hold the minimum of their type (C17), footers of 4 GiB,
LZ4 and dictionaries with compression (C35). -/
theorem C62_convert_clear_partial (o : FileOpts) (hh : o.infer.hasHeader = true) (hM : ReadSane o.infer.marks)
    (hdict : o.env.enableDictionary = false ∨ o.env.compression = .none)
    (dec : Int → List UInt8 → Option (List UInt8)) (hcodec : CodecOk o.env dec) (hlz : o.env.compression ≠ .lz4)
    (w : ConvWorld) (hw : Spoken w) (file : List UInt8) (r : ConvResult) (out : Option (List UInt8)) (h : ConvertedFile o w file r out) (hok : r.ok = true)
    (hdr : WRow) (rows : List WRow) (hfile : file = renderFile o.infer.marks (hdr :: rows)) (hr : rows ≠ [])
    (hne : hdr.fields ≠ []) (hhwf : ∀ f ∈ hdr.fields, f.WF o.infer.marks) (hrn : ∀ r ∈ rows, r.fields ≠ []) (hwf : ∀ r ∈ rows, ∀ f ∈ r.fields, f.WF o.infer.marks)
    (hclear : FileClear o.infer.marks rows) (hlen : file.length < 2 ^ 20)
    (hfoot : footerBound 1 (hdr.fields.map (·.columnName)) < 2 ^ 32)
    (types : List DataType) (htypes : types = openInfer o.infer file hdr.fields.length o.sampleRows)
    (table : List (List (Option (List UInt8)))) (htable : table = tableOf o.infer.quote (commaPieces o.infer.nullValues) hdr.fields.length rows)
    (hmin : ¬ HasMinimum types table) :
    ∃ bytes, out = some bytes ∧ Holds dec o.lanes o.floatBits bytes (hdr.fields.map (·.columnName)) types table (rows.filter (fun r => !r.blank)).length := by
  obtain ⟨st, hopen, -⟩ := file_ok_opened hw h hok
  have hgood : hdr.fields.map (·.columnName) ≠ [[]] ∨ o.mode = .disabled ∨ o.mode = .bestEffort := by
    by_contra hbad
    obtain ⟨-, g2, -⟩ := C57_header_errors o.infer hh hM o.sampleRows o.mode o.maxErrors hdr rows hne hhwf hr _ rfl
    rw [← hfile, hopen] at g2
    have := g2.2 (by
      constructor
      · by_contra h; exact hbad (.inl h)
      · cases hm : o.mode <;> simp_all)
    simp at this
  have hread := C13_open_clear o hh hM file hdr rows hfile hr hne hhwf hrn hwf hclear hlen hgood
  rw [← htypes, ← htable] at hread
  obtain ⟨bytes, e1, e2, -⟩ := C83_convert_partial o hdict dec hcodec hlz w hw file r out h hok hread hmin (Or.inl (by omega))
    (by rw [Nat.div_eq_of_lt hlen]; exact hfoot)
  exact ⟨bytes, e1, e2⟩

/-- The conditions are met by a conversion of a file whose third line has a separator in quotes after an unquoted field. -/
example : ∃ (r : ConvResult) (out : Option (List UInt8)), ConvertedFile Demo.fopts { whats := fun m => m ≠ [] } (renderFile Demo.fopts.infer.marks (Demo.csvHeader :: clearRows)) r out ∧ r.ok = true ∧
    FileClear Demo.fopts.infer.marks clearRows ∧ openInfer Demo.fopts.infer (renderFile Demo.fopts.infer.marks (Demo.csvHeader :: clearRows)) 2 1000 = [.string, .string] := by
  obtain ⟨c1, c2, c3, -⟩ := clearRows_ok
  have ht : openInfer Demo.fopts.infer (renderFile Demo.fopts.infer.marks (Demo.csvHeader :: clearRows)) 2 1000 = [.string, .string] := by decide +kernel
  have hlen : (renderFile Demo.fopts.infer.marks (Demo.csvHeader :: clearRows)).length < 2 ^ 20 := by decide +kernel
  have hM : ReadSane Demo.fopts.infer.marks := cfg0_sane
  have hr := C13_open_clear Demo.fopts rfl hM _ Demo.csvHeader clearRows rfl (by simp [clearRows]) (by decide) (by
      intro f hf
      simp only [Demo.csvHeader, List.mem_cons, List.not_mem_nil, or_false] at hf
      rcases hf with rfl | rfl
      · simp only [WField.WF]; decide +kernel
      · trivial) (fun r h => (c2 r h).1) c3 c1 hlen (Or.inr (Or.inl rfl))
  have ht' : openInfer Demo.fopts.infer (renderFile Demo.fopts.infer.marks (Demo.csvHeader :: clearRows)) Demo.csvHeader.fields.length Demo.fopts.sampleRows = [.string, .string] := ht
  rw [ht'] at hr
  obtain ⟨⟨r, out, h1, h2⟩, -⟩ := C83_succeeds_partial Demo.fopts (Or.inl rfl) (fun _ b => some b) (by
      intro b _ hb; exact absurd hb (by simp [Demo.fopts])) (by decide) { whats := fun m => m ≠ [] } (by decide) _ hr (by
      rintro ⟨j, t, v, h1, h2, h3⟩
      match j with
      | 0 | 1 => simp at h1; subst h1; simp [IsMinimum] at h3
      | j + 2 => simp at h1) (Or.inl (by omega)) (by rw [Nat.div_eq_of_lt hlen]; decide +kernel)
  exact ⟨r, out, h1, h2, c1, ht⟩

end Vroom
