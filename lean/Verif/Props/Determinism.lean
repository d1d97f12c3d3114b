import Verif.Props.CpuFree
import Verif.Props.ConvertFile
import Verif.Props.CliArgs
import Verif.Props.Disk
/-
C92: the output of a conversion is determined by the input and the options.  Two successful runs, under any two schedules of the reader's and the writer's threads, on any two CPUs and
with any contents of uninitialised memory, give the same bytes.
-/
namespace Vroom
open Parquet Spec

theorem converted_same {C : ConvCfg} {w w' : ConvWorld} {file : Bytes} {start : Nat} {r r' : ConvResult} {out out'}
    (hw : Spoken w) (hw' : Spoken w') (h : Converted C w file start r out) (h' : Converted C w' file start r' out')
    (hok : r.ok = true) (hok' : r'.ok = true) : out = out' ∧ r = r' := by
  obtain ⟨-, -, -, -, res, chunks, groups, p, a1, a2, a3, a4, a5, a6, a7⟩ := C52_ok_means_done_partial h hw hok
  obtain ⟨-, -, -, -, res', chunks', groups', p', b1, b2, b3, b4, b5, b6, b7⟩ := C52_ok_means_done_partial h' hw' hok'
  have e1 := a1.symm.trans b1
  cases e1
  have e2 := a2.symm.trans b2
  cases e2
  have e3 := a3.symm.trans b3
  cases e3
  have e4 := a4.symm.trans b4
  cases e4
  refine ⟨a5.trans b5.symm, ?_⟩
  obtain ⟨e, n, k⟩ := r
  obtain ⟨e', n', k'⟩ := r'
  simp only [ConvResult.ok, List.isEmpty_iff] at hok hok' a6 a7 b6 b7
  rw [hok, hok', a6, a7, b6, b7]

theorem convertedFile_same {o : FileOpts} {w w' : ConvWorld} {file : Bytes} {r r' : ConvResult} {out out'}
    (hw : Spoken w) (hw' : Spoken w') (h : ConvertedFile o w file r out) (h' : ConvertedFile o w' file r' out')
    (hok : r.ok = true) (hok' : r'.ok = true) : out = out' ∧ r = r' := by
  obtain ⟨st, h1, h2⟩ := file_ok_opened hw h hok
  obtain ⟨st', h1', h2'⟩ := file_ok_opened hw' h' hok'
  have := h1.symm.trans h1'
  cases this
  exact converted_same hw hw' h2 h2' hok hok'

/-- **C92** Two successful conversions of the same bytes with the same options give the same output bytes and report the same, whatever the schedules (of both), the failures that did
not happen, the CPU and the contents of uninitialised memory are. -/
theorem C92_same_bytes (o : FileOpts) (cpu : Cpu) (lanes : Nat) (junk : Bool) {w w' : ConvWorld} (hw : Spoken w) (hw' : Spoken w') (file : Bytes)
    {r r' : ConvResult} {out out'} (h : ConvertedFile o w file r out) (h' : ConvertedFile (o.on cpu lanes junk) w' file r' out')
    (hok : r.ok = true) (hok' : r'.ok = true) : out = out' ∧ r = r' :=
  convertedFile_same hw hw' h ((C88_convert o cpu lanes junk w' file r' out').1 h') hok hok'

/-- **C92** (number of threads): for inputs of less than 1 MiB the number of threads makes no difference either. -/
theorem C92_threads_small (o : FileOpts) (k : Nat) (w : ConvWorld) (file : Bytes) (hlen : file.length < 2 ^ 20) (r : ConvResult) (out : Option (List UInt8)) :
    ConvertedFile { o with nThreads := k } w file r out ↔ ConvertedFile o w file r out := by
  have key : ∀ (k k' : Nat) (r : ConvResult) (out : Option (List UInt8)), ConvertedFile { o with nThreads := k } w file r out →
      ConvertedFile { o with nThreads := k' } w file r out := by
    intro k k' r out h
    cases h with
    | unmapped m h => exact .unmapped m h
    | rejected h1 h2 => exact .rejected h1 h2
    | @opened st _ _ h1 h2 h3 =>
      refine .opened h1 h2 ?_
      cases h3 with
      | early a b h => exact .early a b h
      | wrote g1 g2 g3 g4 g5 =>
        refine .wrote g1 ?_ g3 g4 g5
        rw [← g2]
        show readAll o.read _ (1024 * 1024) _ file st.dataStart = readAll o.read _ (1024 * 1024) _ file st.dataStart
        unfold readAll
        have : file.length - st.dataStart < 1024 * 1024 := by omega
        rw [if_pos this, if_pos this]
        rfl
  exact ⟨key k o.nThreads r out, key o.nThreads k r out⟩

/-- **C92** (the program): two runs of `vroom convert` with the same arguments and input, on any two CPUs, that end with 0 leave the same bytes. -/
theorem C92_program (m : Machine) (cpu : Cpu) (lanes : Nat) (junk : Bool) {w w' : ConvWorld} (hw : Spoken w) (hw' : Spoken w') (data : List UInt8) (args : List (List UInt8))
    {out out'} (h : VroomConverts m w data args 0 out) (h' : VroomConverts (m.on cpu lanes junk) w' data args 0 out') : out = out' := by
  rw [C88_program_convert] at h'
  have hz : ∀ mode (r : ConvResult) e, convertExit mode r e = 0 → r.ok = true := by
    intro mode r e h
    unfold convertExit at h
    cases hk : r.ok with
    | true => rfl
    | false => rw [hk] at h; simp at h
  generalize hc : (0 : Nat) = code at h h'
  obtain ⟨e, h1, h2, -⟩ := h
  generalize hc' : convertExit _ _ _ = code' at h'
  obtain ⟨e', h1', h2', -⟩ := h'
  have hp := h1.symm.trans h1'
  cases hp
  exact (convertedFile_same hw hw' h2 h2' (hz _ _ _ hc.symm) (hz _ _ _ (hc'.symm.trans hc.symm))).1

/-- **C92** (number of threads, any size): for written tables in which the quote character does not occur, conversions with any two numbers of threads give files that hold the same
table.  Partial: the conditions are those of `C62_convert_quote_free_partial`, and the bytes may differ (row groups). -/
theorem C92_threads_table_partial (o : FileOpts) (k : Nat) (hh : o.infer.hasHeader = true) (hM : ReadSane o.infer.marks)
    (hdict : o.env.enableDictionary = false ∨ o.env.compression = .none)
    (dec : Int → List UInt8 → Option (List UInt8)) (hcodec : CodecOk o.env dec) (hlz : o.env.compression ≠ .lz4)
    {w w' : ConvWorld} (hw : Spoken w) (hw' : Spoken w') (file : Bytes) {r r' : ConvResult} {out out' : Option (List UInt8)}
    (h : ConvertedFile o w file r out) (hok : r.ok = true) (h' : ConvertedFile { o with nThreads := k } w' file r' out') (hok' : r'.ok = true)
    (hdr : WRow) (rows : List WRow) (hfile : file = renderFile o.infer.marks (hdr :: rows)) (hr : rows ≠ [])
    (hne : hdr.fields ≠ []) (hhwf : ∀ f ∈ hdr.fields, f.WF o.infer.marks) (hwf : ∀ r ∈ rows, r.WF o.infer.marks)
    (hfoot : footerBound (file.length / 2 ^ 20 + 1) (hdr.fields.map (·.columnName)) < 2 ^ 32)
    (hL : ∀ r ∈ rows, (r.render o.infer.marks).length ≤ 2 ^ 25)
    (hfree : o.infer.quote ∉ renderFile o.infer.marks rows)
    (hmin : ¬ HasMinimum (openInfer o.infer file hdr.fields.length o.sampleRows) (tableOf o.infer.quote (commaPieces o.infer.nullValues) hdr.fields.length rows))
    (hN : ∀ j t, (openInfer o.infer file hdr.fields.length o.sampleRows)[j]? = some t → t = .na ∨ t = .unknown →
      ∀ v, some v ∈ (tableOf o.infer.quote (commaPieces o.infer.nullValues) hdr.fields.length rows).getD j [] → v.length ≤ 4096) :
    ∃ bytes bytes' names types table n, out = some bytes ∧ out' = some bytes' ∧
      Holds dec o.lanes o.floatBits bytes names types table n ∧ Holds dec o.lanes o.floatBits bytes' names types table n := by
  obtain ⟨b, e1, e2⟩ := C62_convert_quote_free_partial o hh hM hdict dec hcodec hlz w hw file r out h hok hdr rows hfile hr hne hhwf hwf hfoot hL hfree _ rfl _ rfl hmin hN
  obtain ⟨b', e1', e2'⟩ := C62_convert_quote_free_partial { o with nThreads := k } hh hM hdict dec hcodec hlz w' hw' file r' out' h' hok' hdr rows hfile hr hne hhwf hwf hfoot hL hfree _ rfl _ rfl hmin hN
  exact ⟨b, b', _, _, _, _, e1, e1', e2, e2'⟩

/-- The conditions are met: the conversion of `Torn.csv` succeeds on two CPUs and with two numbers of threads. -/
example : ∃ r r' r'' out out' out'', ConvertedFile Torn.fopts { whats := fun m => m ≠ [] } Torn.csv r out ∧ r.ok = true ∧
    ConvertedFile (Torn.fopts.on cpu1 1 true) { whats := fun m => m ≠ [] } Torn.csv r' out' ∧ r'.ok = true ∧
    ConvertedFile { Torn.fopts with nThreads := 9 } { whats := fun m => m ≠ [] } Torn.csv r'' out'' ∧ r''.ok = true ∧
    Spoken { whats := fun m => m ≠ [] } ∧ Torn.csv.length < 2 ^ 20 := by
  obtain ⟨r, h, hok⟩ := Torn.converted
  have hl : Torn.csv.length < 2 ^ 20 := by decide +kernel
  exact ⟨r, r, r, _, _, _, h, hok, (C88_convert _ _ _ _ _ _ _ _).2 h, hok, (C92_threads_small _ _ _ _ hl _ _).2 h, hok,
    ⟨by simp, by simp, by simp, by simp⟩, hl⟩

end Vroom
