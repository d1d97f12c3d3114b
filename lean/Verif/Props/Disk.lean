import Verif.Model.Disk
import Verif.Model.CliArgs
import Verif.Spec.ParquetFile
import Verif.Props.AnyInput
/-
C90: what is on the disk when a conversion is interrupted.  C91: what is on the disk, and what is reported, when the disk is full.
-/
namespace Vroom
open Parquet

/-! ### Streams -/

/-- What is known of a stream: nothing is lost before an error, and afterwards the device is full. -/
theorem streamed_inv {cap ps s} (h : Streamed cap ps s) :
    (s.bad = false ∧ s.disk ++ s.buf = ps.flatten ∧ s.disk.length + s.room = cap) ∨
    (s.bad = true ∧ s.disk = ps.flatten.take cap ∧ s.room = 0 ∧ cap ≤ ps.flatten.length) := by
  induction h with
  | opened => exact .inl ⟨rfl, rfl, by simp⟩
  | @write ps s b _ ih =>
    rcases ih with ⟨h1, h2, h3⟩ | ⟨h1, h2, h3, h4⟩
    · refine .inl ⟨?_, ?_, ?_⟩ <;> simp [OStream.write, h1]
      · rw [← List.append_assoc, h2]
      · exact h3
    · refine .inr ⟨?_, ?_, ?_, ?_⟩ <;> simp [OStream.write, h1]
      · rw [h2, List.take_append, show cap - ps.flatten.length = 0 by omega]; simp
      · exact h3
      · simp at h4; omega
  | @step ps s s' _ hs ih =>
    rcases ih with ⟨h1, h2, h3⟩ | ⟨h1, -, -, -⟩
    · cases hs with
      | flush k hb hk hr =>
        refine .inl ⟨hb, ?_, ?_⟩
        · simp [← h2]
        · simp; omega
      | full hb hr =>
        refine .inr ⟨rfl, ?_, rfl, ?_⟩
        · dsimp only
          rw [← h2, List.take_append, List.take_of_length_le (by omega : s.disk.length ≤ cap), show cap - s.disk.length = s.room by omega]
        · rw [← h2, List.length_append]; omega
    · cases hs with
      | flush k hb _ _ => rw [h1] at hb; cases hb
      | full hb _ => rw [h1] at hb; cases hb

theorem streamed_disk {cap ps s} (h : Streamed cap ps s) : s.disk <+: ps.flatten := by
  rcases streamed_inv h with ⟨-, h2, -⟩ | ⟨-, h2, -, -⟩
  · exact ⟨_, h2⟩
  · rw [h2]; exact List.take_prefix _ _

theorem streamed_close {cap ps s} (h : Streamed cap ps s) : s.close.disk = ps.flatten.take cap := by
  unfold OStream.close
  rcases streamed_inv h with ⟨h1, h2, h3⟩ | ⟨h1, h2, h3, h4⟩
  · simp only [h1]
    rw [← h2, List.take_append, List.take_of_length_le (by omega : s.disk.length ≤ cap), show cap - s.disk.length = s.room by omega]
    simp
  · simp [h1, h2]

/-! ### C90 -/

/-- **C90** (the file only grows): no call of the writer changes bytes it has written before; `open` alone starts anew. -/
theorem C90_append_only (env : WEnv) (p : PWriter) :
    (∀ g, p.file <+: (p.writeEncoded g).file) ∧ (∀ cols p', p.write env cols = some p' → p.file <+: p'.file) ∧ p.file <+: p.close.file := by
  have hcol : ∀ (p : PWriter) c, p.file <+: (p.writeColumn c).1.file := by
    intro p c
    unfold PWriter.writeColumn PWriter.writeBytes
    split
    simp only
    split at * <;> (rename_i h; cases h) <;> simp [List.append_assoc]
  have hcols : ∀ cs (p : PWriter), p.file <+: (p.writeColumns cs).1.file := by
    intro cs
    induction cs with
    | nil => intro p; exact List.prefix_refl _
    | cons c cs ih => intro p; exact (hcol p c).trans (ih _)
  have hg : ∀ g, p.file <+: (p.writeEncoded g).file := fun g => hcols g.columns p
  refine ⟨hg, ?_, ?_⟩
  · intro cols p' h
    unfold PWriter.write at h
    split at h
    · cases h; exact List.prefix_refl _
    · rw [Option.map_eq_some_iff] at h
      obtain ⟨g, -, rfl⟩ := h
      exact hg g
  · unfold PWriter.close PWriter.writeBytes
    split
    · simp [List.append_assoc]
    · exact List.prefix_refl _

/-- **C90** (every crash point): whenever the process is killed, the device holds the first bytes of the file it was writing, no other ones. -/
theorem C90_killed {cap o w data file img} (h : Killed cap o w data file img) : img <+: file := by
  obtain ⟨-, h2, h3⟩ := h
  exact (streamed_disk h3).trans h2

/-- The marker of Parquet files occurs in the file only where the format puts it. -/
def MarkerAtEndsOnly (file : List UInt8) : Prop :=
  ∀ i, (file.drop i).take 4 = [80, 65, 82, 49] → i = 0 ∨ i + 4 = file.length

theorem prefix_unreadable {dec} {img file : List UInt8} (hp : img <+: file) (hm : MarkerAtEndsOnly file) (hne : img ≠ file) : readFile dec img = none := by
  have hbad : img.length < 12 ∨ img.take 4 ≠ [80, 65, 82, 49] ∨ img.drop (img.length - 4) ≠ [80, 65, 82, 49] := by
    by_cases hl : img.length < 12
    · exact .inl hl
    · refine .inr (.inr ?_)
      intro hd
      obtain ⟨t, ht⟩ := hp
      have hi : (file.drop (img.length - 4)).take 4 = [80, 65, 82, 49] := by
        rw [← ht, List.drop_append_of_le_length (by omega), List.take_append_of_le_length (by simp; omega), hd]
        rfl
      rcases hm _ hi with h | h
      · omega
      · have : t.length = 0 := by
          have := congrArg List.length ht
          rw [List.length_append] at this
          omega
        rw [List.length_eq_zero_iff.1 this, List.append_nil] at ht
        exact hne ht
  unfold readFile
  simp only [hbad, if_true]
  rfl

/-- **C90** (a torn file is recognised): if the marker occurs at the two ends only, what an interrupted conversion leaves is the complete file, or no Parquet file for any reader. -/
theorem C90_torn_unreadable_partial {cap o w data file img} (h : Killed cap o w data file img) (hm : MarkerAtEndsOnly file) :
    img = file ∨ ∀ dec, readFile dec img = none := by
  by_cases he : img = file
  · exact .inl he
  · exact .inr fun dec => prefix_unreadable (C90_killed h) hm he

/-! ### C91 -/

/-- **C91** (enough room): a conversion that returns has its file on the device. -/
theorem C91_enough_room {cap o w data r disk} (h : ConvertedOn cap o w data r disk) :
    ∃ file, ConvertedFile o w data r (some file) ∧ (file.length ≤ cap → disk = file) := by
  obtain ⟨h1, h2, h3⟩ := h
  refine ⟨_, h1, fun hl => ?_⟩
  rw [streamed_close h3, h2, List.take_of_length_le hl]

/-- **C91** (not enough room): the first bytes are there, and the result is the one of a conversion with room. -/
theorem C91_full {cap o w data r disk} (h : ConvertedOn cap o w data r disk) :
    ∃ file, ConvertedFile o w data r (some file) ∧ disk = file.take cap := by
  obtain ⟨h1, h2, h3⟩ := h
  exact ⟨_, h1, by rw [streamed_close h3, h2]⟩

/-- Every conversion also happens on every device: nothing notices the missing room. -/
theorem C91_silent {o w data r file} (h : ConvertedFile o w data r (some file)) (cap : Nat) : ConvertedOn cap o w data r (file.take cap) := by
  have hs : Streamed cap [file] (({ room := cap } : OStream).write file) := Streamed.write (ps := []) file .opened
  have e := streamed_close hs
  rw [show [file].flatten = file by simp] at e
  rw [← e]
  exact .mk h (by simp) hs

/-- Every prefix of the file may be found after a crash, in particular none of it: the former content of the output path is lost as soon as the writer is opened. -/
theorem C90_any_prefix {o w data r file} (h : ConvertedFile o w data r (some file)) (img : List UInt8) (hp : img <+: file) :
    Killed file.length o w data file img := by
  have hs : Streamed file.length [img] { disk := img, buf := [], bad := false, room := file.length - img.length } := by
    have h1 : Streamed file.length [img] (({ room := file.length } : OStream).write img) := Streamed.write (ps := []) img .opened
    have h2 := OStep.flush (({ room := file.length } : OStream).write img) img.length rfl (by simp [OStream.write]) hp.length_le
    have h3 := h1.step h2
    simpa [OStream.write] using h3
  have := Killed.mk (cap := file.length) (s := { disk := img, buf := [], bad := false, room := file.length - img.length }) h (by simpa using hp) hs
  exact this

/-! ### Refutations -/

namespace Torn

/-- A cell whose text is the end of a Parquet file without columns and rows. -/
def cell : Bytes := [0x29, 0x1C, 0x48, 0, 0x15, 0, 0, 0x16, 0, 0x19, 0x0C, 0] ++ [12, 0, 0, 0] ++ asc "PAR1"
def csv : Bytes := asc "x\n" ++ cell ++ asc "\ny\n"
def fopts : FileOpts := anyMachine.fileOpts {} .zstd
def opened : ReaderState := (openData fopts.infer fopts.sampleRows (ReaderState.new fopts.mode fopts.maxErrors) csv).2
def conv : ConvCfg := fopts.conv opened csv
def res : ReadResult := (readAll conv.read conv.schema.length conv.threshold conv.chunkSize csv opened.dataStart).get (by decide +kernel)
def chunks : List (List ArrowColumn) := (conv.typed res.chunks).get (by decide +kernel)
def groups : List (List ArrowColumn) := (rowGroupsOf conv.target conv.schema chunks).get (by decide +kernel)
def start : PWriter := { ({} : PWriter).openFile with schema := conv.schema }
def fin : PWriter := (groups.foldlM (PWriter.write conv.env) start).get (by decide +kernel)
/-- The complete output file. -/
def file : List UInt8 := fin.close.file
/-- Its beginning, up to the end of the text of the cell. -/
def torn : List UInt8 := file.take 51

theorem converted : ∃ r, ConvertedFile fopts { whats := fun m => m ≠ [] } csv r (some file) ∧ r.ok = true := by
  have hw := WritePhase.direct (env := conv.env) (whats := fun m => m ≠ []) (p := start) (nChunks := chunks.length)
    (groups := groups) (p' := fin) (by decide +kernel) (Option.some_get _).symm
  have hc := Converted.wrote (C := conv) (w := { whats := fun m => m ≠ [] }) (file := csv) (start := opened.dataStart) (by decide)
    (res := res) (chunks := chunks) (groups := groups) (Option.some_get _).symm (Option.some_get _).symm (Option.some_get _).symm hw
  rw [if_neg (by decide +kernel)] at hc
  have ho : openData fopts.infer fopts.sampleRows (ReaderState.new fopts.mode fopts.maxErrors) csv = (none, opened) := by
    have : (openData fopts.infer fopts.sampleRows (ReaderState.new fopts.mode fopts.maxErrors) csv).1 = none := by
      decide +kernel
    rw [← this]; rfl
  exact ⟨_, ConvertedFile.opened rfl ho hc, by decide +kernel⟩

end Torn

/-- **C90** refuted as "a reader never takes a torn file for a file": the text of one cell makes it a Parquet file with no columns and no rows. -/
theorem C90_torn_readable_refuted : ∃ cap o w data file img, Killed cap o w data file img ∧ img ≠ file ∧ readFile (fun _ _ => none) img = some ([], []) := by
  obtain ⟨r, h, -⟩ := Torn.converted
  exact ⟨_, Torn.fopts, _, Torn.csv, Torn.file, Torn.torn, C90_any_prefix h Torn.torn (List.take_prefix _ _), by decide +kernel, by decide +kernel⟩

/-- **C90** refuted as "an interrupted conversion leaves the former output": for every conversion there is a moment when nothing is at the output path, neither the former file nor a part of the new one. -/
theorem C90_former_output_lost {o w data r file} (h : ConvertedFile o w data r (some file)) : Killed file.length o w data file [] :=
  C90_any_prefix h [] (List.nil_prefix)

/-- **C91** refuted as "success means that the file is complete": every successful conversion is also successful on every device too small for its file, and leaves a truncated one. -/
theorem C91_success_refuted {o w data r file} (h : ConvertedFile o w data r (some file)) (hok : r.ok = true) (cap : Nat) (hc : cap < file.length) :
    ∃ disk, ConvertedOn cap o w data r disk ∧ r.ok = true ∧ disk ≠ file ∧ disk <+: file ∧
      (MarkerAtEndsOnly file → ∀ dec, readFile dec disk = none) := by
  have hne : file.take cap ≠ file := by
    intro e
    have := congrArg List.length e
    rw [List.length_take] at this
    omega
  exact ⟨_, C91_silent h cap, hok, hne, List.take_prefix _ _, fun hm dec => prefix_unreadable (List.take_prefix _ _) hm hne⟩

/-- **C91** refuted for the program: `vroom convert` exits with 0 and the output is a Parquet file with no columns and no rows, although the input has two. -/
theorem C91_exit_refuted : VroomConvertsOn 51 anyMachine { whats := fun m => m ≠ [] } Torn.csv [asc "convert", asc "a.csv", asc "-o", asc "a.parquet"] 0 Torn.torn ∧
    readFile (fun _ _ => none) Torn.torn = some ([], []) := by
  refine ⟨?_, by decide +kernel⟩
  obtain ⟨r, h, hok⟩ := Torn.converted
  have hp : mainPlan anyMachine [asc "convert", asc "a.csv", asc "-o", asc "a.parquet"] =
      .convert (.run { common := { input := asc "a.csv" }, output := asc "a.parquet" } .zstd) := by
    have : convertPlan [asc "convert", asc "a.csv", asc "-o", asc "a.parquet"] = .run { common := { input := asc "a.csv" }, output := asc "a.parquet" } .zstd := by
      decide +kernel
    rw [← this]
    unfold mainPlan
    dsimp only
    rw [if_neg (by decide +kernel), if_neg (by decide +kernel), if_pos rfl]
  have h2 := VroomConvertsOn.mk (cap := 51) (m := anyMachine) (w := { whats := fun m => m ≠ [] }) (data := Torn.csv) false hp
    (C91_silent h 51) (by intro _; decide +kernel)
  have he : convertExit .disabled r false = 0 := by
    unfold convertExit; simp [hok]
  rw [he] at h2
  exact h2

/- A file with the marker at both ends only, a torn file that is readable, and runs on a full device are built in the namespace `Torn` above. -/

end Vroom
