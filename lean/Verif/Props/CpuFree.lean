import Verif.Lemmas.CpuFree
import Verif.Model.Python
import Verif.Model.Pool
import Verif.Props.AnyInput
/-
C88: results do not depend on the CPU the program happens to run on — the width of its vectors (any divisor of 64 for the byte scanners, any number for the
integer parser) and whether it multiplies without carry — nor on the uninitialised variable the reader passes to the field iterator.
-/
namespace Vroom

/-- Another computer with the same libraries and number of threads: other vectors, other contents of uninitialised memory. -/
def Machine.on (m : Machine) (cpu : Cpu) (lanes : Nat) (junk : Bool) : Machine := { m with cpu := cpu, lanes := lanes, junk := junk }

/-- The same for the options of a conversion. -/
def FileOpts.on (o : FileOpts) (cpu : Cpu) (lanes : Nat) (junk : Bool) : FileOpts :=
  { o with infer := { o.infer with cpu := cpu }, lanes := lanes, junk := junk }

/-- **C88** (the scanning functions of the library): for all bytes and all marks. -/
theorem C88_scanning (cpu cpu' : Cpu) (sep q : UInt8) (data : List UInt8) :
    countRows cpu q data = countRows cpu' q data ∧
    (∀ start, findRowEnd cpu q data start = findRowEnd cpu' q data start) ∧
    (∀ inside, analyzeChunkSimd cpu q inside data = analyzeChunkSimd cpu' q inside data) ∧
    analyzeDual cpu q data = analyzeDual cpu' q data ∧
    splitFieldsApi cpu sep q data = splitFieldsApi cpu' sep q data ∧
    (∀ target, findChunks cpu q data target = findChunks cpu' q data target) :=
  ⟨countRows_cpu _ _ _ _, findRowEnd_cpu _ _ _ _, fun b => analyzeChunkSimd_cpu _ _ _ b _, analyzeDual_cpu _ _ _ _, splitFieldsApi_cpu _ _ _ _ _, findChunks_cpu _ _ _ _⟩

/-- **C88** (the parsing functions): for every number of lanes, the text is read alike. -/
theorem C88_values (lanes lanes' : Nat) (t : DataType) (isFloat : List UInt8 → Bool) (text : List UInt8) :
    storeText lanes isFloat t text = storeText lanes' isFloat t text := by rw [storeText_lanes lanes lanes']

/-- **C88** (iterating over the fields of a row): any two CPUs see the same fields, and the value of the uninitialised flag does not matter. -/
theorem C88_fields (cpu cpu' : Cpu) (D : Dial) (junk junk' : Bool) (row : List UInt8) (h : row ≠ []) :
    splitRow cpu D junk row = splitRow cpu' D junk' row := splitRow_free cpu cpu' D junk junk' row h

/-- **C88** (the reader): names, types and data start; then the cells, the chunks and the row counts. -/
theorem C88_reader (o : FileOpts) (cpu : Cpu) (lanes : Nat) (junk : Bool) (st : ReaderState) (file : List UInt8) :
    openData (o.on cpu lanes junk).infer o.sampleRows st file = openData o.infer o.sampleRows st file ∧
    ∀ n start, readAll' (o.on cpu lanes junk).read n o.nThreads file start = readAll' o.read n o.nThreads file start :=
  ⟨openData_cpu o.infer cpu _ _ _, fun _ _ => readAll_free o.read cpu junk _ _ _ _ _⟩

/-- The worker tasks of a parallel read take the same steps (C08, C36 apply to any schedule of them). -/
theorem C88_tasks (cfg : ReadCfg) (cpu : Cpu) (junk : Bool) (n : Nat) (chunks : List (List UInt8)) (s t : PoolState) :
    PoolStep { cfg with cpu := cpu, junk := junk } n chunks s t ↔ PoolStep cfg n chunks s t := by
  have hi : ParseTask.init { cfg with cpu := cpu, junk := junk } = ParseTask.init cfg := rfl
  have hs : ParseTask.step { cfg with cpu := cpu, junk := junk } = ParseTask.step cfg := by
    funext t
    unfold ParseTask.step
    split
    · rfl
    · dsimp only
      split
      · rfl
      · next h =>
        show (match splitRow cpu cfg.dial junk (skipBlank t.rest) with | none => none | some (fs, tail) => _) = _
        rw [splitRow_free cpu cfg.cpu cfg.dial junk cfg.junk (skipBlank t.rest) (by intro e; rw [e] at h; exact h rfl)]
        cases splitRow cfg.cpu cfg.dial cfg.junk (skipBlank t.rest) <;> rfl
  have ha : analyzeDual cpu = analyzeDual cfg.cpu := by funext q d; exact analyzeDual_cpu _ _ _ _
  have key : ∀ (c c' : ReadCfg), ParseTask.init c = ParseTask.init c' → ParseTask.step c = ParseTask.step c' →
      analyzeDual c.cpu = analyzeDual c'.cpu → c.quote = c'.quote → PoolStep c n chunks s t → PoolStep c' n chunks s t := by
    intro c c' h1 h2 h3 h4 h
    cases h with
    | analyze slots i ch hc hi => rw [h3, h4]; exact .analyze slots i ch hc hi
    | link slots as h => rw [h1]; exact .link slots as h
    | parse k slots i t t' hi hst => exact .parse k slots i t t' hi (by rw [← h2]; exact hst)
    | collect k slots hfin => exact .collect k slots (by rw [← h2]; exact hfin)
  exact ⟨key _ _ hi hs ha rfl, key _ _ hi.symm hs.symm ha.symm rfl⟩

theorem conv_on (o : FileOpts) (cpu : Cpu) (lanes : Nat) (junk : Bool) (st : ReaderState) (file : List UInt8) :
    (o.on cpu lanes junk).conv st file = { o.conv st file with lanes := lanes, read := { o.read with cpu := cpu, junk := junk } } := rfl

/-- **C88** (conversion): the same results and the same output files are possible. -/
theorem C88_convert (o : FileOpts) (cpu : Cpu) (lanes : Nat) (junk : Bool) (w : ConvWorld) (file : List UInt8) (r : ConvResult) (out : Option (List UInt8)) :
    ConvertedFile (o.on cpu lanes junk) w file r out ↔ ConvertedFile o w file r out := by
  have ho : ∀ st, openData (o.on cpu lanes junk).infer o.sampleRows st file = openData o.infer o.sampleRows st file := fun st => openData_cpu o.infer cpu _ _ _
  have hr : ∀ n t cs ds, readAll { o.read with cpu := cpu, junk := junk } n t cs file ds = readAll o.read n t cs file ds := fun _ _ _ _ => readAll_free o.read cpu junk _ _ _ _ _
  constructor
  · intro h
    cases h with
    | unmapped m h => exact .unmapped m h
    | rejected h1 h2 => exact .rejected h1 ((ho _).symm.trans h2)
    | @opened st _ _ h1 h2 h3 =>
      refine .opened h1 ((ho _).symm.trans h2) ?_
      rw [conv_on] at h3
      cases h3 with
      | early a b h => exact .early a b h
      | wrote g1 g2 g3 g4 g5 => exact .wrote g1 ((hr _ _ _ _).symm.trans g2) ((congrFun (typed_lanes (o.conv st file) lanes _) _).symm.trans g3) g4 g5
  · intro h
    cases h with
    | unmapped m h => exact .unmapped m h
    | rejected h1 h2 => exact .rejected h1 ((ho _).trans h2)
    | @opened st _ _ h1 h2 h3 =>
      refine .opened h1 ((ho _).trans h2) ?_
      rw [conv_on]
      cases h3 with
      | early a b h => exact .early a b h
      | wrote g1 g2 g3 g4 g5 => exact .wrote g1 ((hr _ _ _ _).trans g2) ((congrFun (typed_lanes (o.conv st file) lanes _) _).trans g3) g4 g5

theorem onTable_on (c : CliCmd) (L : Libc) (o : FileOpts) (cpu : Cpu) (lanes : Nat) (junk : Bool) (st : ReaderState) (file : List UInt8) :
    c.onTable L (o.on cpu lanes junk) st file = c.onTable L o st file := by
  have h1 : ∀ n t cs ds, readAll ((o.on cpu lanes junk).conv st file).read n t cs file ds = readAll (o.conv st file).read n t cs file ds :=
    fun _ _ _ _ => readAll_free o.read cpu junk _ _ _ _ _
  have h2 : ((o.on cpu lanes junk).conv st file).typed = (o.conv st file).typed := typed_lanes (o.conv st file) lanes _
  unfold CliCmd.onTable
  simp only [h1, h2]
  rfl

theorem run_on (c : CliCmd) (L : Libc) (o : FileOpts) (cpu : Cpu) (lanes : Nat) (junk : Bool) (i : CliInput) :
    c.run L (o.on cpu lanes junk) i = c.run L o i := by
  have ho : ∀ st file, openData (o.on cpu lanes junk).infer (o.on cpu lanes junk).sampleRows st file = openData o.infer o.sampleRows st file := fun st file => openData_cpu o.infer cpu _ _ _
  cases i with
  | unreadable msg => cases c <;> rfl
  | stdin data =>
    simp only [CliCmd.run, ho, onTable_on]
    cases c <;> rfl
  | file data =>
    simp only [CliCmd.run, ho, onTable_on]
    cases c <;> rfl

/-- **C88** (the program): exit code and output of every command line on every input. -/
theorem C88_program (m : Machine) (cpu : Cpu) (lanes : Nat) (junk : Bool) (stdin : List UInt8) (files : Files) (args : List (List UInt8)) :
    vroom (m.on cpu lanes junk) stdin files args = vroom m stdin files args := by
  have hf : ∀ o c, (m.on cpu lanes junk).fileOpts o c = (m.fileOpts o c).on cpu lanes junk := fun _ _ => rfl
  have hL : (m.on cpu lanes junk).L = m.L := rfl
  have hp : mainPlan (m.on cpu lanes junk) args = mainPlan m args := by cases args <;> rfl
  have he : ∀ (c : CmdName) o, c.exec (m.on cpu lanes junk) stdin files o = c.exec m stdin files o := by
    intro c o
    unfold CmdName.exec
    simp only [hf, hL, run_on]
  unfold vroom
  rw [hp]
  cases mainPlan m args with
  | out o => rfl
  | convert p => rfl
  | command c rest =>
    show c.main (m.on cpu lanes junk) stdin files rest = c.main m stdin files rest
    unfold CmdName.main
    simp only [he]
    rfl

/-- **C88** (`vroom convert`): exit code and output file. -/
theorem C88_program_convert (m : Machine) (cpu : Cpu) (lanes : Nat) (junk : Bool) (w : ConvWorld) (data : List UInt8) (args : List (List UInt8))
    (code : Nat) (out : Option (List UInt8)) : VroomConverts (m.on cpu lanes junk) w data args code out ↔ VroomConverts m w data args code out := by
  have hf : ∀ o c, (m.on cpu lanes junk).fileOpts o c = (m.fileOpts o c).on cpu lanes junk := fun _ _ => rfl
  have ho : ∀ (o : FileOpts) st file, openData (o.on cpu lanes junk).infer 1000 st file = openData o.infer 1000 st file := fun o st file => openData_cpu o.infer cpu _ _ _
  have hp : mainPlan (m.on cpu lanes junk) args = mainPlan m args := by cases args <;> rfl
  constructor
  · rintro ⟨e, h1, h2, h3⟩
    rw [hf] at h2 h3
    exact ⟨e, hp.symm.trans h1, (C88_convert _ _ _ _ _ _ _ _).1 h2, by rw [← ho (m.fileOpts _ _)]; exact h3⟩
  · rintro ⟨e, h1, h2, h3⟩
    refine ⟨e, hp.trans h1, ?_, ?_⟩
    · rw [hf]; exact (C88_convert _ _ _ _ _ _ _ _).2 h2
    · rw [hf, ho]; exact h3

/-- **C88** (Python): `read_csv` and `to_parquet`. -/
theorem C88_python (m : Machine) (cpu : Cpu) (lanes : Nat) (junk : Bool) :
    (∀ a file, readCsv (m.on cpu lanes junk) a file = readCsv m a file) ∧
    (∀ w data a r out, ToParquet (m.on cpu lanes junk) w data a r out ↔ ToParquet m w data a r out) := by
  have hf : ∀ o c, (m.on cpu lanes junk).fileOpts o c = (m.fileOpts o c).on cpu lanes junk := fun _ _ => rfl
  refine ⟨fun a file => ?_, fun w data a r out => ⟨fun h => ?_, fun h => ?_⟩⟩
  · unfold readCsv
    cases a.csv with
    | none => rfl
    | some c =>
      cases file with
      | none => rfl
      | some data =>
        have h0 : ∀ st, openData ((m.fileOpts c .zstd).on cpu lanes junk).infer ((m.fileOpts c .zstd).on cpu lanes junk).sampleRows st data =
          openData (m.fileOpts c .zstd).infer (m.fileOpts c .zstd).sampleRows st data := fun st => openData_cpu _ cpu _ _ _
        have h1 : ∀ st n t cs ds, readAll (((m.fileOpts c .zstd).on cpu lanes junk).conv st data).read n t cs data ds = readAll ((m.fileOpts c .zstd).conv st data).read n t cs data ds :=
          fun st _ _ _ _ => readAll_free (m.fileOpts c .zstd).read cpu junk _ _ _ _ _
        have h2 : ∀ st, (((m.fileOpts c .zstd).on cpu lanes junk).conv st data).typed = ((m.fileOpts c .zstd).conv st data).typed :=
          fun st => typed_lanes ((m.fileOpts c .zstd).conv st data) lanes _
        simp only [hf, h0, h1, h2]
        rfl
  · cases h with
    | refused h => exact .refused h
    | converted h1 h2 => exact .converted h1 ((C88_convert _ _ _ _ _ _ _ _).1 (by rw [← hf]; exact h2))
  · cases h with
    | refused h => exact .refused h
    | converted h1 h2 => exact .converted h1 (by rw [hf]; exact (C88_convert _ _ _ _ _ _ _ _).2 h2)

/-- A scalar machine without carry-less multiplication. -/
def cpu1 : Cpu := { lanes := 1, pf := .portable, dvd := ⟨64, rfl⟩ }

/-- Two CPUs, a file with a quoted line end: the machines differ, and the output has two data rows on both. -/
example : (anyMachine.on cpu1 1 true).cpu.lanes ≠ anyMachine.cpu.lanes ∧
    vroom (anyMachine.on cpu1 1 true) [] (fun _ => .file (asc "a,b\nx,\"p\nq\"\ny,z")) [asc "select", asc "-c", asc "b", asc "a.csv"] =
      some (.exit 0 (asc "b\n\"p\nq\"\nz\n")) := by
  rw [C88_program]
  decide +kernel

end Vroom
