import Verif.Model.ArrowIpc
/-
C94: Arrow IPC output never pretends to have written anything: what is true of it and what is not.
-/
namespace Vroom

/-- Specification: bytes can only be an Arrow IPC file if they start with the magic of the format (`ARROW1`, Arrow columnar format, "IPC File Format"). -/
def Spec.ArrowMagic (bytes : List UInt8) : Prop := [0x41, 0x52, 0x52, 0x4F, 0x57, 0x31] <+: bytes

/-- Specification: a call that writes data, and an answer that reports success. -/
def Spec.IpcWrites {Path Data : Type} : IpcCall Path Data → Prop
  | .writeBatch _ | .writeChunks _ => True
  | _ => False

def Spec.IpcSuccess : IpcAnswer → Prop
  | .result (.ok _) => True
  | _ => False

/-- **C94** `convert_csv_to_arrow_ipc` and Python's `to_arrow_ipc` never report success and leave every file as it is: the input, the output path and all others. -/
theorem C94_convert_refuses {Path Opts : Type} (input output : Path) (opts : Opts) (d : Disk Path) :
    (∃ r, convertCsvToArrowIpc input output opts d = (r, d) ∧ r.ok = false ∧ r.rows = 0) ∧
    ∃ msg, msg ≠ "" ∧ pyToArrowIpc input output opts d = (.error msg, d) := by
  refine ⟨⟨_, rfl, by decide +kernel, rfl⟩, (convertCsvToArrowIpc input output opts d).1.error, ?_, ?_⟩
  · show (_ : String) ≠ ""
    unfold convertCsvToArrowIpc
    dsimp only
    decide +kernel
  · unfold pyToArrowIpc convertCsvToArrowIpc
    dsimp only
    rw [if_neg (by decide +kernel)]

theorem ipc_run_inv {Path Data : Type} [DecidableEq Path] (cs : List (IpcCall Path Data)) : ∀ (w : IpcWriter Path) (d : Disk Path),
    w.rows = 0 → w.batches = 0 → w.bytes = 0 →
    (w.run d cs).1.length = cs.length ∧
    (∀ (i : Nat) (c : IpcCall Path Data) (a : IpcAnswer), cs[i]? = some c → (w.run d cs).1[i]? = some a → Spec.IpcWrites c → ¬ Spec.IpcSuccess a) ∧
    (∀ (i : Nat) (r : IpcResult), (w.run d cs).1[i]? = some (.closed r) → r.rows = 0 ∧ r.batches = 0 ∧ r.bytes = 0) ∧
    (∀ p, (w.run d cs).2.2 p = d p ∨ ((w.run d cs).2.2 p = some [] ∧ .openPath p true ∈ cs)) := by
  induction cs with
  | nil => intro w d _ _ _; simp [IpcWriter.run]
  | cons c cs ih =>
    intro w d h1 h2 h3
    have hw : (w.call d c).2.1.rows = 0 ∧ (w.call d c).2.1.batches = 0 ∧ (w.call d c).2.1.bytes = 0 := by
      cases c <;> simp only [IpcWriter.call] <;> (try split) <;> (try split) <;> exact ⟨h1, h2, h3⟩
    obtain ⟨i1, i2, i3, i4⟩ := ih (w.call d c).2.1 (w.call d c).2.2 hw.1 hw.2.1 hw.2.2
    simp only [IpcWriter.run]
    refine ⟨by simp [i1], ?_, ?_, ?_⟩
    · intro i c' a hc ha hwr
      cases i with
      | zero =>
        simp only [List.getElem?_cons_zero, Option.some.injEq] at hc ha
        subst hc; subst ha
        cases c <;> simp_all [Spec.IpcWrites, IpcWriter.call, Spec.IpcSuccess]
      | succ i => exact i2 i c' a (by simpa using hc) (by simpa using ha) hwr
    · intro i r hr
      cases i with
      | zero =>
        simp only [List.getElem?_cons_zero, Option.some.injEq] at hr
        cases c with
        | openPath p ok => simp only [IpcWriter.call] at hr; split at hr <;> (try split at hr) <;> cases hr
        | close => simp only [IpcWriter.call] at hr; split at hr <;> (cases hr; exact ⟨h1, h2, h3⟩)
        | _ => cases hr
      | succ i => exact i3 i r (by simpa using hr)
    · intro p
      have hd : (w.call d c).2.2 p = d p ∨ ((w.call d c).2.2 p = some [] ∧ c = .openPath p true) := by
        cases c with
        | openPath q ok =>
          simp only [IpcWriter.call]
          split
          · exact .inl rfl
          · cases ok with
            | false => exact .inl rfl
            | true =>
              by_cases hq : p = q
              · right; simp [hq]
              · left; simp [hq]
        | close => simp only [IpcWriter.call]; split <;> exact .inl rfl
        | _ => exact .inl rfl
      rcases i4 p with h | ⟨h, hm⟩
      · rcases hd with h' | ⟨h', rfl⟩
        · exact .inl (h.trans h')
        · exact .inr ⟨h.trans h', by simp⟩
      · exact .inr ⟨h, List.mem_cons_of_mem _ hm⟩

/-- **C94** For every sequence of calls on a writer object, whatever the data: no call that writes data is answered by success, no `close` reports a row, a batch or a byte, and every file
is either untouched or empty, the latter only if it was opened. -/
theorem C94_nothing_written {Path Data : Type} [DecidableEq Path] (cs : List (IpcCall Path Data)) (d : Disk Path) :
    let out := (({} : IpcWriter Path).run d cs)
    (∀ (i : Nat) (c : IpcCall Path Data) (a : IpcAnswer), cs[i]? = some c → out.1[i]? = some a → Spec.IpcWrites c → ¬ Spec.IpcSuccess a) ∧
    (∀ (i : Nat) (r : IpcResult), out.1[i]? = some (.closed r) → r.rows = 0 ∧ r.batches = 0 ∧ r.bytes = 0) ∧
    (∀ p, out.2.2 p = d p ∨ (out.2.2 p = some [] ∧ .openPath p true ∈ cs)) := by
  have h := ipc_run_inv cs ({} : IpcWriter Path) d rfl rfl rfl
  exact ⟨h.2.1, h.2.2.1, h.2.2.2⟩

/-- The usage shown in the header's documentation (arrow_ipc_writer.h:67-71): open, set_schema, write_batch, close. -/
def ipcUsage {Path Data : Type} (p : Path) (data : Data) : List (IpcCall Path Data) := [.openPath p true, .setSchema, .writeBatch data, .close]

/-- **C94 is refuted** for `close`: after the documented calls, on any data and any earlier content of the file, `close` reports success although the file is empty and so no Arrow file, and
what the file held before is lost. -/
theorem C94_close_refuted {Path Data : Type} [DecidableEq Path] (p : Path) (data : Data) (d : Disk Path) :
    ∃ r, (({} : IpcWriter Path).run d (ipcUsage p data)).1[3]? = some (.closed r) ∧ r.ok = true ∧
      (({} : IpcWriter Path).run d (ipcUsage p data)).2.2 p = some [] ∧ ¬ Spec.ArrowMagic [] := by
  refine ⟨{}, rfl, by decide, ?_, by simp [Spec.ArrowMagic]⟩
  simp [ipcUsage, IpcWriter.run, IpcWriter.call]

/-- **C94 is refuted** for `open`: a second `open` without `close` answers success, yet the second file is not opened (nor created). -/
theorem C94_second_open_refuted {Path Data : Type} [DecidableEq Path] (p q : Path) (hpq : q ≠ p) (d : Disk Path) :
    let out := (({} : IpcWriter Path).run (Data := Data) d [.openPath p true, .openPath q true])
    out.1[1]? = some (.result (.ok ())) ∧ out.2.2 q = d q := by
  simp [IpcWriter.run, IpcWriter.call, hpq]

/-- A disk with a file that the documented usage destroys. -/
example : (({} : IpcWriter Nat).run (fun p => if p = 1 then some [65, 82] else none) (ipcUsage 1 ())).2.2 1 = some [] ∧
    (fun p : Nat => if p = 1 then some [(65 : UInt8), 82] else none) 1 ≠ some [] := by decide

end Vroom
