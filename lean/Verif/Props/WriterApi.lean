import Verif.Model.WriterApi
import Verif.Model.Convert
import Verif.Props.ParquetFile
/-
C61: calls on a closed Parquet writer.
-/
namespace Vroom
open Parquet

/-- A call that does not open a file. -/
def Spec.NotOpening : WCall → Prop
  | .openPath _ => False
  | _ => True

/-- The answer a writer without open file must give. -/
def Spec.closedAnswer : WCall → Bool
  | .write _ => false
  | _ => true

/-- **C61** On a writer that is not open (never opened, or closed) every sequence of calls other than `open`
(writing, closing again, setting a schema, destroying it) leaves the bytes of the file as they are; every
attempt to write is answered by a failure, everything else by success. -/
theorem C61_closed_is_final (env : WEnv) (calls : List WCall) (hc : ∀ c ∈ calls, Spec.NotOpening c) :
    ∀ (o : WriterObj), o.w.isOpen = false →
    ∃ o', o.run env calls = some (calls.map Spec.closedAnswer, o') ∧ o'.w.file = o.w.file ∧ o'.w.isOpen = false := by
  induction calls with
  | nil => intro o ho; exact ⟨o, rfl, rfl, ho⟩
  | cons c cs ih =>
    intro o ho
    have ih' := ih (fun c hc' => hc c (List.mem_cons_of_mem _ hc'))
    have hstep : ∃ o1, o.call env c = some (Spec.closedAnswer c, o1) ∧ o1.w.file = o.w.file ∧ o1.w.isOpen = false := by
      cases c with
      | openPath d => exact False.elim (hc (.openPath d) (by simp))
      | setSchema s => exact ⟨_, rfl, rfl, ho⟩
      | write cols => exact ⟨o, by simp [WriterObj.call, ho, Spec.closedAnswer], rfl, ho⟩
      | close => exact ⟨o, by simp [WriterObj.call, ho, Spec.closedAnswer], rfl, ho⟩
      | destroy => exact ⟨o, by simp [WriterObj.call, ho, Spec.closedAnswer], rfl, ho⟩
    obtain ⟨o1, h1, h2, h3⟩ := hstep
    obtain ⟨o', g1, g2, g3⟩ := ih' o1 h3
    refine ⟨o', ?_, g2.trans h2, g3⟩
    simp only [WriterObj.run, h1, g1, Option.bind_eq_bind, Option.bind_some]
    rfl

/-- Successful writes of row groups between `open` and `close`. -/
theorem run_writes (env : WEnv) (groups : List (List ArrowColumn)) : ∀ (o : WriterObj) (w : PWriter),
    o.w.isOpen = true → o.bad = false → writeAll env o.w groups = some w →
    o.run env (groups.map .write) = some (groups.map (fun _ => true), { o with w := w }) ∧ w.isOpen = true := by
  induction groups with
  | nil =>
    intro o w ho hb h
    simp only [writeAll, Option.some.injEq] at h
    subst h
    exact ⟨rfl, ho⟩
  | cons g gs ih =>
    intro o w ho hb h
    simp only [writeAll] at h
    cases h1 : o.w.write env g with
    | none => rw [h1] at h; simp at h
    | some w1 =>
      rw [h1, Option.bind_some] at h
      have hopen : w1.isOpen = true := by
        unfold PWriter.write at h1
        by_cases he : g.isEmpty = true
        · rw [if_pos he, Option.some.injEq] at h1; rw [← h1]; exact ho
        · rw [if_neg he] at h1
          cases h2 : encodeRowGroup env o.w.schema g with
          | none => rw [h2] at h1; simp at h1
          | some e =>
            rw [h2, Option.map_some, Option.some.injEq] at h1
            rw [← h1]
            have hcols : ∀ (cs : List EncodedColumn) (p : PWriter), (p.writeColumns cs).1.isOpen = p.isOpen := by
              intro cs
              induction cs with
              | nil => intro p; rfl
              | cons c cs ih =>
                intro p
                simp only [PWriter.writeColumns]
                rw [ih]
                simp only [PWriter.writeColumn]
                split <;> rfl
            simp only [PWriter.writeEncoded]
            rw [hcols]
            exact ho
      obtain ⟨g1, g2⟩ := ih { o with w := w1 } w hopen hb h
      refine ⟨?_, g2⟩
      simp only [List.map_cons, WriterObj.run, WriterObj.call, ho, h1, WriterObj.through, hb]
      simp only [Bool.true_eq_false, if_false, Option.map_some]
      simp only [hb] at g1
      simp only [Bool.false_eq_true, if_false, Option.bind_eq_bind, Option.bind_some, g1]
      rfl

/-- **C61** A use of the writer in order: a fresh object, `set_schema`, `open`, the writes, `close`, and then any further calls that do not
open again (including the destructor): every call up to the close succeeds, and the file is the one C33 and
C53 speak about. -/
theorem C61_orderly_use (env : WEnv) (schema : List ColSchema) (groups : List (List ArrowColumn)) (w : PWriter)
    (hw : writeAll env ({ schema := schema } : PWriter).openFile groups = some w)
    (after : List WCall) (ha : ∀ c ∈ after, Spec.NotOpening c) :
    ∃ o', WriterObj.run env {} (.setSchema schema :: .openPath true :: (groups.map .write ++ .close :: after)) =
        some (true :: true :: (groups.map (fun _ => true) ++ true :: after.map Spec.closedAnswer), o') ∧
      o'.w.file = w.close.file := by
  have hrun : ∀ (l m : List WCall) (o : WriterObj) as o1, o.run env l = some (as, o1) →
      o.run env (l ++ m) = (o1.run env m).map (fun r => (as ++ r.1, r.2)) := by
    intro l
    induction l with
    | nil =>
      intro m o as o1 h
      simp only [WriterObj.run, Option.some.injEq, Prod.mk.injEq] at h
      obtain ⟨rfl, rfl⟩ := h
      cases h2 : o.run env m <;> simp [h2]
    | cons c cs ih =>
      intro m o as o1 h
      simp only [WriterObj.run, List.cons_append] at h ⊢
      cases h1 : o.call env c with
      | none => rw [h1] at h; simp at h
      | some r =>
        rw [h1] at h
        simp only [Option.bind_eq_bind, Option.bind_some] at h ⊢
        cases h2 : r.2.run env cs with
        | none => rw [h2] at h; simp at h
        | some r2 =>
          rw [h2] at h
          simp only [Option.bind_some, Option.pure_def, Option.some.injEq, Prod.mk.injEq] at h
          obtain ⟨rfl, rfl⟩ := h
          rw [ih m r.2 r2.1 r2.2 (by rw [h2])]
          cases r2.2.run env m <;> rfl
  obtain ⟨g1, g2⟩ := run_writes env groups { w := ({ schema := schema } : PWriter).openFile, streamOpen := true, bad := false } w rfl rfl hw
  have hcl : w.close.isOpen = false := by simp [PWriter.close, g2]
  obtain ⟨o', f1, f2, -⟩ := C61_closed_is_final env after ha { w := w.close, streamOpen := false, bad := false } hcl
  refine ⟨o', ?_, f2⟩
  have e1 : WriterObj.run env {} (.setSchema schema :: .openPath true :: (groups.map .write ++ .close :: after))
      = ((WriterObj.run env { w := ({ schema := schema } : PWriter).openFile, streamOpen := true, bad := false }
          (groups.map .write ++ .close :: after)).map (fun r => (true :: true :: r.1, r.2))) := by
    conv => lhs; rw [WriterObj.run]
    simp only [WriterObj.call, Option.bind_eq_bind, Option.bind_some]
    rw [WriterObj.run]
    simp only [WriterObj.call, if_true, Bool.false_eq_true, if_false, Option.bind_eq_bind, Option.bind_some]
    cases WriterObj.run env { w := ({ schema := schema } : PWriter).openFile, streamOpen := true, bad := false }
          (groups.map .write ++ .close :: after) <;> rfl
  rw [e1, hrun _ _ _ _ _ g1]
  simp only [WriterObj.run, WriterObj.call, g2, WriterObj.through, Bool.true_eq_false, if_false, Bool.false_eq_true, Option.bind_eq_bind,
    Option.bind_some, f1]
  rfl

/-- The full claim one would want of `open`: after `open` answered success, what is written appears in the
file. -/
def C61_open_full : Prop :=
  ∀ (env : WEnv) (calls : List WCall) (as : List Bool) (o o1 o2 : WriterObj),
    WriterObj.run env {} calls = some (as, o) → o.call env (.openPath true) = some (true, o1) →
    o1.call env .close = some (true, o2) → o2.w.file.length > 8

/-- **C61** That claim is false: opening a writer that is already open answers success but leaves the stream
failed: everything written afterwards, the footer included, is lost, and `close` answers success too. -/
theorem C61_open_twice_refuted : ¬ C61_open_full := by
  intro h
  have := h { compression := .none, enableDictionary := false, compress := fun _ b => b, ratioLt := fun _ => false }
    [.openPath true] [true] _ _ _ rfl rfl rfl
  exact absurd this (by decide +kernel)

/-- Non-vacuity of C61_orderly_use: one column with one row. -/
example : ∃ w, writeAll { compression := .none, enableDictionary := false, compress := fun _ b => b, ratioLt := fun _ => false }
    ({ schema := [⟨[97], .int32, true⟩] } : PWriter).openFile
    [[ArrowColumn.create .int32]] = some w ∧ w.close.file.length > 12 := by
  refine ⟨_, rfl, ?_⟩
  decide +kernel

end Vroom
