import Verif.Lemmas.Conc
/-
C85: reading and converting has no data races.
-/
namespace Vroom
open Race Conc

/-- Once unwinding or destroying has begun, it goes on. -/
theorem bad_step {n : Nat → Nat} {g : Nat} {s s' : St} {e : Option Evt} (h : Step n g s e s') (hb : bad s.main) : bad s'.main := by
  cases h <;> simp_all [bad, St.setTask, St.setGroup]

/-- **C85** Reading (any number of chunks) and converting (any number of row groups and columns, with or without
pipeline, writer failures included), in any interleaving: no two conflicting accesses are unordered, as long as no
exception leaves a pool task's future and `submit_row_group` has not failed with the writer being destroyed. -/
theorem C85_no_data_race_partial (n : Nat → Nat) (groups : Nat) (tr : List Evt) (s : St) (h : Exec Start (Step n groups) tr s)
    (hd : s.main ≠ .destroying) (hu : ∀ ph, s.main ≠ .unwinding ph) : ¬ DataRace tr := by
  have hb : ¬ bad s.main := by
    intro hb
    cases hm : s.main <;> simp [hm, bad] at hb
    · exact hd hm
    · exact hu _ hm
  refine RaceFree.not ?_
  clear hd hu
  suffices key : RaceFree tr ∧ Inv n s ∧ Informed (at_ s) tr from key.1
  induction h with
  | init h0 =>
    exact ⟨by intro i j t u k k' l _ h; simp at h, inv_start h0, by constructor <;> (intro i t l h; simp at h)⟩
  | next _ hs ih =>
    obtain ⟨h1, h2, h3⟩ := ih (fun h => hb (bad_step hs h))
    have ho := obeys_step h2 hs hb
    exact ⟨raceFree_step h1 h3 ho, inv_step h2 hs hb, informed_step h3 ho⟩

/-- The full claim. -/
def C85_full : Prop :=
  ∀ (n : Nat → Nat) (groups : Nat) (tr : List Evt) (s : St), Exec Start (Step n groups) tr s → ¬ DataRace tr

/-- **C85 finding** If one parsing (or analysing, or encoding) task ends with an exception, e.g. out of memory, while
another is running, the calling thread destroys the vector the running task writes to. -/
theorem C85_exception_races : ∃ (tr : List Evt) (s : St), Exec Start (Step (fun _ => 2) 1) tr s ∧ s.main = .unwinding 0 ∧ DataRace tr := by
  have h0 : Exec Start (Step (fun _ => 2) 1) ([] : List Evt) _ := .init rfl
  have h1 := h0.next (.submit _ 0 0 rfl (by decide))
  have h2 := h1.next (.submit _ 0 1 rfl (by decide))
  have h3 := h2.next (.submitted _ 0 2 rfl (by decide))
  have h4 := h3.next (.begin _ 0 0 0 rfl)
  have h5 := h4.next (.begin _ 0 1 1 rfl)
  have h6 := h5.next (.taskAcc _ 0 1 1 .write (.dst 0 1) rfl ⟨rfl, rfl⟩)
  have h7 := h6.next (.throw _ 0 0 0 rfl)
  have h8 := h7.next (.getThrows _ 0 0 rfl (by decide) rfl)
  have h9 := h8.next (.mainAcc _ .write (.dst 0 1) ⟨rfl, rfl⟩)
  refine ⟨_, _, h9, rfl, 4, 7, .worker 1, .main, .write, .write, .dst 0 1, by decide, rfl, rfl, by decide, .inl rfl, ?_⟩
  intro hb
  obtain ⟨b, hb1, hb2⟩ := hb.same_thread (t := .worker 1) (by
    intro m u s hm hr
    rcases m with _ | _ | _ | _ | _ | _ | _ | _ | m
    all_goals simp at hr hm
    all_goals (obtain ⟨rfl, -⟩ := hr; decide)) rfl rfl
  simp at hb1
  subst hb1
  cases hb2

/-- **C85 finding** The writer thread announces an error before storing its text; a caller that sees the flag returns
and destroys the string the writer thread is assigning. -/
theorem C85_error_text_races : ∃ (tr : List Evt) (s : St), Exec Start (Step (fun _ => 0) 2) tr s ∧ s.main = .destroying ∧ DataRace tr := by
  have h0 : Exec Start (Step (fun _ => 0) 2) ([] : List Evt) _ := .init rfl
  have h1 := h0.next (.submitted _ 0 0 rfl (by decide))
  have h2 := h1.next (.got _ 0 0 rfl (by decide))
  have h3 := h2.next (.analysed _ rfl)
  have h4 := h3.next (.submitted _ 1 0 rfl (by decide))
  have h5 := h4.next (.got _ 1 0 rfl (by decide))
  have h6 := h5.next (.spawn _ rfl)
  have h7 := h6.next (.checkOk _ 2 rfl (by decide) rfl)
  have h8 := h7.next (.submitted _ 2 0 rfl (by decide))
  have h9 := h8.next (.got _ 2 0 rfl (by decide))
  have h10 := h9.next (.pushLock _ 2 rfl (by decide) (by decide) rfl)
  have h11 := h10.next (.push _ 2 rfl (by decide) rfl)
  have h12 := h11.next (.pushUnlock _ 2 rfl)
  have h13 := h12.next (.wStart _ rfl)
  have h14 := h13.next (.wLock _ rfl rfl)
  have h15 := h14.next (.wPop _ 2 [] rfl rfl)
  have h16 := h15.next (.wUnlock _ 2 rfl)
  have h17 := h16.next (.wFail _ 2 rfl)
  have h18 := h17.next (.wAcc _ .write .errorText rfl)
  have h19 := h18.next (.checkBad _ 3 rfl (by decide) rfl)
  have h20 := h19.next (.destroy _ rfl)
  have h21 := h20.next (.mainAcc _ .write .errorText (.inr (.inr rfl)))
  refine ⟨_, _, h21, rfl, 10, 12, .writer, .main, .write, .write, .errorText, by decide, rfl, rfl, by decide, .inl rfl, ?_⟩
  intro hb
  obtain ⟨b, hb1, hb2⟩ := hb.same_thread (t := .writer) (by
    intro m u s hm hr
    rcases m with _ | _ | _ | _ | _ | _ | _ | _ | _ | _ | _ | _ | _ | m
    all_goals simp at hr hm) rfl rfl
  simp at hb1
  subst hb1
  cases hb2

theorem C85_full_fails : ¬ C85_full := by
  intro h
  obtain ⟨tr, s, h1, -, h2⟩ := C85_error_text_races
  exact h _ _ _ _ h1 h2

/-- Non-vacuity: two chunks analysed and parsed on two workers, a row group encoded by two workers, pushed, written by
the writer thread, joined, and the file closed by the caller. -/
example : ∃ (tr : List Evt) (s : St), Exec Start (Step (fun _ => 2) 1) tr s ∧ s.main = .after ∧
    (⟨.writer, .acc .write .file⟩ : Evt) ∈ tr ∧ (⟨.main, .acc .write .file⟩ : Evt) ∈ tr ∧ (⟨.worker 1, .acc .write (.dst 2 1)⟩ : Evt) ∈ tr ∧
    (⟨.writer, .acc .read (.dst 2 1)⟩ : Evt) ∈ tr := by
  have h0 : Exec Start (Step (fun _ => 2) 1) ([] : List Evt) _ := .init rfl
  have a1 := h0.next (.submit _ 0 0 rfl (by decide))
  have a2 := a1.next (.submit _ 0 1 rfl (by decide))
  have a3 := a2.next (.submitted _ 0 2 rfl (by decide))
  have a4 := a3.next (.begin _ 0 0 0 rfl)
  have a5 := a4.next (.begin _ 0 1 1 rfl)
  have a6 := a5.next (.finish _ 0 1 1 rfl)
  have a7 := a6.next (.finish _ 0 0 0 rfl)
  have a8 := a7.next (.get _ 0 0 rfl (by decide) rfl)
  have a9 := a8.next (.get _ 0 1 rfl (by decide) rfl)
  have a10 := a9.next (.got _ 0 2 rfl (by decide))
  have a11 := a10.next (.analysed _ rfl)
  have b1 := a11.next (.submit _ 1 0 rfl (by decide))
  have b2 := b1.next (.submit _ 1 1 rfl (by decide))
  have b3 := b2.next (.submitted _ 1 2 rfl (by decide))
  have b4 := b3.next (.begin _ 1 0 0 rfl)
  have b5 := b4.next (.begin _ 1 1 1 rfl)
  have b6 := b5.next (.finish _ 1 1 1 rfl)
  have b7 := b6.next (.finish _ 1 0 0 rfl)
  have b8 := b7.next (.get _ 1 0 rfl (by decide) rfl)
  have b9 := b8.next (.get _ 1 1 rfl (by decide) rfl)
  have b10 := b9.next (.got _ 1 2 rfl (by decide))
  have b11 := b10.next (.spawn _ rfl)
  have b12 := b11.next (.checkOk _ 2 rfl (by decide) rfl)
  have c1 := b12.next (.submit _ 2 0 rfl (by decide))
  have c2 := c1.next (.submit _ 2 1 rfl (by decide))
  have c3 := c2.next (.submitted _ 2 2 rfl (by decide))
  have c4 := c3.next (.begin _ 2 0 0 rfl)
  have c5 := c4.next (.begin _ 2 1 1 rfl)
  have c6 := c5.next (.taskAcc _ 2 1 1 .write (.dst 2 1) rfl ⟨rfl, rfl⟩)
  have c7 := c6.next (.finish _ 2 1 1 rfl)
  have c8 := c7.next (.finish _ 2 0 0 rfl)
  have c9 := c8.next (.get _ 2 0 rfl (by decide) rfl)
  have c10 := c9.next (.get _ 2 1 rfl (by decide) rfl)
  have c11 := c10.next (.got _ 2 2 rfl (by decide))
  have d1 := c11.next (.pushLock _ 2 rfl (by decide) (by decide) rfl)
  have d2 := d1.next (.push _ 2 rfl (by decide) rfl)
  have d3 := d2.next (.pushUnlock _ 2 rfl)
  have d4 := d3.next (.wStart _ rfl)
  have d5 := d4.next (.wLock _ rfl rfl)
  have d6 := d5.next (.wPop _ 2 [] rfl rfl)
  have d7 := d6.next (.wUnlock _ 2 rfl)
  have d8 := d7.next (.wAcc _ .read (.dst 2 1) (.inr rfl))
  have d9 := d8.next (.wAcc _ .write .file ⟨2, rfl⟩)
  have d10 := d9.next (.wWritten _ 2 rfl)
  have e1 := d10.next (.closeLock _ rfl rfl)
  have e2 := e1.next (.close _ rfl)
  have e3 := e2.next (.closeUnlock _ rfl)
  have e4 := e3.next (.wLock _ rfl rfl)
  have e5 := e4.next (.wEmpty _ rfl rfl (by decide))
  have e6 := e5.next (.wExit _ rfl)
  have e7 := e6.next (.join _ rfl rfl)
  have e8 := e7.next (.readFlag _ rfl)
  have e9 := e8.next (.mainAcc _ .write .file (.inr (.inl rfl)))
  exact ⟨_, _, e9, rfl, by simp, by simp, by simp, by simp⟩

end Vroom
