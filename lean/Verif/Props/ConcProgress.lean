import Verif.Lemmas.ConcProgress
import Verif.Props.Race
import Mathlib.Tactic.SplitIfs
/-
C87: reading and converting never gets stuck.
-/
namespace Vroom
open Race Conc

theorem exec_good {n : Nat → Nat} {groups : Nat} {tr : List Evt} {s : St} (h : Exec Start (Step n groups) tr s) : bad s.main ∨ Good n groups s := by
  induction h with
  | init h0 => exact .inr ⟨inv_start h0, inv2_start h0⟩
  | next _ hs ih =>
    rename_i s e s' _
    rcases ih with hb | hg
    · exact .inl (bad_step hs hb)
    · by_cases hb : bad s'.main
      · exact .inl hb
      · exact .inr (hg.step hs hb)

/-- **C87** However the threads have been scheduled so far, and whatever has failed so far (tasks ending in exceptions, the writer
thread failing at any time), some continuation brings the calling thread to its end; and if nothing has failed, to a successful one.
So there is no deadlock, and no schedule leads into a part from which there is no way out. -/
theorem C87_never_stuck (n : Nat → Nat) (groups : Nat) (tr : List Evt) (s : St) (h : Exec Start (Step n groups) tr s) :
    ∃ s', Relation.ReflTransGen (fun a b => ∃ e, Step n groups a e b) s s' ∧
      (s'.main = .after ∨ s'.main = .destroying ∨ ∃ ph, s'.main = .unwinding ph) ∧
      (s.error = false → (∀ ph i, s.task ph i ≠ .threw) → s.main ≠ .destroying → (∀ ph, s.main ≠ .unwinding ph) → s'.main = .after) := by
  rcases exec_good h with hb | hg
  · refine ⟨s, .refl, ?_, ?_⟩
    · cases hm : s.main <;> simp [hm, bad] at hb ⊢
    · intro _ _ h1 h2
      cases hm : s.main <;> simp [hm, bad] at hb
      · exact absurd hm h1
      · exact absurd hm (h2 _)
  · obtain ⟨s', h1, h2, h3⟩ := canEnd_good s hg
    refine ⟨s', h1, ?_, fun he ht _ _ => h3 ⟨he, ht, hg.inv.good⟩⟩
    cases hm : s'.main <;> simp [hm, Over] at h2 ⊢

/-- Two tasks in each phase, two row groups: both analysis tasks are running, the second has begun first.  Nothing has failed. -/
example : ∃ tr s, Exec Start (Step (fun _ => 2) 2) tr s ∧ s.main = .get 0 0 ∧ s.task 0 1 = .running 0 ∧ s.task 0 0 = .running 1 ∧ s.error = false ∧ ∀ ph i, s.task ph i ≠ .threw := by
  have h0 : Exec Start (Step (fun _ => 2) 2) ([] : List Evt) _ := .init rfl
  have h1 := h0.next (.submit _ 0 0 rfl (by decide))
  have h2 := h1.next (.submit _ 0 1 rfl (by decide))
  have h3 := h2.next (.submitted _ 0 2 rfl (by decide))
  have h4 := h3.next (.begin _ 0 1 0 rfl)
  have h5 := h4.next (.begin _ 0 0 1 rfl)
  refine ⟨_, _, h5, rfl, rfl, rfl, rfl, ?_⟩
  intro ph i
  simp only [St.setTask]
  split_ifs <;> simp

end Vroom
