import Verif.Spec.Errors
import Mathlib.Data.List.Basic
import Mathlib.Data.List.Perm.Subperm
namespace Vroom
open Collector

theorem mergeFrom_errors (c o : Collector) :
    (c.mergeFrom o).errors = c.errors ++ o.errors.take (c.maxErrors - c.errors.length) := by
  simp only [mergeFrom]
  by_cases h : o.errors = []
  · rw [if_pos h]; split <;> simp [h]
  · rw [if_neg h]
    have key : o.errors.take (min (if c.maxErrors > c.errors.length then c.maxErrors - c.errors.length else 0) o.errors.length)
        = o.errors.take (c.maxErrors - c.errors.length) := by
      split
      · rw [List.take_eq_take_iff]; omega
      · rw [List.take_eq_take_iff]; omega
    rw [← key]
    generalize min (if c.maxErrors > c.errors.length then c.maxErrors - c.errors.length else 0) o.errors.length = k
    by_cases hk : k < o.errors.length <;> cases o.hasFatal <;> simp [hk]

theorem mergeFrom_suppressed (c o : Collector) :
    (c.mergeFrom o).suppressed = c.suppressed + o.suppressed + (o.errors.length - (c.maxErrors - c.errors.length)) := by
  simp only [mergeFrom]
  by_cases h : o.errors = []
  · rw [if_pos h]; split <;> simp [h]
  · rw [if_neg h]
    (repeat' split) <;> simp only <;> omega

theorem mergeFrom_fatal (c o : Collector) : (c.mergeFrom o).hasFatal = (c.hasFatal || o.hasFatal) := by
  simp only [mergeFrom]
  by_cases h : o.errors = []
  · rw [if_pos h]; cases ho : o.hasFatal <;> simp
  · rw [if_neg h]; cases ho : o.hasFatal <;> simp
    (repeat' split) <;> rfl

theorem mergeFrom_mode (c o : Collector) : (c.mergeFrom o).mode = c.mode := by
  simp only [mergeFrom]
  (repeat' split) <;> rfl

theorem mergeFrom_max (c o : Collector) : (c.mergeFrom o).maxErrors = c.maxErrors := by
  simp only [mergeFrom]
  (repeat' split) <;> rfl

theorem addError_errors (c : Collector) (e : ParseErr) :
    (c.addError e).errors = if c.errors.length ≥ c.maxErrors then c.errors else c.errors ++ [e] := by
  simp only [addError]
  by_cases h : e.severity = .fatal <;> simp only [h, if_true, if_false] <;> split <;> rfl

theorem addError_suppressed (c : Collector) (e : ParseErr) :
    (c.addError e).suppressed = if c.errors.length ≥ c.maxErrors then c.suppressed + 1 else c.suppressed := by
  simp only [addError]
  by_cases h : e.severity = .fatal <;> simp only [h, if_true, if_false] <;> split <;> rfl

theorem addError_fatal (c : Collector) (e : ParseErr) :
    (c.addError e).hasFatal = (c.hasFatal || decide (e.severity = .fatal)) := by
  simp only [addError]
  by_cases h : e.severity = .fatal <;> simp [h] <;> split <;> rfl

theorem addError_max (c : Collector) (e : ParseErr) : (c.addError e).maxErrors = c.maxErrors := by
  simp only [addError]
  by_cases h : e.severity = .fatal <;> simp only [h, if_true, if_false] <;> split <;> rfl

theorem addError_mode (c : Collector) (e : ParseErr) : (c.addError e).mode = c.mode := by
  simp only [addError]
  by_cases h : e.severity = .fatal <;> simp only [h, if_true, if_false] <;> split <;> rfl

/-- **C40** Nothing is lost: stored + suppressed = reported, after any history of public calls. -/
theorem C40_account {lo hi c rep} (h : History lo hi c rep) : c.errors.length + c.suppressed = rep.length := by
  induction h with
  | new => rfl
  | add e _ ih =>
    rw [addError_errors, addError_suppressed]
    split <;> simp <;> omega
  | setMode => assumption
  | setMax => assumption
  | clear => rfl
  | merge _ _ ih1 ih2 =>
    rw [mergeFrom_errors, mergeFrom_suppressed]
    simp; omega
  | sort _ hs ih =>
    obtain ⟨es, rfl, hp, -⟩ := hs
    simp only; rw [hp.length_eq]; exact ih

theorem history_max {lo hi c rep} (h : History lo hi c rep) : lo ≤ c.maxErrors ∧ c.maxErrors ≤ hi := by
  induction h with
  | new m n h => exact h
  | add e _ ih => rw [addError_max]; exact ih
  | setMode _ _ ih => exact ih
  | setMax n h => exact h
  | clear _ ih => exact ih
  | merge _ _ ih _ => rw [mergeFrom_max]; exact ih
  | sort _ hs ih => obtain ⟨es, rfl, -, -⟩ := hs; exact ih

/-- **C40** Stored errors never exceed the largest limit ever configured. -/
theorem C40_limit {lo hi c rep} (h : History lo hi c rep) : c.errors.length ≤ hi := by
  induction h with
  | new => simp [Collector.new]
  | add e h' ih =>
    have := history_max h'
    rw [addError_errors]
    split
    · exact ih
    · simp; omega
  | setMode _ _ ih => exact ih
  | setMax n h _ ih => exact ih
  | clear _ ih => simp [Collector.clear]
  | merge h1 _ ih _ =>
    have := history_max h1
    rw [mergeFrom_errors]
    simp; omega
  | sort _ hs ih =>
    obtain ⟨es, rfl, hp, -⟩ := hs
    simp only; rw [hp.length_eq]; exact ih

/-- **C40** A fatal error is never forgotten (even when suppressed), and never invented. -/
theorem C40_fatal {lo hi c rep} (h : History lo hi c rep) : c.hasFatal = true ↔ ReportedFatal rep := by
  induction h with
  | new => simp [Collector.new, ReportedFatal]
  | add e _ ih =>
    rw [addError_fatal, Bool.or_eq_true, ih]
    simp [ReportedFatal, or_and_right, exists_or]
  | setMode _ _ ih => exact ih
  | setMax n h _ ih => exact ih
  | clear _ ih => simp [Collector.clear, ReportedFatal]
  | merge _ _ ih1 ih2 =>
    rw [mergeFrom_fatal, Bool.or_eq_true, ih1, ih2]
    simp [ReportedFatal, or_and_right, exists_or]
  | sort _ hs ih => obtain ⟨es, rfl, -, -⟩ := hs; exact ih

/-- **C40** Every stored error was reported, at most as often as it was reported (multiset inclusion). -/
theorem C40_no_invention {lo hi c rep} (h : History lo hi c rep) : c.errors.Subperm rep := by
  induction h with
  | new => exact List.nil_subperm
  | add e _ ih =>
    rw [addError_errors]
    split
    · exact ih.trans (List.sublist_append_left _ _).subperm
    · exact ih.append (List.Subperm.refl _)
  | setMode _ _ ih => exact ih
  | setMax n h _ ih => exact ih
  | clear _ ih => exact List.nil_subperm
  | merge _ _ ih1 ih2 =>
    rw [mergeFrom_errors]
    exact ih1.append ((List.take_sublist _ _).subperm.trans ih2)
  | sort _ hs ih => obtain ⟨es, rfl, hp, -⟩ := hs; exact hp.subperm.trans ih

/-- **C40** With a fixed limit and no merging, the stored errors are exactly the first `max` reported
ones, in order; the rest are counted as suppressed. -/
theorem C40_first_errors (m : ErrMode) (max : Nat) (rep : List ParseErr) :
    (rep.foldl addError (Collector.new m max)).errors = rep.take max ∧
    (rep.foldl addError (Collector.new m max)).suppressed = rep.length - max := by
  have gen : ∀ (rep : List ParseErr) (c : Collector), c.errors.length ≤ c.maxErrors →
      (rep.foldl addError c).errors = c.errors ++ rep.take (c.maxErrors - c.errors.length) ∧
      (rep.foldl addError c).suppressed = c.suppressed + (rep.length - (c.maxErrors - c.errors.length)) := by
    intro rep
    induction rep with
    | nil => intro c _; simp
    | cons e t ih =>
      intro c hc
      have hl : (c.addError e).errors.length ≤ (c.addError e).maxErrors := by
        rw [addError_errors, addError_max]; split
        · exact hc
        · simp; omega
      obtain ⟨h1, h2⟩ := ih _ hl
      rw [List.foldl_cons, h1, h2]
      rw [addError_errors, addError_suppressed, addError_max]
      by_cases hge : c.errors.length ≥ c.maxErrors
      · simp only [hge, if_true]
        have : c.maxErrors - c.errors.length = 0 := by omega
        simp [this]; omega
      · simp only [hge, if_false]
        obtain ⟨k, hk⟩ : ∃ k, c.maxErrors - c.errors.length = k + 1 := ⟨c.maxErrors - c.errors.length - 1, by omega⟩
        have : c.maxErrors - (c.errors ++ [e]).length = k := by simp; omega
        rw [this, hk]; simp
  have := gen rep (Collector.new m max) (by simp [Collector.new])
  simpa [Collector.new] using this

/-- **C41** Stop decision, complete characterisation for every history whose limits are at least 1. -/
theorem C41_stop {lo hi c rep} (hlo : 1 ≤ lo) (h : History lo hi c rep) :
    c.shouldStop = true ↔
      match c.mode with
      | .disabled => False
      | .bestEffort => False
      | .failFast => rep ≠ []
      | .permissive => ReportedFatal rep := by
  have hf := C40_fatal h
  have hne : c.errors = [] ↔ rep = [] := by
    clear hf
    induction h with
    | new => simp [Collector.new]
    | add e h' ih =>
      have := history_max h'
      rw [addError_errors]
      split
      · rename_i hge
        simp only [List.append_eq_nil_iff, List.cons_ne_nil, and_false, iff_false]
        intro h0; rw [h0] at hge; simp at hge; omega
      · simp
    | setMode _ _ ih => exact ih
    | setMax n h _ ih => exact ih
    | clear _ ih => simp [Collector.clear]
    | merge h1 _ ih1 ih2 =>
      have := history_max h1
      rw [mergeFrom_errors]
      rename_i c o rc ro _
      simp only [List.append_eq_nil_iff, List.take_eq_nil_iff, ih1, ih2]
      constructor
      · rintro ⟨h1, h2 | h2⟩
        · have := ih1.2 h1; simp [this] at h2; omega
        · exact ⟨h1, h2⟩
      · rintro ⟨h1, h2⟩; exact ⟨h1, Or.inr h2⟩
    | sort _ hs ih =>
      obtain ⟨es, rfl, hp, -⟩ := hs
      rename_i c _ _
      simp only
      rw [← ih]
      constructor
      · rintro rfl; exact List.Perm.nil_eq hp |>.symm
      · intro h0; rw [h0] at hp; exact hp.eq_nil
  simp only [shouldStop]
  cases hm : c.mode <;> simp [hne, hf]
  rintro ⟨e, he, -⟩ rfl
  simp at he

/-- **C41** With a limit of 0 the fail-fast claim is false of the code: a recoverable error is
suppressed, and the fail-fast collector does not ask to stop. -/
theorem C41_zero_limit_fails :
    ∃ c rep, History 0 0 c rep ∧ c.mode = .failFast ∧ rep ≠ [] ∧ c.shouldStop = false :=
  ⟨_, _, .add { severity := .recoverable, offset := 3 } (.new .failFast 0 ⟨Nat.le_refl _, Nat.le_refl _⟩), rfl, by simp, by decide⟩

/-- **C41** Even with limit 0, a fatal error stops fail-fast and permissive parsing. -/
theorem C41_fatal_stops {lo hi c rep} (h : History lo hi c rep) (hf : ReportedFatal rep)
    (hm : c.mode = .failFast ∨ c.mode = .permissive) : c.shouldStop = true := by
  have hf := (C40_fatal h).2 hf
  rcases hm with hm | hm <;> simp [shouldStop, hm, hf]

/-- **C41** Best-effort and disabled collectors never stop, whatever the history and limit. -/
theorem C41_never {lo hi c rep} (_h : History lo hi c rep) (hm : c.mode = .bestEffort ∨ c.mode = .disabled) :
    c.shouldStop = false := by
  rcases hm with hm | hm <;> simp [shouldStop, hm]

theorem foldl_merge_spec (cs : List Collector) (c : Collector) (hc : c.errors.length ≤ c.maxErrors) :
    (cs.foldl mergeFrom c).errors = c.errors ++ (cs.flatMap (·.errors)).take (c.maxErrors - c.errors.length) ∧
    (cs.foldl mergeFrom c).maxErrors = c.maxErrors ∧ (cs.foldl mergeFrom c).mode = c.mode := by
  induction cs generalizing c with
  | nil => simp
  | cons o t ih =>
    have hl : (c.mergeFrom o).errors.length ≤ (c.mergeFrom o).maxErrors := by
      rw [mergeFrom_errors, mergeFrom_max]; simp; omega
    obtain ⟨h1, h2, h3⟩ := ih _ hl
    rw [List.foldl_cons, h1, h2, h3, mergeFrom_errors, mergeFrom_max, mergeFrom_mode]
    refine ⟨?_, rfl, rfl⟩
    rw [List.flatMap_cons, List.take_append, List.append_assoc]
    congr 3
    simp; omega

/-- **C42** Sorted merge of per-thread collectors: the stored list is sorted by byte offset and is a
rearrangement of the errors already present followed by the first errors of the merged collectors (in
thread order) up to the limit; the totals add up; a fatal flag anywhere survives; mode and limit stay. -/
theorem C42_merge_sorted (c c' : Collector) (others : List Collector) (hc : c.errors.length ≤ c.maxErrors)
    (h : MergeSorted c others c') :
    c'.errors.Pairwise (fun a b => a.offset ≤ b.offset) ∧
    c'.errors.Perm (c.errors ++ (others.flatMap (·.errors)).take (c.maxErrors - c.errors.length)) ∧
    c'.errors.length + c'.suppressed =
      (c.errors.length + c.suppressed) + (others.map (fun o => o.errors.length + o.suppressed)).sum ∧
    c'.hasFatal = (c.hasFatal || others.any (·.hasFatal)) ∧
    c'.mode = c.mode ∧ c'.maxErrors = c.maxErrors := by
  obtain ⟨es, rfl, hp, hs⟩ := h
  obtain ⟨h1, h2, h3⟩ := foldl_merge_spec others c hc
  refine ⟨hs, h1 ▸ hp, ?_, ?_, h3, h2⟩
  · simp only
    rw [hp.length_eq]
    clear hp hs h1 h2 h3 hc
    induction others generalizing c with
    | nil => simp
    | cons o t ih =>
      rw [List.foldl_cons, ih, mergeFrom_errors, mergeFrom_suppressed]
      simp; omega
  · simp only
    clear hp hs h1 h2 h3 hc
    induction others generalizing c with
    | nil => simp
    | cons o t ih => rw [List.foldl_cons, ih, mergeFrom_fatal]; simp [Bool.or_assoc]

/-- **C42** If all errors fit under the limit, none is lost. -/
theorem C42_no_loss (c c' : Collector) (others : List Collector)
    (hfit : c.errors.length + (others.map (·.errors.length)).sum ≤ c.maxErrors)
    (h : MergeSorted c others c') : c'.errors.Perm (c.errors ++ others.flatMap (·.errors)) := by
  have := (C42_merge_sorted c c' others (by omega) h).2.1
  rwa [List.take_of_length_le] at this
  rw [List.length_flatMap]
  omega

/-- Non-vacuity: a sorted merge result always exists. -/
theorem C42_exists (c : Collector) (others : List Collector) : ∃ c', MergeSorted c others c' := by
  refine ⟨{ others.foldl mergeFrom c with errors := (others.foldl mergeFrom c).errors.mergeSort (fun a b => decide (a.offset ≤ b.offset)) },
    _, rfl, List.mergeSort_perm _ _, ?_⟩
  have := List.pairwise_mergeSort (le := fun (a b : ParseErr) => decide (a.offset ≤ b.offset))
    (by intro a b c; simp; omega) (by intro a b; simp; omega) (others.foldl mergeFrom c).errors
  exact this.imp (by simp)

/-- A concrete history: limit 2, three reports, the suppressed one fatal; then a merge. -/
example : ∃ c, History 2 2 c [⟨.warning, 9, 0⟩, ⟨.recoverable, 4, 0⟩, ⟨.fatal, 7, 0⟩] ∧
    c.errors.length = 2 ∧ c.suppressed = 1 ∧ c.shouldStop = true :=
  ⟨_, .add _ (.add _ (.add _ (.new .permissive 2 (by decide)))), by decide, by decide, by decide⟩

end Vroom
