import Verif.Lemmas.Conc
import Mathlib.Logic.Relation
/-
Progress for C87: from every reachable state the calling thread can come to its end.
-/
namespace Vroom.Conc
open Race

/-- Phases that occur. -/
def phaseOk (g : Nat) : MainPC → WrPC → Prop
  | .submit cur _, w | .get cur _, w | .between cur, w => (cur < 2 ∨ cur ≤ g + 1) ∧ (w = .absent → cur ≤ 2)
  | .check cur, _ => cur ≤ g + 2
  | .pushing cur, _ | .pushed cur, _ => cur ≤ g + 1
  | _, _ => True

def closedBy : WrPC → Prop
  | .failClosed | .ending | .exited => True
  | _ => False

def failingWr : WrPC → Prop
  | .failing | .failLocked | .failClosed => True
  | _ => False

structure Inv2 (n : Nat → Nat) (g : Nat) (s : St) : Prop where
  pend : ∀ ph i, Pending n s.main ph i → s.task ph i ≠ .none ∧ s.task ph i ≠ .taken
  len : s.items.length ≤ 4
  wrClosed : closedBy s.wr → s.closer ≠ .nobody
  over : s.main = .closed ∨ s.main = .joining → s.closer ≠ .nobody
  phase : phaseOk g s.main s.wr
  fails : failingWr s.wr ∨ s.closer = .writer ∨ s.main = .failed → s.error = true

theorem inv2_start {n : Nat → Nat} {g : Nat} {s : St} (h : Start s) : Inv2 n g s := by
  subst h
  constructor <;> simp [closedBy, failingWr, phaseOk, Pending]

set_option linter.unusedVariables false
set_option maxHeartbeats 0 in
set_option linter.unusedSimpArgs false in
theorem inv2_step {n : Nat → Nat} {g : Nat} {s s' : St} {e : Option Evt} (hI : Inv n s) (hJ : Inv2 n g s) (h : Step n g s e s') (hg : ¬ bad s'.main) : Inv2 n g s' := by
  have hJ' := hJ
  obtain ⟨j1, j2, j3, j4, j5, j6⟩ := hJ'
  obtain ⟨h0, h1, h2, h3, hla, h4, h5, h6, h7, h8, h9, h10, h11, h12, hfa, h13⟩ := hI
  have hcl : ∀ ph, s.main = .pushing ph → s.closer ≠ .nobody → s.closer = .writer := by
    intro ph hm hc
    cases hcc : s.closer with
    | nobody => exact absurd hcc hc
    | main => have := h6 hcc; simp [hm, mainOver] at this
    | writer => rfl
  cases h
  case pushRefused ph hm hc =>
    have hcw := hcl ph hm hc
    clear hcl hc
    refine ⟨?_, ?_, ?_, ?_, ?_, ?_⟩
      <;> simp_all [bad, Pending, phaseOk, closedBy, failingWr, St.setTask, St.setGroup]
  all_goals clear hcl
  all_goals first
    | exact hJ
    | (refine ⟨?_, ?_, ?_, ?_, ?_, ?_⟩
       <;> clear hJ h9 h11 h12 h13 hla h3
       <;> first
        | assumption
        | (simp_all [bad, Pending, phaseOk, closedBy, failingWr, wrFits, wrLive, St.setTask, St.setGroup]; done)
        | (simp_all [bad, Pending, phaseOk, closedBy, failingWr, wrFits, wrLive, St.setTask, St.setGroup]
           grind))

/-- Some sequence of steps leads from one state to the other. -/
def Leads (n : Nat → Nat) (g : Nat) : St → St → Prop := Relation.ReflTransGen (fun a b => ∃ e, Step n g a e b)

/-- The call returns (`after`) or fails. -/
def Over : MainPC → Prop
  | .after | .destroying | .unwinding _ => True
  | _ => False

/-- Nothing has failed so far. -/
structure Clean (s : St) : Prop where
  error : s.error = false
  tasks : ∀ ph i, s.task ph i ≠ .threw
  main : ¬ bad s.main

/-- What is to be shown of a state. -/
def CanEnd (n : Nat → Nat) (g : Nat) (s : St) : Prop := ∃ s', Leads n g s s' ∧ Over s'.main ∧ (Clean s → s'.main = .after)

structure Good (n : Nat → Nat) (g : Nat) (s : St) : Prop where
  inv : Inv n s
  inv2 : Inv2 n g s

variable {n : Nat → Nat} {g : Nat}

theorem CanEnd.over {s : St} (h : Over s.main) (hc : Clean s → s.main = .after) : CanEnd n g s := ⟨s, .refl, h, hc⟩

theorem CanEnd.step {s s1 : St} {e : Option Evt} (h : Step n g s e s1) (hc : Clean s → Clean s1) (h1 : CanEnd n g s1) : CanEnd n g s := by
  obtain ⟨s', a, b, c⟩ := h1
  exact ⟨s', .head ⟨e, h⟩ a, b, fun hs => c (hc hs)⟩

theorem Good.step {s s1 : St} {e : Option Evt} (hg : Good n g s) (h : Step n g s e s1) (hb : ¬ bad s1.main) : Good n g s1 :=
  ⟨inv_step hg.inv h hb, inv2_step hg.inv hg.inv2 h hb⟩

/-- A step of the kind that changes nothing about failures. -/
theorem CanEnd.good {s s1 : St} {e : Option Evt} (hg : Good n g s) (h : Step n g s e s1) (hb : ¬ bad s1.main) (he : s1.error = s.error)
    (ht : ∀ ph i, s1.task ph i = .threw → s.task ph i = .threw) (h1 : Good n g s1 → CanEnd n g s1) : CanEnd n g s :=
  .step h (fun c => ⟨he.trans c.error, fun ph i hx => c.tasks ph i (ht ph i hx), hb⟩) (h1 (hg.step h hb))

theorem lock_cases {s : St} (hg : Good n g s) : s.lock = none ∨ (s.lock = some .main ∧ mainHolds s.main) ∨ (s.lock = some .writer ∧ wrHolds s.wr) := by
  cases hl : s.lock with
  | none => exact .inl rfl
  | some t =>
    cases t with
    | main => exact .inr (.inl ⟨rfl, hg.inv.lockMain.1 hl⟩)
    | writer => exact .inr (.inr ⟨rfl, hg.inv.lockWr.1 hl⟩)
    | worker w => exact absurd hl (hg.inv.lockNo w)

/-- The writer can give the mutex back. -/
theorem free_lock (s : St) (hg : Good n g s) (hm : ¬ mainHolds s.main) (hb : ¬ bad s.main)
    (H : ∀ s1, Good n g s1 → s1.lock = none → s1.main = s.main → s1.items.length ≤ s.items.length → (s.closer ≠ .nobody → s1.closer ≠ .nobody) → CanEnd n g s1) : CanEnd n g s := by
  rcases lock_cases hg with h | ⟨h, h'⟩ | ⟨h, h'⟩
  · exact H s hg h rfl (Nat.le_refl _) id
  · exact absurd h' hm
  · cases hw : s.wr <;> simp [hw, wrHolds] at h'
    case locked =>
      cases hi : s.items with
      | nil =>
        by_cases hc : s.closer = .nobody
        · exact .good hg (.wWait s hw hi hc) hb rfl (fun _ _ => id) (fun hg1 => H _ hg1 rfl rfl (Nat.le_refl _) id)
        · exact .good hg (.wEmpty s hw hi hc) hb rfl (fun _ _ => id) (fun hg1 => H _ hg1 rfl rfl (Nat.le_refl _) id)
      | cons ph rest =>
        refine .good hg (.wPop s ph rest hw hi) hb rfl (fun _ _ => id) (fun hg1 => ?_)
        exact .good hg1 (.wUnlock _ ph rfl) hb rfl (fun _ _ => id) (fun hg2 => H _ hg2 rfl rfl (by simp [hi]) id)
    case took ph => exact .good hg (.wUnlock s ph hw) hb rfl (fun _ _ => id) (fun hg1 => H _ hg1 rfl rfl (Nat.le_refl _) id)
    case failLocked =>
      refine .good hg (.wFailClose s hw) hb rfl (fun _ _ => id) (fun hg1 => ?_)
      exact .good hg1 (.wFailUnlock _ rfl) hb rfl (fun _ _ => id) (fun hg2 => H _ hg2 rfl rfl (Nat.le_refl _) (by simp))
    case failClosed => exact .good hg (.wFailUnlock s hw) hb rfl (fun _ _ => id) (fun hg1 => H _ hg1 rfl rfl (Nat.le_refl _) id)

/-- A failed submission: the writer object is destroyed. -/
theorem failed_ends (s : St) (hg : Good n g s) (h : s.main = .failed) : CanEnd n g s :=
  ⟨_, .single ⟨_, .destroy s h⟩, trivial, fun c => by have := hg.inv2.fails (.inr (.inr h)); rw [c.error] at this; simp at this⟩

theorem joining_ends : ∀ (k : Nat) (s : St), Good n g s → s.main = .joining → s.items.length ≤ k → CanEnd n g s := by
  -- the end of the writer thread
  have exited : ∀ s, Good n g s → s.main = .joining → s.wr = .exited → CanEnd n g s := by
    intro s hg hm hw
    refine .good hg (.join s hm hw) (by simp [bad]) rfl (fun _ _ => id) (fun hg1 => ?_)
    refine .good hg1 (.readFlag _ rfl) (by simp [bad]) rfl (fun _ _ => id) (fun hg2 => ?_)
    exact .over trivial (fun _ => rfl)
  have ending : ∀ s, Good n g s → s.main = .joining → s.wr = .ending → CanEnd n g s := by
    intro s hg hm hw
    exact .good hg (.wExit s hw) (by simp [bad, hm]) rfl (fun _ _ => id) (fun hg1 => exited _ hg1 hm rfl)
  have failClosed : ∀ s, Good n g s → s.main = .joining → s.wr = .failClosed → CanEnd n g s := by
    intro s hg hm hw
    exact .good hg (.wFailUnlock s hw) (by simp [bad, hm]) rfl (fun _ _ => id) (fun hg1 => ending _ hg1 hm rfl)
  have failLocked : ∀ s, Good n g s → s.main = .joining → s.wr = .failLocked → CanEnd n g s := by
    intro s hg hm hw
    exact .good hg (.wFailClose s hw) (by simp [bad, hm]) rfl (fun _ _ => id) (fun hg1 => failClosed _ hg1 hm rfl)
  have failing : ∀ s, Good n g s → s.main = .joining → s.wr = .failing → CanEnd n g s := by
    intro s hg hm hw
    have hl : s.lock = none := by
      rcases lock_cases hg with h | ⟨_, h⟩ | ⟨_, h⟩
      · exact h
      · simp [hm, mainHolds] at h
      · simp [hw, wrHolds] at h
    exact .good hg (.wFailLock s hw hl) (by simp [bad, hm]) rfl (fun _ _ => id) (fun hg1 => failLocked _ hg1 hm rfl)
  intro k
  induction k with
  | zero =>
    have locked : ∀ s, Good n g s → s.main = .joining → s.items.length ≤ 0 → s.wr = .locked → CanEnd n g s := by
      intro s hg hm hk hw
      have hi : s.items = [] := List.length_eq_zero_iff.1 (by omega)
      exact .good hg (.wEmpty s hw hi (hg.inv2.over (.inr hm))) (by simp [bad, hm]) rfl (fun _ _ => id) (fun hg1 => ending _ hg1 hm rfl)
    have want : ∀ s, Good n g s → s.main = .joining → s.items.length ≤ 0 → s.wr = .want → CanEnd n g s := by
      intro s hg hm hk hw
      have hl : s.lock = none := by
        rcases lock_cases hg with h | ⟨_, h⟩ | ⟨_, h⟩
        · exact h
        · simp [hm, mainHolds] at h
        · simp [hw, wrHolds] at h
      exact .good hg (.wLock s hw hl) (by simp [bad, hm]) rfl (fun _ _ => id) (fun hg1 => locked _ hg1 hm hk rfl)
    have writing : ∀ s ph, Good n g s → s.main = .joining → s.items.length ≤ 0 → s.wr = .writing ph → CanEnd n g s := by
      intro s ph hg hm hk hw
      exact .good hg (.wWritten s ph hw) (by simp [bad, hm]) rfl (fun _ _ => id) (fun hg1 => want _ hg1 hm hk rfl)
    intro s hg hm hk
    have hf := hg.inv.fits
    rw [hm] at hf
    cases hw : s.wr
    case absent => exact absurd hw hf.1
    case joined => exact absurd hw hf.2
    case created => exact .good hg (.wStart s hw) (by simp [bad, hm]) rfl (fun _ _ => id) (fun hg1 => want _ hg1 hm hk rfl)
    case want => exact want s hg hm hk hw
    case locked => exact locked s hg hm hk hw
    case took ph => exact .good hg (.wUnlock s ph hw) (by simp [bad, hm]) rfl (fun _ _ => id) (fun hg1 => writing _ ph hg1 hm hk rfl)
    case writing ph => exact writing s ph hg hm hk hw
    case failing => exact failing s hg hm hw
    case failLocked => exact failLocked s hg hm hw
    case failClosed => exact failClosed s hg hm hw
    case ending => exact ending s hg hm hw
    case exited => exact exited s hg hm hw
  | succ k ih =>
    have locked : ∀ s, Good n g s → s.main = .joining → s.items.length ≤ k + 1 → s.wr = .locked → CanEnd n g s := by
      intro s hg hm hk hw
      cases hi : s.items with
      | nil => exact ih s hg hm (by simp [hi])
      | cons ph rest =>
        refine .good hg (.wPop s ph rest hw hi) (by simp [bad, hm, St.setGroup]) rfl (fun _ _ => id) (fun hg1 => ih _ hg1 hm ?_)
        simp [hi] at hk
        exact hk
    have want : ∀ s, Good n g s → s.main = .joining → s.items.length ≤ k + 1 → s.wr = .want → CanEnd n g s := by
      intro s hg hm hk hw
      have hl : s.lock = none := by
        rcases lock_cases hg with h | ⟨_, h⟩ | ⟨_, h⟩
        · exact h
        · simp [hm, mainHolds] at h
        · simp [hw, wrHolds] at h
      exact .good hg (.wLock s hw hl) (by simp [bad, hm]) rfl (fun _ _ => id) (fun hg1 => locked _ hg1 hm hk rfl)
    have writing : ∀ s ph, Good n g s → s.main = .joining → s.items.length ≤ k + 1 → s.wr = .writing ph → CanEnd n g s := by
      intro s ph hg hm hk hw
      exact .good hg (.wWritten s ph hw) (by simp [bad, hm]) rfl (fun _ _ => id) (fun hg1 => want _ hg1 hm hk rfl)
    intro s hg hm hk
    have hf := hg.inv.fits
    rw [hm] at hf
    cases hw : s.wr
    case absent => exact absurd hw hf.1
    case joined => exact absurd hw hf.2
    case created => exact .good hg (.wStart s hw) (by simp [bad, hm]) rfl (fun _ _ => id) (fun hg1 => want _ hg1 hm hk rfl)
    case want => exact want s hg hm hk hw
    case locked => exact locked s hg hm hk hw
    case took ph => exact .good hg (.wUnlock s ph hw) (by simp [bad, hm]) rfl (fun _ _ => id) (fun hg1 => writing _ ph hg1 hm hk rfl)
    case writing ph => exact writing s ph hg hm hk hw
    case failing => exact failing s hg hm hw
    case failLocked => exact failLocked s hg hm hw
    case failClosed => exact failClosed s hg hm hw
    case ending => exact ending s hg hm hw
    case exited => exact exited s hg hm hw

theorem joining_end (s : St) (hg : Good n g s) (h : s.main = .joining) : CanEnd n g s := joining_ends _ s hg h (Nat.le_refl _)

theorem closed_end (s : St) (hg : Good n g s) (h : s.main = .closed) : CanEnd n g s :=
  .good hg (.closeUnlock s h) (by simp [bad]) rfl (fun _ _ => id) (fun hg1 => joining_end _ hg1 rfl)

theorem closing_end (s : St) (hg : Good n g s) (h : s.main = .closing) : CanEnd n g s :=
  .good hg (.close s h) (by simp [bad]) rfl (fun _ _ => id) (fun hg1 => closed_end _ hg1 rfl)

/-- The check before the end of the pipeline. -/
theorem lastCheck_end (s : St) (hg : Good n g s) (h : s.main = .check (g + 2)) : CanEnd n g s := by
  refine free_lock s hg (by simp [h, mainHolds]) (by simp [h, bad]) (fun s1 hg1 hl hm _ _ => ?_)
  exact .good hg1 (.closeLock s1 (hm.trans h) hl) (by simp [bad]) rfl (fun _ _ => id) (fun hg2 => closing_end _ hg2 rfl)

/-- What is known to come to an end: everything from phase `ph` on. -/
theorem pushed_end (ph : Nat) (H : ∀ s, Good n g s → s.main = .check (ph + 1) → CanEnd n g s) (s : St) (hg : Good n g s) (h : s.main = .pushed ph) : CanEnd n g s :=
  .good hg (.pushUnlock s ph h) (by simp [bad]) rfl (fun _ _ => id) (fun hg1 => H _ hg1 rfl)

/-- With room in the queue, or a closed queue. -/
theorem pushing_room (ph : Nat) (H : ∀ s, Good n g s → s.main = .check (ph + 1) → CanEnd n g s) (s : St) (hg : Good n g s) (h : s.main = .pushing ph)
    (hr : s.items.length < 4 ∨ s.closer ≠ .nobody) : CanEnd n g s := by
  by_cases hc : s.closer = .nobody
  · have hl : s.items.length < 4 := by rcases hr with h | h; exact h; exact absurd hc h
    exact .good hg (.push s ph h hl hc) (by simp [bad]) rfl (fun _ _ => id) (fun hg1 => pushed_end ph H _ hg1 rfl)
  · exact .good hg (.pushRefused s ph h hc) (by simp [bad]) rfl (fun _ _ => id) (fun hg1 => failed_ends _ hg1 rfl)

theorem between_room (ph : Nat) (hp : 2 ≤ ph) (H : ∀ s, Good n g s → s.main = .check (ph + 1) → CanEnd n g s) (s : St) (hg : Good n g s) (h : s.main = .between ph)
    (hw : s.wr ≠ .absent) (hl : s.lock = none) (hr : s.items.length < 4 ∨ s.closer ≠ .nobody) : CanEnd n g s :=
  .good hg (.pushLock s ph h hp hw hl) (by simp [bad]) rfl (fun _ _ => id) (fun hg1 => pushing_room ph H _ hg1 rfl hr)

theorem between_end (ph : Nat) (hp : 2 ≤ ph) (H : ∀ s, Good n g s → s.main = .check (ph + 1) → CanEnd n g s) (s : St) (hg : Good n g s) (h : s.main = .between ph)
    (hw : s.wr ≠ .absent) : CanEnd n g s := by
  -- the lock is free
  have free : ∀ s, Good n g s → s.main = .between ph → s.wr ≠ .absent → s.lock = none → CanEnd n g s := by
    intro s hg h hw hl
    by_cases hr : s.items.length < 4 ∨ s.closer ≠ .nobody
    · exact between_room ph hp H s hg h hw hl hr
    · simp only [not_or, Nat.not_lt, ne_eq, not_not] at hr
      obtain ⟨hfull, hc⟩ := hr
      have hlen := hg.inv2.len
      -- the writer takes one
      have want : ∀ s, Good n g s → s.main = .between ph → s.wr = .want → s.lock = none → 4 ≤ s.items.length → CanEnd n g s := by
        intro s hg h hw hl hfull
        cases hi : s.items with
        | nil => simp [hi] at hfull
        | cons p rest =>
          refine .good hg (.wLock s hw hl) (by simp [bad, h]) rfl (fun _ _ => id) (fun hg1 => ?_)
          refine .good hg1 (.wPop _ p rest rfl hi) (by simp [bad, h, St.setGroup]) rfl (fun _ _ => id) (fun hg2 => ?_)
          refine .good hg2 (.wUnlock _ p rfl) (by simp [bad, h, St.setGroup]) rfl (fun _ _ => id) (fun hg3 => ?_)
          refine between_room ph hp H _ hg3 h (by simp) rfl (.inl ?_)
          have := hg.inv2.len
          simp [hi] at this
          simp
          omega
      have hf := hg.inv.fits
      rw [h] at hf
      have hcl := hg.inv2.wrClosed
      cases hw' : s.wr
      case absent => exact absurd hw' hw
      case joined => exact absurd hw' hf.2
      case created => exact .good hg (.wStart s hw') (by simp [bad, h]) rfl (fun _ _ => id) (fun hg1 => want _ hg1 h rfl hl hfull)
      case want => exact want s hg h hw' hl hfull
      case locked => have := hg.inv.lockWr.2 (by simp [hw', wrHolds]); simp [hl] at this
      case took p => have := hg.inv.lockWr.2 (by simp [hw', wrHolds]); simp [hl] at this
      case failLocked => have := hg.inv.lockWr.2 (by simp [hw', wrHolds]); simp [hl] at this
      case failClosed => have := hg.inv.lockWr.2 (by simp [hw', wrHolds]); simp [hl] at this
      case writing p => exact .good hg (.wWritten s p hw') (by simp [bad, h]) rfl (fun _ _ => id) (fun hg1 => want _ hg1 h rfl hl hfull)
      case failing =>
        refine .good hg (.wFailLock s hw' hl) (by simp [bad, h]) rfl (fun _ _ => id) (fun hg1 => ?_)
        refine .good hg1 (.wFailClose _ rfl) (by simp [bad, h]) rfl (fun _ _ => id) (fun hg2 => ?_)
        refine .good hg2 (.wFailUnlock _ rfl) (by simp [bad, h]) rfl (fun _ _ => id) (fun hg3 => ?_)
        exact between_room ph hp H _ hg3 h (by simp) rfl (.inr (by simp))
      case ending => exact absurd hc (hcl (by simp [hw', closedBy]))
      case exited => exact absurd hc (hcl (by simp [hw', closedBy]))
  refine free_lock s hg (by simp [h, mainHolds]) (by simp [h, bad]) (fun s1 hg1 hl hm _ _ => ?_)
  have h1 := hm.trans h
  by_cases hw1 : s1.wr = .absent
  · -- cannot happen, but the state is fine too
    have hph := hg1.inv2.phase
    rw [h1] at hph
    have h2 := hph.2 hw1
    have : ph = 2 := by omega
    subst this
    exact .good hg1 (.directDone s1 h1 hw1) (by simp [bad]) rfl (fun _ _ => id) (fun hg2 => .over trivial (fun _ => rfl))
  · exact free s1 hg1 h1 hw1 hl

/-- The loop over the futures. -/
theorem get_end (ph : Nat) (H : ∀ s, Good n g s → s.main = .between ph → CanEnd n g s) : ∀ (k i : Nat) (s : St), Good n g s → s.main = .get ph i → n ph - i ≤ k → CanEnd n g s := by
  intro k
  induction k with
  | zero =>
    intro i s hg h hk
    exact .good hg (.got s ph i h (by omega)) (by simp [bad]) rfl (fun _ _ => id) (fun hg1 => H _ hg1 rfl)
  | succ k ih =>
    intro i s hg h hk
    by_cases hi : n ph ≤ i
    · exact .good hg (.got s ph i h hi) (by simp [bad]) rfl (fun _ _ => id) (fun hg1 => H _ hg1 rfl)
    · have hi' : i < n ph := by omega
      have finished : ∀ s, Good n g s → s.main = .get ph i → s.task ph i = .finished → CanEnd n g s := by
        intro s hg h ht
        refine .good hg (.get s ph i h hi' ht) (by simp [bad]) rfl ?_ (fun hg1 => ih (i + 1) _ hg1 rfl (by omega))
        intro p j hx
        simp only [St.setTask] at hx
        split at hx
        · simp at hx
        · exact hx
      have running : ∀ s w, Good n g s → s.main = .get ph i → s.task ph i = .running w → CanEnd n g s := by
        intro s w hg h ht
        refine .good hg (.finish s ph i w ht) (by simp [bad, h, St.setTask]) rfl ?_ (fun hg1 => finished _ hg1 h (by simp [St.setTask]))
        intro p j hx
        simp only [St.setTask] at hx
        split at hx
        · simp at hx
        · exact hx
      have hp := hg.inv2.pend ph i (by rw [h]; exact ⟨rfl, Nat.le_refl _, hi'⟩)
      cases ht : s.task ph i
      case none => exact absurd ht hp.1
      case taken => exact absurd ht hp.2
      case queued =>
        refine .good hg (.begin s ph i 0 ht) (by simp [bad, h, St.setTask]) rfl ?_ (fun hg1 => running _ 0 hg1 h (by simp [St.setTask]))
        intro p j hx
        simp only [St.setTask] at hx
        split at hx
        · simp at hx
        · exact hx
      case running w => exact running s w hg h ht
      case finished => exact finished s hg h ht
      case threw =>
        exact ⟨_, .single ⟨_, .getThrows s ph i h hi' ht⟩, trivial, fun c => absurd ht (c.tasks ph i)⟩

/-- A whole phase. -/
theorem phase_end (ph : Nat) (H : ∀ s, Good n g s → s.main = .between ph → CanEnd n g s) : ∀ (k i : Nat) (s : St), Good n g s → s.main = .submit ph i → n ph - i ≤ k → CanEnd n g s := by
  intro k
  induction k with
  | zero =>
    intro i s hg h hk
    exact .good hg (.submitted s ph i h (by omega)) (by simp [bad]) rfl (fun _ _ => id) (fun hg1 => get_end ph H _ 0 _ hg1 rfl (Nat.le_refl _))
  | succ k ih =>
    intro i s hg h hk
    by_cases hi : n ph ≤ i
    · exact .good hg (.submitted s ph i h hi) (by simp [bad]) rfl (fun _ _ => id) (fun hg1 => get_end ph H _ 0 _ hg1 rfl (Nat.le_refl _))
    · refine .good hg (.submit s ph i h (by omega)) (by simp [bad]) rfl ?_ (fun hg1 => ih (i + 1) _ hg1 rfl (by omega))
      intro p j hx
      simp only [St.setTask] at hx
      split at hx
      · simp at hx
      · exact hx

/-- After a phase of encoding. -/
theorem between_any (ph : Nat) (hp : 2 ≤ ph) (H : ∀ s, Good n g s → s.main = .check (ph + 1) → CanEnd n g s) (s : St) (hg : Good n g s) (h : s.main = .between ph) : CanEnd n g s := by
  by_cases hw : s.wr = .absent
  · have hph := hg.inv2.phase
    rw [h] at hph
    have h2 := hph.2 hw
    have : ph = 2 := by omega
    subst this
    exact .good hg (.directDone s h hw) (by simp [bad]) rfl (fun _ _ => id) (fun hg2 => .over trivial (fun _ => rfl))
  · exact between_end ph hp H s hg h hw

/-- The loop over the row groups. -/
theorem check_end : ∀ (k ph : Nat) (s : St), Good n g s → s.main = .check ph → g + 2 - ph ≤ k → CanEnd n g s := by
  intro k
  induction k with
  | zero =>
    intro ph s hg h hk
    have hph := hg.inv2.phase
    rw [h] at hph
    have hph' : ph ≤ g + 2 := hph
    have : ph = g + 2 := by omega
    exact lastCheck_end s hg (this ▸ h)
  | succ k ih =>
    intro ph s hg h hk
    have hph := hg.inv2.phase
    rw [h] at hph
    have hph' : ph ≤ g + 2 := hph
    have hcur := hg.inv.cur
    rw [h] at hcur
    have hcur' : 2 ≤ ph := hcur
    by_cases hlt : ph < g + 2
    · cases he : s.error with
      | false =>
        refine .good hg (.checkOk s ph h hlt he) (by simp [bad]) rfl (fun _ _ => id) (fun hg1 => ?_)
        exact phase_end ph (between_any ph hcur' (fun s hg h => ih (ph + 1) s hg h (by omega))) _ 0 _ hg1 rfl (Nat.le_refl _)
      | true => exact .good hg (.checkBad s ph h hlt he) (by simp [bad]) rfl (fun _ _ => id) (fun hg1 => failed_ends _ hg1 rfl)
    · exact lastCheck_end s hg (by rw [h, show ph = g + 2 by omega])

theorem check_any (ph : Nat) (s : St) (hg : Good n g s) (h : s.main = .check ph) : CanEnd n g s := check_end _ ph s hg h (Nat.le_refl _)

theorem between_all (ph : Nat) (s : St) (hg : Good n g s) (h : s.main = .between ph) : CanEnd n g s := by
  have parsed : ∀ s, Good n g s → s.main = .between 1 → CanEnd n g s := by
    intro s hg h
    exact .good hg (.spawn s h) (by simp [bad]) rfl (fun _ _ => id) (fun hg1 => check_any 2 _ hg1 rfl)
  match ph, h with
  | 0, h =>
    refine .good hg (.analysed s h) (by simp [bad]) rfl (fun _ _ => id) (fun hg1 => ?_)
    exact phase_end 1 parsed _ 0 _ hg1 rfl (Nat.le_refl _)
  | 1, h => exact parsed s hg h
  | ph + 2, h => exact between_any (ph + 2) (by omega) (fun s hg h => check_any _ s hg h) s hg h

theorem canEnd_good (s : St) (hg : Good n g s) : CanEnd n g s := by
  cases h : s.main
  case submit ph i => exact phase_end ph (between_all ph) _ i s hg h (Nat.le_refl _)
  case get ph i => exact get_end ph (between_all ph) _ i s hg h (Nat.le_refl _)
  case between ph => exact between_all ph s hg h
  case check ph => exact check_any ph s hg h
  case pushing ph =>
    by_cases hr : s.items.length < 4 ∨ s.closer ≠ .nobody
    · exact pushing_room ph (check_any _) s hg h hr
    · simp only [not_or, Nat.not_lt, ne_eq, not_not] at hr
      exact .good hg (.pushWait s ph h hr.1 hr.2) (by simp [bad]) rfl (fun _ _ => id) (fun hg1 => between_all ph _ hg1 rfl)
  case pushed ph => exact pushed_end ph (check_any _) s hg h
  case closing => exact closing_end s hg h
  case closed => exact closed_end s hg h
  case joining => exact joining_end s hg h
  case joined => exact .good hg (.readFlag s h) (by simp [bad]) rfl (fun _ _ => id) (fun _ => .over trivial (fun _ => rfl))
  case after => exact .over (by rw [h]; trivial) (fun _ => h)
  case failed => exact failed_ends s hg h
  case destroying => exact absurd (by rw [h]; trivial) hg.inv.good
  case unwinding ph => exact absurd (by rw [h]; trivial) hg.inv.good

end Vroom.Conc
