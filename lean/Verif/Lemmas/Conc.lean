import Verif.Model.Race
import Verif.Lemmas.Race
import Mathlib.Tactic.Push
/-
Token places and the invariant for C85.
-/
namespace Vroom.Conc
open Race

/-- Which token of an object: that of the calling thread, of the writer thread, or of a task. -/
inductive Tok where
  | main
  | writer
  | task (ph i : Nat)

instance : Nonempty Tok := ⟨.main⟩

abbrev Place := Tid ⊕ Syn

def taskPlace (s : St) (ph i : Nat) : Place :=
  match s.task ph i with
  | .none | .taken => .inl .main
  | .queued => .inr (.start ph i)
  | .running w => .inl (.worker w)
  | .finished | .threw => .inr (.done ph i)

def wrPlace (s : St) : Place :=
  match s.wr with
  | .absent | .joined => .inl .main
  | .created => .inr .spawn
  | .exited => .inr .exit
  | _ => .inl .writer

def lockPlace (s : St) : Place :=
  match s.lock with
  | none => .inr .mutex
  | some t => .inl t

def queueAt (s : St) (p : Place) : Prop :=
  match s.wr with
  | .absent | .joined => p = .inl .main
  | _ =>
    match s.lock with
    | some t => p = .inl t
    | none =>
      match s.last with
      | none => p = .inl .main ∨ p = wrPlace s
      | some .main => p = .inr .mutex ∨ p = .inl .main
      | some _ => p = .inr .mutex ∨ p = wrPlace s

def fileAt (s : St) (p : Place) : Prop :=
  if s.main = .failed ∨ s.wr = .absent ∨ s.wr = .joined then p = .inl .main
  else p = wrPlace s ∨ (s.error = true ∧ p = .inr .error) ∨
    (s.closer = .writer ∧ ((s.lock = none ∧ p = .inr .mutex) ∨ (s.lock = some .main ∧ p = .inl .main)))

def at_ (s : St) : Loc → Tok → Place → Prop
  | .fixed, .task ph i, p => p = taskPlace s ph i
  | .fixed, _, p => p = .inl .main
  | .src ph i, _, p => p = taskPlace s ph i
  | .dst ph i, _, p =>
    match s.group ph with
    | .mine => p = taskPlace s ph i
    | .queued => p = lockPlace s
    | .popped => p = wrPlace s
  | .queue, _, p => queueAt s p
  | .queuePtr, .writer, p => p = wrPlace s
  | .queuePtr, _, p => p = .inl .main
  | .file, _, p => fileAt s p
  | .errorText, _, p => p = wrPlace s
  | .tls t, _, p => p = .inl t

def mainHolds : MainPC → Prop
  | .pushing _ | .pushed _ | .closing | .closed => True
  | _ => False

def wrHolds : WrPC → Prop
  | .locked | .took _ | .failLocked | .failClosed => True
  | _ => False

/-- Tasks of the current phase handed out and not yet waited for. -/
def Pending (n : Nat → Nat) : MainPC → Nat → Nat → Prop
  | .submit cur j, ph, i => ph = cur ∧ i < j
  | .get cur j, ph, i => ph = cur ∧ j ≤ i ∧ i < n cur
  | _, _, _ => False

def wrLive (w : WrPC) : Prop := w ≠ .absent ∧ w ≠ .joined

def wrFits : MainPC → WrPC → Prop
  | .submit cur _, w | .get cur _, w | .between cur, w => (cur < 2 → w = .absent) ∧ w ≠ .joined
  | .check _, w | .pushing _, w | .pushed _, w | .closing, w | .closed, w | .joining, w | .failed, w => wrLive w
  | .joined, w => w = .joined
  | .after, w => w = .absent ∨ w = .joined
  | _, _ => True

def sent : MainPC → Nat → Prop
  | .submit cur _, ph | .get cur _, ph | .between cur, ph | .check cur, ph | .pushing cur, ph => ph < cur
  | .pushed cur, ph => ph ≤ cur
  | _, _ => True

def curOk : MainPC → Prop
  | .check cur | .pushing cur | .pushed cur => 2 ≤ cur
  | _ => True

def wrFailed : WrPC → Prop
  | .failing | .failLocked | .failClosed | .ending | .exited | .joined => True
  | _ => False

def mainOver : MainPC → Prop
  | .closed | .joining | .joined | .after => True
  | _ => False

def bad : MainPC → Prop
  | .destroying | .unwinding _ => True
  | _ => False

structure Inv (n : Nat → Nat) (s : St) : Prop where
  good : ¬ bad s.main
  lockMain : s.lock = some .main ↔ mainHolds s.main
  lockWr : s.lock = some .writer ↔ wrHolds s.wr
  lockNo : ∀ w, s.lock ≠ some (.worker w)
  last : ∀ t, s.lock = some t → s.last = some t
  fits : wrFits s.main s.wr
  err : s.error = true ∨ s.closer = .writer → wrFailed s.wr
  closer : s.closer = .main → mainOver s.main
  le : ∀ cur j, s.main = .submit cur j → j ≤ n cur
  tasks : ∀ ph i, ¬ Pending n s.main ph i → s.task ph i = .none ∨ s.task ph i = .taken
  groups : ∀ ph, s.group ph ≠ .mine → 2 ≤ ph ∧ sent s.main ph
  cur : curOk s.main
  nodup : s.items.Nodup
  items : ∀ ph ∈ s.items, s.group ph = .queued
  failed : s.main = .failed → s.error = true ∨ s.closer = .writer
  wrGroup : ∀ ph, s.wr = .took ph ∨ s.wr = .writing ph → s.group ph = .popped

theorem inv_start {n : Nat → Nat} {s : St} (h : Start s) : Inv n s := by
  subst h
  constructor <;> simp [bad, mainHolds, wrHolds, wrFits, wrFailed, mainOver, Pending, sent, curOk]


set_option linter.unusedVariables false
set_option maxHeartbeats 0 in
set_option linter.unusedSimpArgs false in
theorem inv_step {n : Nat → Nat} {g : Nat} {s s' : St} {e : Option Evt} (hI : Inv n s) (h : Step n g s e s') (hg : ¬ bad s'.main) : Inv n s' := by
  have hI' := hI
  obtain ⟨h0, h1, h2, h3, hla, h4, h5, h6, h7, h8, h9, h10, h11, h12, hfa, h13⟩ := hI'
  have hcl : ∀ ph, s.main = .pushing ph → s.closer ≠ .nobody → s.closer = .writer := by
    intro ph hm hc
    cases hcc : s.closer with
    | nobody => exact absurd hcc hc
    | main => have := h6 hcc; simp [hm, mainOver] at this
    | writer => rfl
  cases h
  case pushRefused ph hm hc =>
    have hcw := hcl ph hm hc
    clear hcl hc
    refine ⟨hg, ?_, ?_, ?_, ?_, ?_, ?_, ?_, ?_, ?_, ?_, ?_, ?_, ?_, ?_, ?_⟩
      <;> simp_all [bad, mainHolds, wrHolds, wrFits, wrFailed, mainOver, Pending, sent, curOk, St.setTask, St.setGroup, wrLive]
  all_goals clear hcl
  all_goals first
    | exact hI
    | (refine ⟨hg, ?_, ?_, ?_, ?_, ?_, ?_, ?_, ?_, ?_, ?_, ?_, ?_, ?_, ?_, ?_⟩
       <;> clear hI
       <;> first
        | assumption
        | (simp_all [bad, mainHolds, wrHolds, wrFits, wrFailed, mainOver, Pending, sent, curOk, St.setTask, St.setGroup, wrLive]; done)
        | (simp_all [bad, mainHolds, wrHolds, wrFits, wrFailed, mainOver, Pending, sent, curOk, St.setTask, St.setGroup, wrLive]
           grind))

/-- A token moves along: it stays, or goes from `src` to `tgt`. -/
def Mv (src tgt x y : Place) : Prop := y = x ∨ (y = tgt ∧ x = src)

theorem move_of {s s' : St} {src tgt : Place} (hT : ∀ ph i, Mv src tgt (taskPlace s ph i) (taskPlace s' ph i))
    (hW : Mv src tgt (wrPlace s) (wrPlace s')) (hL : (∃ ph, s.group ph = .queued) → Mv src tgt (lockPlace s) (lockPlace s')) (hG : s'.group = s.group)
    (hQ : ∀ p, queueAt s' p → queueAt s p ∨ (p = tgt ∧ queueAt s src))
    (hF : ∀ p, fileAt s' p → fileAt s p ∨ (p = tgt ∧ fileAt s src)) :
    ∀ l k p, at_ s' l k p → at_ s l k p ∨ (p = tgt ∧ at_ s l k src) := by
  have mv : ∀ {x y p : Place}, Mv src tgt x y → p = y → p = x ∨ (p = tgt ∧ src = x) := by
    rintro x y p (rfl | ⟨rfl, rfl⟩) rfl
    · exact .inl rfl
    · exact .inr ⟨rfl, rfl⟩
  intro l k p hp
  cases l with
  | fixed => cases k with
    | task ph i => exact mv (hT ph i) hp
    | main => exact .inl hp
    | writer => exact .inl hp
  | src ph i => exact mv (hT ph i) hp
  | dst ph i =>
    simp only [at_, hG] at hp ⊢
    cases hg : s.group ph with
    | mine => simp only [hg] at hp ⊢; exact mv (hT ph i) hp
    | queued => simp only [hg] at hp ⊢; exact mv (hL ⟨ph, hg⟩) hp
    | popped => simp only [hg] at hp ⊢; exact mv hW hp
  | queue => exact hQ p hp
  | queuePtr => cases k with
    | task ph i => exact .inl hp
    | main => exact .inl hp
    | writer => exact mv hW hp
  | file => exact hF p hp
  | errorText => exact mv hW hp
  | tls t => exact .inl hp

/-- The steps that synchronise, and the silent ones. -/
def Quiet : Option Evt → Prop
  | some ⟨_, .acc _ _⟩ => False
  | _ => True

theorem taskPlace_set (s : St) (ph i : Nat) (x : TaskSt) (p j : Nat) :
    taskPlace (s.setTask ph i x) p j = if p = ph ∧ j = i then taskPlace (s.setTask ph i x) ph i else taskPlace s p j := by
  by_cases h : p = ph ∧ j = i
  · obtain ⟨rfl, rfl⟩ := h; simp
  · rw [if_neg h]; simp [taskPlace, St.setTask, h]

theorem mv_set {s : St} {src tgt : Place} {ph i : Nat} {x : TaskSt} (h : Mv src tgt (taskPlace s ph i) (taskPlace (s.setTask ph i x) ph i)) (p j : Nat) :
    Mv src tgt (taskPlace s p j) (taskPlace (s.setTask ph i x) p j) := by
  rw [taskPlace_set]
  by_cases hc : p = ph ∧ j = i
  · obtain ⟨rfl, rfl⟩ := hc; simpa using h
  · rw [if_neg hc]; exact .inl rfl

set_option maxHeartbeats 1000000 in
set_option linter.unusedSimpArgs false in
theorem obeys_quiet {n : Nat → Nat} {g : Nat} {s s' : St} {e : Option Evt} (hI : Inv n s) (h : Step n g s e s') (hg : ¬ bad s'.main) (he : Quiet e) :
    Obeys (at_ s) (at_ s') e := by
  obtain ⟨h0, h1, h2, h3, hla, h4, h5, h6, h7, h8, h9, h10, h11, h12, hfa, h13⟩ := hI
  have ng : s.main = .between 1 → ¬ ∃ ph, s.group ph = .queued := by
    rintro hm ⟨ph, hq⟩
    have := h9 ph (by simp [hq])
    rw [hm] at this; simp [sent] at this; omega
  cases h
  case submit ph i hm hi =>
    refine move_of (mv_set (.inr ⟨?_, ?_⟩)) (.inl rfl) (fun _ => .inl rfl) rfl (fun p hp => .inl hp) (fun p hp => .inl ?_)
    · simp [taskPlace, St.setTask]
    · have := h8 ph i (by simp [hm, Pending])
      rcases this with h | h <;> simp [taskPlace, h]
    · simpa [fileAt, hm, wrPlace, St.setTask] using hp
  case begin ph i w hm =>
    refine move_of (mv_set (.inr ⟨?_, ?_⟩)) (.inl rfl) (fun _ => .inl rfl) rfl (fun p hp => .inl hp) (fun p hp => .inl hp)
    · simp [taskPlace, St.setTask]
    · simp [taskPlace, hm]
  case finish ph i w hm =>
    refine move_of (mv_set (.inr ⟨?_, ?_⟩)) (.inl rfl) (fun _ => .inl rfl) rfl (fun p hp => .inl hp) (fun p hp => .inl hp)
    · simp [taskPlace, St.setTask]
    · simp [taskPlace, hm]
  case throw ph i w hm =>
    refine move_of (mv_set (.inr ⟨?_, ?_⟩)) (.inl rfl) (fun _ => .inl rfl) rfl (fun p hp => .inl hp) (fun p hp => .inl hp)
    · simp [taskPlace, St.setTask]
    · simp [taskPlace, hm]
  case get ph i hm hi ht =>
    refine move_of (mv_set (.inr ⟨?_, ?_⟩)) (.inl rfl) (fun _ => .inl rfl) rfl (fun p hp => .inl hp) (fun p hp => .inl ?_)
    · simp [taskPlace, St.setTask]
    · simp [taskPlace, ht]
    · simpa [fileAt, hm, wrPlace, St.setTask] using hp
  case getThrows => exact absurd trivial hg
  case destroy => exact absurd trivial hg
  case mainAcc => exact absurd he id
  case taskAcc => exact absurd he id
  case wAcc => exact absurd he id
  case push => exact absurd he id
  case close => exact absurd he id
  case wPop => exact absurd he id
  case wFailClose => exact absurd he id
  case submitted ph i hm hi =>
    intro l k p hp
    have := move_of (s := s) (s' := { s with main := .get ph 0 }) (src := .inl .main) (tgt := .inl .main)  (fun _ _ => .inl rfl) (.inl rfl) (fun _ => .inl rfl) rfl (fun p hp => .inl hp) (fun p hp => .inl (by simpa [fileAt, hm, wrPlace] using hp)) l k p hp
    rcases this with h | ⟨rfl, h⟩ <;> exact h
  case got ph i hm hi =>
    intro l k p hp
    have := move_of (s := s) (s' := { s with main := .between ph }) (src := .inl .main) (tgt := .inl .main)  (fun _ _ => .inl rfl) (.inl rfl) (fun _ => .inl rfl) rfl (fun p hp => .inl hp) (fun p hp => .inl (by simpa [fileAt, hm, wrPlace] using hp)) l k p hp
    rcases this with h | ⟨rfl, h⟩ <;> exact h
  case analysed hm =>
    intro l k p hp
    have := move_of (s := s) (s' := { s with main := .submit 1 0 }) (src := .inl .main) (tgt := .inl .main)  (fun _ _ => .inl rfl) (.inl rfl) (fun _ => .inl rfl) rfl (fun p hp => .inl hp) (fun p hp => .inl (by simpa [fileAt, hm, wrPlace] using hp)) l k p hp
    rcases this with h | ⟨rfl, h⟩ <;> exact h
  case direct hm hgr =>
    intro l k p hp
    have := move_of (s := s) (s' := { s with main := .submit 2 0 }) (src := .inl .main) (tgt := .inl .main)  (fun _ _ => .inl rfl) (.inl rfl) (fun _ => .inl rfl) rfl (fun p hp => .inl hp) (fun p hp => .inl (by simpa [fileAt, hm, wrPlace] using hp)) l k p hp
    rcases this with h | ⟨rfl, h⟩ <;> exact h
  case nothing hm hgr =>
    intro l k p hp
    have := move_of (s := s) (s' := { s with main := .after }) (src := .inl .main) (tgt := .inl .main)  (fun _ _ => .inl rfl) (.inl rfl) (fun _ => .inl rfl) rfl (fun p hp => .inl hp) (fun p hp => .inl (by simpa [fileAt, hm, wrPlace] using hp)) l k p hp
    rcases this with h | ⟨rfl, h⟩ <;> exact h
  case directDone hm hw =>
    intro l k p hp
    have := move_of (s := s) (s' := { s with main := .after }) (src := .inl .main) (tgt := .inl .main)  (fun _ _ => .inl rfl) (.inl rfl) (fun _ => .inl rfl) rfl (fun p hp => .inl hp) (fun p hp => .inl (by simpa [fileAt, hm, wrPlace] using hp)) l k p hp
    rcases this with h | ⟨rfl, h⟩ <;> exact h
  case wWritten ph hm =>
    intro l k p hp
    have := move_of (s := s) (s' := { s with wr := .want }) (src := .inl .main) (tgt := .inl .main)  (fun _ _ => .inl rfl) (.inl (by simp [wrPlace, hm])) (fun _ => .inl rfl) rfl
      (fun p hp => .inl (by simpa [queueAt, hm, wrPlace] using hp)) (fun p hp => .inl (by simpa [fileAt, hm, wrPlace] using hp)) l k p hp
    rcases this with h | ⟨rfl, h⟩ <;> exact h
  case spawn hm =>
    have ha : s.wr = .absent := by simp [hm, wrFits] at h4; exact h4.1
    refine move_of (fun _ _ => .inl rfl) (.inr (by simp [wrPlace, ha])) (fun hq => absurd hq (ng hm)) rfl ?_ ?_
    · intro p hp; simp [queueAt, wrPlace, ha] at hp ⊢; exact hp
    · intro p hp; simp [fileAt, wrPlace, ha] at hp ⊢
      grind [wrFailed]
  case pushRefused ph hm hc =>
    have hl : s.lock = some .main := h1.2 (by simp [hm, mainHolds])
    have hw : wrLive s.wr := by simpa [hm, wrFits] using h4
    have hcl : s.closer = .writer := by
      cases hcc : s.closer with
      | nobody => exact absurd hcc hc
      | main => have := h6 hcc; simp [hm, mainOver] at this
      | writer => rfl
    refine move_of (fun _ _ => .inl rfl) (.inl rfl) (fun _ => .inr (by simp [lockPlace, hl])) rfl ?_ ?_
    · intro p hp
      have hq : queueAt s (.inl .main) := by
        have := hw
        unfold queueAt wrLive at *
        split <;> simp_all
      have hq' : p = .inr .mutex ∨ p = .inl .main := by
        have := hla _ hl
        unfold queueAt wrLive at *
        revert hp
        simp only [this]
        split <;> simp_all
      rcases hq' with h | h
      · exact .inr ⟨h, hq⟩
      · exact .inl (h ▸ hq)
    · intro p hp
      have : p = .inl .main := by simpa [fileAt] using hp
      subst this
      left
      unfold fileAt
      rw [if_neg (by simp [hm, hw.1, hw.2])]
      exact .inr (.inr ⟨hcl, .inr ⟨hl, rfl⟩⟩)
  case join hm hw =>
    have hl : s.lock = none := by
      cases hl : s.lock with
      | none => rfl
      | some t =>
        cases t with
        | main => have := h1.1 hl; simp [hm, mainHolds] at this
        | writer => have := h2.1 hl; simp [hw, wrHolds] at this
        | worker w => exact absurd hl (h3 w)
    refine move_of (fun _ _ => .inl rfl) (.inr (by simp [wrPlace, hw])) (fun _ => .inl rfl) rfl ?_ ?_
    · intro p hp
      have : p = .inl .main := by simpa [queueAt] using hp
      subst this
      simp only [queueAt, hw, hl, wrPlace]
      cases s.last with
      | none => simp
      | some t => cases t <;> simp
    · intro p hp
      have : p = .inl .main := by simpa [fileAt] using hp
      subst this
      right
      refine ⟨rfl, ?_⟩
      unfold fileAt
      rw [if_neg (by simp [hm, hw])]
      exact .inl (by simp [wrPlace, hw])
  case wStart hm =>
    refine move_of (fun _ _ => .inl rfl) (.inr (by simp [wrPlace, hm])) (fun _ => .inl rfl) rfl ?_ ?_
    · intro p hp
      simp only [queueAt, wrPlace, hm] at hp ⊢
      grind
    · intro p hp
      have := h5
      simp only [fileAt, wrPlace, hm, wrFailed] at hp this ⊢
      grind
  case wFail ph hm =>
    refine move_of (fun _ _ => .inl rfl) (.inl (by simp [wrPlace, hm])) (fun _ => .inl rfl) rfl ?_ ?_
    · intro p hp
      simp only [queueAt, wrPlace, hm] at hp ⊢
      grind
    · intro p hp
      have := h5
      simp only [fileAt, wrPlace, hm, wrFailed] at hp this ⊢
      grind
  case wExit hm =>
    refine move_of (fun _ _ => .inl rfl) (.inr (by simp [wrPlace, hm])) (fun _ => .inl rfl) rfl ?_ ?_
    · intro p hp
      simp only [queueAt, wrPlace, hm] at hp ⊢
      grind
    · intro p hp
      simp only [fileAt, wrPlace, hm] at hp ⊢
      grind
  all_goals
    refine move_of (fun _ _ => .inl rfl) ?_ ?_ rfl ?_ ?_
    all_goals (
      simp only [wrPlace, queueAt, fileAt, lockPlace, Mv]
      grind [wrLive, wrFits, mainHolds, wrHolds, wrFailed, mainOver, curOk, bad])

theorem sane_acc {H H' : Loc → Tok → Place → Prop} {t : Tid} {k : Kind} {l : Loc} (hm : ∀ l' k p, H' l' k p → H l' k p)
    (hw : k = .write → ∀ k, H l k (.inl t) ∧ ∀ p, H' l k p → p = .inl t)
    (hr : k = .read → ∃ k, H l k (.inl t) ∧ ∀ p, H' l k p → p = .inl t) : Obeys H H' (some ⟨t, .acc k l⟩) := by
  cases k with
  | read => exact ⟨hr rfl, hm⟩
  | write => exact ⟨hw rfl, hm⟩

/-- All tokens of the object are with thread `t` and nowhere else. -/
def Owns (s : St) (t : Tid) (l : Loc) : Prop := ∀ k p, at_ s l k p ↔ p = .inl t

theorem obeys_owned {s s' : St} {t : Tid} {k : Kind} {l : Loc} (hm : ∀ l' k p, at_ s' l' k p → at_ s l' k p) (h : Owns s t l) :
    Obeys (at_ s) (at_ s') (some ⟨t, .acc k l⟩) :=
  sane_acc hm (fun _ k => ⟨(h k _).2 rfl, fun p hp => (h k p).1 (hm _ _ _ hp)⟩)
    (fun _ => ⟨.main, (h _ _).2 rfl, fun p hp => (h _ p).1 (hm _ _ _ hp)⟩)

theorem settled_place {s : St} {ph i : Nat} (h : s.task ph i = .none ∨ s.task ph i = .taken) : taskPlace s ph i = .inl .main := by
  rcases h with h | h <;> simp [taskPlace, h]

theorem obeys_main {n : Nat → Nat} {s : St} (hI : Inv n s) {k : Kind} {l : Loc} (hm : mainMay s k l) :
    Obeys (at_ s) (at_ s) (some ⟨.main, .acc k l⟩) := by
  obtain ⟨h0, h1, h2, h3, hla, h4, h5, h6, h7, h8, h9, h10, h11, h12, hfa, h13⟩ := hI
  have keep : ∀ l' k p, at_ s l' k p → at_ s l' k p := fun _ _ _ h => h
  have mine : ∀ ph, (2 ≤ ph → ¬ sent s.main ph) → s.group ph = .mine := by
    intro ph h
    cases hg : s.group ph with
    | mine => rfl
    | queued => exact absurd (h9 ph (by simp [hg])).2 (h (h9 ph (by simp [hg])).1)
    | popped => exact absurd (h9 ph (by simp [hg])).2 (h (h9 ph (by simp [hg])).1)
  have absent : s.wr = .absent ∨ s.wr = .joined → wrPlace s = .inl .main := by
    rintro (h | h) <;> simp [wrPlace, h]
  cases l with
  | tls t =>
    cases hm
    exact obeys_owned keep (fun _ _ => Iff.rfl)
  | fixed =>
    refine sane_acc keep (fun hk => ?_) (fun _ => ⟨.main, rfl, fun p hp => hp⟩)
    rcases hm with hm | hm
    · rw [hk] at hm; cases hm
    · intro t
      cases t with
      | task ph i =>
        have : taskPlace s ph i = .inl .main := settled_place (h8 ph i (by simp [hm, Pending]))
        exact ⟨this.symm, fun p hp => hp.trans this⟩
      | main => exact ⟨rfl, fun p hp => hp⟩
      | writer => exact ⟨rfl, fun p hp => hp⟩
  | src ph i =>
    apply obeys_owned keep
    have : taskPlace s ph i = .inl .main := by
      apply settled_place
      apply h8
      cases hmm : s.main <;> simp [mainMay, hmm, Pending, named] at hm ⊢ <;> first | (exact absurd trivial (by simpa [hmm, bad] using h0)) | omega
    intro k p
    simp [at_, this]
  | dst ph i =>
    apply obeys_owned keep
    have hp : taskPlace s ph i = .inl .main := by
      apply settled_place
      apply h8
      cases hmm : s.main <;> simp [mainMay, hmm, Pending, named] at hm ⊢ <;> first | (exact absurd trivial (by simpa [hmm, bad] using h0)) | omega
    have hg : s.group ph = .mine := by
      apply mine
      cases hmm : s.main <;> simp [mainMay, hmm, sent, named] at hm ⊢ <;> first | (exact absurd trivial (by simpa [hmm, bad] using h0)) | omega
    intro k p
    simp [at_, hp, hg]
  | queue =>
    apply obeys_owned keep
    intro k' p
    simp only [at_]
    by_cases hj : s.wr = .absent ∨ s.wr = .joined
    · rcases hj with h | h <;> simp [queueAt, h]
    · have hl : s.lock = some .main := by
        apply h1.2
        cases hmm : s.main <;> simp [mainMay, hmm, hj] at hm <;> simp [mainHolds]
      unfold queueAt
      push_neg at hj
      cases hw : s.wr <;> simp_all
  | queuePtr =>
    refine sane_acc keep (fun hk => ?_) (fun _ => ⟨.main, rfl, fun p hp => hp⟩)
    have hw : s.wr = .absent ∨ s.wr = .joined := by
      rcases hm with hm | hm
      · rw [hk] at hm; cases hm
      · exact hm
    intro t
    cases t with
    | task ph i => exact ⟨rfl, fun p hp => hp⟩
    | main => exact ⟨rfl, fun p hp => hp⟩
    | writer => exact ⟨(absent hw).symm, fun p hp => hp.trans (absent hw)⟩
  | file =>
    apply obeys_owned keep
    intro k' p
    simp only [at_, fileAt]
    rw [if_pos]
    rcases hm with hm | hm | hm
    · exact .inr (.inl hm)
    · rw [hm] at h4; exact .inr h4
    · exact .inl hm
  | errorText =>
    apply obeys_owned keep
    intro k' p
    simp only [at_]
    rw [absent]
    rcases hm with hm | hm | hm
    · exact .inl hm
    · rw [hm] at h4; exact h4
    · exact absurd trivial (by simpa [hm, bad] using h0)

theorem obeys_taskAcc {s : St} {ph i w : Nat} (h : s.task ph i = .running w) {k : Kind} {l : Loc} (hm : taskMay ph i w k l) (hg : s.group ph = .mine) :
    Obeys (at_ s) (at_ s) (some ⟨.worker w, .acc k l⟩) := by
  have keep : ∀ l' k p, at_ s l' k p → at_ s l' k p := fun _ _ _ h => h
  have hp : taskPlace s ph i = .inl (.worker w) := by simp [taskPlace, h]
  cases l with
  | fixed =>
    cases hm
    exact sane_acc keep (fun h => by cases h) (fun _ => ⟨.task ph i, hp.symm, fun p h' => h'.trans hp⟩)
  | src p j =>
    obtain ⟨rfl, rfl, -⟩ := hm
    exact obeys_owned keep (fun k' q => by simp [at_, hp])
  | dst p j =>
    obtain ⟨rfl, rfl⟩ := hm
    exact obeys_owned keep (fun k' q => by simp [at_, hp, hg])
  | tls t => cases hm; exact obeys_owned keep (fun _ _ => Iff.rfl)
  | queue => exact absurd hm id
  | queuePtr => exact absurd hm id
  | file => exact absurd hm id
  | errorText => exact absurd hm id

theorem obeys_writer {n : Nat → Nat} {s : St} (hI : Inv n s) {k : Kind} {l : Loc} (hm : writerMay s k l) :
    Obeys (at_ s) (at_ s) (some ⟨.writer, .acc k l⟩) := by
  obtain ⟨h0, h1, h2, h3, hla, h4, h5, h6, h7, h8, h9, h10, h11, h12, hfa, h13⟩ := hI
  have keep : ∀ l' k p, at_ s l' k p → at_ s l' k p := fun _ _ _ h => h
  cases l with
  | fixed => exact absurd hm id
  | src p j => exact absurd hm id
  | tls t => obtain ⟨rfl, -⟩ := hm; exact obeys_owned keep (fun _ _ => Iff.rfl)
  | dst ph j =>
    apply obeys_owned keep
    intro k' p
    have hw : wrPlace s = .inl .writer := by rcases hm with h | h <;> simp [wrPlace, h]
    simp [at_, h13 ph hm, hw]
  | queue =>
    apply obeys_owned keep
    intro k' p
    have hl : s.lock = some .writer := by
      apply h2.2
      rcases hm.2 with h | ⟨ph, h⟩ <;> simp [h, wrHolds]
    rcases hm.2 with h | ⟨ph, h⟩ <;> simp [at_, queueAt, h, hl]
  | queuePtr =>
    obtain ⟨hk, ha, hb, hc, hd⟩ := hm
    refine sane_acc keep (fun h => by rw [hk] at h; cases h) (fun _ => ⟨.writer, ?_⟩)
    have hw : wrPlace s = .inl .writer := by cases hw : s.wr <;> simp_all [wrPlace]
    exact ⟨hw.symm, fun p hp => hp.trans hw⟩
  | errorText =>
    apply obeys_owned keep
    intro k' p
    have : s.wr = .failing := hm
    simp [at_, wrPlace, this]
  | file =>
    apply obeys_owned keep
    obtain ⟨ph, hw⟩ := hm
    have hne : ¬ (s.error = true ∨ s.closer = .writer) := fun h => by simpa [hw, wrFailed] using h5 h
    intro k' p
    simp only [at_, fileAt]
    have hf : s.main ≠ .failed := by
      intro hf
      exact hne (hfa hf)
    rw [if_neg (by simp [hf, hw])]
    push_neg at hne
    simp [wrPlace, hw, hne.1, hne.2]

theorem owns_queue_main {s : St} (hl : s.lock = some .main) (hw : wrLive s.wr) : Owns s .main .queue := by
  intro k p
  simp only [at_, queueAt]
  obtain ⟨h1, h2⟩ := hw
  cases hw : s.wr <;> simp_all

theorem owns_queue_writer {s : St} (hl : s.lock = some .writer) (hw : wrLive s.wr) : Owns s .writer .queue := by
  intro k p
  simp only [at_, queueAt]
  obtain ⟨h1, h2⟩ := hw
  cases hw : s.wr <;> simp_all

/-- **Every step obeys the token discipline.** -/
theorem obeys_step {n : Nat → Nat} {g : Nat} {s s' : St} {e : Option Evt} (hI : Inv n s) (h : Step n g s e s') (hg : ¬ bad s'.main) :
    Obeys (at_ s) (at_ s') e := by
  have hI' := hI
  obtain ⟨h0, h1, h2, h3, hla, h4, h5, h6, h7, h8, h9, h10, h11, h12, hfa, h13⟩ := hI'
  have hst := h
  cases h
  case mainAcc hm => exact obeys_main hI hm
  case taskAcc ph i w k l ht hm =>
    refine obeys_taskAcc ht hm ?_
    have hpend : Pending n s.main ph i := by
      by_contra hc
      rcases h8 ph i hc with h | h <;> (rw [ht] at h; cases h)
    by_contra hc
    have := (h9 ph hc).2
    cases hmm : s.main <;> simp [hmm, Pending, sent] at hpend this <;> omega
  case wAcc hm => exact obeys_writer hI hm
  case push ph hm hf hc =>
    have hl : s.lock = some .main := h1.2 (by simp [hm, mainHolds])
    have hw : wrLive s.wr := by simpa [hm, wrFits] using h4
    refine obeys_owned ?_ (owns_queue_main hl hw)
    have hmine : s.group ph = .mine := by
      by_contra hc'
      have := (h9 ph hc').2
      simp [hm, sent] at this
    intro l k p hp
    cases l with
    | dst q i =>
      simp only [at_, St.setGroup] at hp ⊢
      by_cases hq : q = ph
      · subst hq
        rw [hmine]
        simp only [if_true, lockPlace, hl] at hp
        rw [hp]
        exact (settled_place (h8 q i (by simp [hm, Pending]))).symm
      · simp only [if_neg hq] at hp
        exact hp
    | file => simpa [at_, fileAt, hm, St.setGroup, wrPlace] using hp
    | _ => cases k <;> exact hp
  case close hm =>
    have hl : s.lock = some .main := h1.2 (by simp [hm, mainHolds])
    have hw : wrLive s.wr := by simpa [hm, wrFits] using h4
    refine obeys_owned ?_ (owns_queue_main hl hw)
    intro l k p hp
    cases l with
    | file =>
      simp only [at_, fileAt, hm, wrPlace] at hp ⊢
      revert hp
      by_cases hc : s.closer = .writer <;> simp [hc]
    | _ => cases k <;> exact hp
  case wPop ph rest hm hi =>
    have hl : s.lock = some .writer := h2.2 (by simp [hm, wrHolds])
    have hw : wrLive s.wr := by simp [hm, wrLive]
    refine obeys_owned ?_ (owns_queue_writer hl hw)
    have hq : s.group ph = .queued := h12 ph (by simp [hi])
    intro l k p hp
    cases l with
    | dst q i =>
      simp only [at_, St.setGroup] at hp ⊢
      by_cases hqq : q = ph
      · subst hqq
        rw [hq]
        simp only [if_true, wrPlace] at hp
        simp [lockPlace, hl, hp]
      · simp only [if_neg hqq] at hp
        simpa [wrPlace, hm, lockPlace, taskPlace] using hp
    | file => simpa [at_, fileAt, hm, St.setGroup, wrPlace] using hp
    | queue => simpa [at_, queueAt, hm, St.setGroup, wrPlace] using hp
    | errorText => simpa [at_, hm, wrPlace] using hp
    | queuePtr => cases k <;> simpa [at_, hm, wrPlace] using hp
    | _ => cases k <;> exact hp
  case wFailClose hm =>
    have hl : s.lock = some .writer := h2.2 (by simp [hm, wrHolds])
    have hw : wrLive s.wr := by simp [hm, wrLive]
    refine obeys_owned ?_ (owns_queue_writer hl hw)
    intro l k p hp
    cases l with
    | dst q i => simpa [at_, hm, wrPlace, taskPlace, lockPlace] using hp
    | file =>
      simp only [at_, fileAt, hm, wrPlace, hl] at hp ⊢
      revert hp
      simp
    | queue => simpa [at_, queueAt, hm, wrPlace] using hp
    | errorText => simpa [at_, hm, wrPlace] using hp
    | queuePtr => cases k <;> simpa [at_, hm, wrPlace] using hp
    | _ => cases k <;> exact hp
  all_goals exact obeys_quiet hI hst hg trivial


end Vroom.Conc
