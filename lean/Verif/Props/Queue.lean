import Verif.Model.Queue
import Mathlib.Data.List.Basic
namespace Vroom

/-! Specification: what the observable results say. -/

/-- Items whose `push` returned true, in order. -/
def pushesOf {α} : List (QEvent α) → List α
  | [] => []
  | .accepted x :: t => x :: pushesOf t
  | _ :: t => pushesOf t

/-- Items returned by `pop`, in order. -/
def popsOf {α} : List (QEvent α) → List α
  | [] => []
  | .popped x :: t => x :: popsOf t
  | _ :: t => popsOf t

theorem pushesOf_append {α} (a b : List (QEvent α)) : pushesOf (a ++ b) = pushesOf a ++ pushesOf b := by
  induction a with
  | nil => rfl
  | cons e t ih => cases e <;> simp [pushesOf, ih]

theorem popsOf_append {α} (a b : List (QEvent α)) : popsOf (a ++ b) = popsOf a ++ popsOf b := by
  induction a with
  | nil => rfl
  | cons e t ih => cases e <;> simp [popsOf, ih]

/-- **C36** Under every interleaving of any number of threads: what has been popped, followed by what
is still queued, is exactly what was accepted, in order (so: exactly once, in push order). -/
theorem C36_fifo {α} {cap n : Nat} {log : List (QEvent α)} {s} (h : QRun cap n log s) :
    popsOf log ++ s.q.items = pushesOf log := by
  induction h with
  | start => rfl
  | step _ hs ih =>
    rw [popsOf_append, pushesOf_append, ← ih]
    cases hs <;> simp [popsOf, pushesOf, RgQueue.enqueue]

/-- **C36** The items popped so far are a prefix of the items accepted so far. -/
theorem C36_prefix {α} {cap n : Nat} {log : List (QEvent α)} {s} (h : QRun cap n log s) :
    popsOf log <+: pushesOf log := ⟨_, C36_fifo h⟩

theorem qrun_closed {α} {cap n : Nat} {log : List (QEvent α)} {s} (h : QRun cap n log s) :
    s.q.closed = true ↔ QEvent.closed ∈ log := by
  induction h with
  | start => simp
  | step _ hs ih => cases hs <;> simp_all [RgQueue.enqueue]

/-- **C36** `pop` reports "no more row groups" only after `close`, and when everything accepted has
been delivered: afterwards nothing can be left over. -/
theorem C36_exhausted {α} {cap n : Nat} {log : List (QEvent α)} {s} (h : QRun cap n log s)
    (he : QEvent.exhausted ∈ log) : QEvent.closed ∈ log ∧ popsOf log = pushesOf log := by
  have key : s.q.closed = true ∧ s.q.items = [] := by
    induction h with
    | start => simp at he
    | step hrun hs ih =>
      cases hs with
      | popNone q ts i h hr hem =>
        simp [RgQueue.popReady, hem] at hr
        exact ⟨hr, hem⟩
      | pushAccept q ts ts' i x h hr hc hn =>
        simp at he
        have := (ih he).1; dsimp only at this; rw [this] at hc; exact absurd hc (by simp)
      | popSome c ts ts' i x rest h hn =>
        simp at he
        have := (ih he).2; exact absurd this (by simp)
      | close => simp at he; exact ⟨rfl, (ih he).2⟩
      | _ => simp at he; exact ih he
  refine ⟨(qrun_closed h).1 key.1, ?_⟩
  have := C36_fifo h
  rwa [key.2, List.append_nil] at this

/-- **C36** After `close` no push is accepted. -/
theorem C36_refused_after_close {α} {cap n : Nat} {log : List (QEvent α)} {s e s'} (h : QRun cap n log s)
    (hc : QEvent.closed ∈ log) (hs : QStep cap s (some e) s') : ∀ x, e ≠ .accepted x := by
  rintro x rfl
  have hcl := (qrun_closed h).2 hc
  cases hs with
  | pushAccept q ts ts' i x h hr hc hn => simp at hcl; simp [hcl] at hc

/-- **C37** The queue never holds more than its capacity. -/
theorem C37_bounded {α} {cap n : Nat} {log : List (QEvent α)} {s} (h : QRun cap n log s) :
    s.q.items.length ≤ cap := by
  induction h with
  | start => simp
  | step _ hs ih =>
    cases hs <;> simp_all [RgQueue.enqueue, RgQueue.pushReady] <;> omega

/-- **C37** …hence at most `cap` accepted items are not yet popped. -/
theorem C37_in_flight {α} {cap n : Nat} {log : List (QEvent α)} {s} (h : QRun cap n log s) :
    (pushesOf log).length ≤ (popsOf log).length + cap := by
  rw [← C36_fifo h]; have := C37_bounded h; simp; exact this

theorem countP_set' {α} (p : α → Bool) (l : List α) (i : Nat) (old a : α) (h : l[i]? = some old) :
    (l.set i a).countP p + (p old).toNat = l.countP p + (p a).toNat := by
  obtain ⟨hi, rfl⟩ := List.getElem?_eq_some_iff.1 h
  rw [List.countP_set hi]
  have : p l[i] = true → 0 < l.countP p := fun hp => List.countP_pos_iff.2 ⟨_, List.getElem_mem hi, hp⟩
  cases h1 : p l[i] <;> cases h2 : p a <;> simp <;> have := this h1 <;> omega

theorem notify_pop {α} {ts ts' : List (QPC α)} (h : NotifyOne QPC.isWaitPop ts ts') :
    ts'.countP QPC.isWaitPush = ts.countP QPC.isWaitPush ∧ ts'.countP QPC.isWantPush = ts.countP QPC.isWantPush ∧
    ((ts.countP QPC.isWaitPop = 0 ∧ ts' = ts) ∨
      (ts'.countP QPC.isWaitPop + 1 = ts.countP QPC.isWaitPop ∧ ts'.countP QPC.isWantPop = ts.countP QPC.isWantPop + 1)) := by
  cases h with
  | none h => exact ⟨rfl, rfl, Or.inl ⟨List.countP_eq_zero.2 (fun a ha => by simp [h a ha]), rfl⟩⟩
  | one w t ht hp =>
    have e1 := countP_set' QPC.isWaitPush ts w t t.wake ht
    have e2 := countP_set' QPC.isWantPush ts w t t.wake ht
    have e3 := countP_set' QPC.isWaitPop ts w t t.wake ht
    have e4 := countP_set' QPC.isWantPop ts w t t.wake ht
    cases t <;> simp_all [QPC.isWaitPush, QPC.isWaitPop, QPC.isWantPush, QPC.isWantPop, QPC.wake]

theorem notify_push {α} {ts ts' : List (QPC α)} (h : NotifyOne QPC.isWaitPush ts ts') :
    ts'.countP QPC.isWaitPop = ts.countP QPC.isWaitPop ∧ ts'.countP QPC.isWantPop = ts.countP QPC.isWantPop ∧
    ((ts.countP QPC.isWaitPush = 0 ∧ ts' = ts) ∨
      (ts'.countP QPC.isWaitPush + 1 = ts.countP QPC.isWaitPush ∧ ts'.countP QPC.isWantPush = ts.countP QPC.isWantPush + 1)) := by
  cases h with
  | none h => exact ⟨rfl, rfl, Or.inl ⟨List.countP_eq_zero.2 (fun a ha => by simp [h a ha]), rfl⟩⟩
  | one w t ht hp =>
    have e1 := countP_set' QPC.isWaitPush ts w t t.wake ht
    have e2 := countP_set' QPC.isWantPush ts w t t.wake ht
    have e3 := countP_set' QPC.isWaitPop ts w t t.wake ht
    have e4 := countP_set' QPC.isWantPop ts w t t.wake ht
    cases t <;> simp_all [QPC.isWaitPush, QPC.isWaitPop, QPC.isWantPush, QPC.isWantPop, QPC.wake]

/-- No-lost-wake-up invariant. -/
def QInv {α} (cap : Nat) (s : QState α) : Prop :=
  (s.threads.countP QPC.isWaitPop = 0 ∨ s.q.items.length ≤ s.threads.countP QPC.isWantPop) ∧
  (s.threads.countP QPC.isWaitPush = 0 ∨ cap ≤ s.q.items.length + s.threads.countP QPC.isWantPush) ∧
  (s.q.closed = true → s.threads.countP QPC.isWaitPop = 0 ∧ s.threads.countP QPC.isWaitPush = 0)

theorem wake_not_wait {α} (ts : List (QPC α)) :
    (ts.map QPC.wake).countP QPC.isWaitPop = 0 ∧ (ts.map QPC.wake).countP QPC.isWaitPush = 0 := by
  constructor <;> rw [List.countP_eq_zero] <;> intro a ha <;> obtain ⟨b, -, rfl⟩ := List.mem_map.1 ha <;>
    cases b <;> simp [QPC.wake, QPC.isWaitPop, QPC.isWaitPush]

theorem qinv {α} {cap n : Nat} {log : List (QEvent α)} {s} (h : QRun cap n log s) : QInv cap s := by
  induction h with
  | start =>
    refine ⟨Or.inl ?_, Or.inl ?_, fun hc => by simp at hc⟩ <;> rw [List.countP_eq_zero] <;>
      intro a ha <;> have := List.eq_of_mem_replicate ha <;> subst this <;> simp [QPC.isWaitPop, QPC.isWaitPush]
  | step _ hs ih =>
    obtain ⟨i1, i2, i3⟩ := ih
    have cs := fun (ts : List (QPC α)) (i : Nat) (old a : QPC α) (h : ts[i]? = some old) =>
      And.intro (countP_set' QPC.isWaitPop ts i old a h) (And.intro (countP_set' QPC.isWantPop ts i old a h)
        (And.intro (countP_set' QPC.isWaitPush ts i old a h) (countP_set' QPC.isWantPush ts i old a h)))
    cases hs with
    | callPush q ts i x h =>
      have := cs ts i _ (.wantPush x) h
      simp [QPC.isWaitPush, QPC.isWaitPop, QPC.isWantPush, QPC.isWantPop] at this
      simp only [QInv] at *
      refine ⟨by omega, by omega, fun hc => by have := i3 hc; omega⟩
    | callPop q ts i h =>
      have := cs ts i _ (.wantPop) h
      simp [QPC.isWaitPush, QPC.isWaitPop, QPC.isWantPush, QPC.isWantPop] at this
      simp only [QInv] at *
      refine ⟨by omega, by omega, fun hc => by have := i3 hc; omega⟩
    | close q ts i h =>
      have := wake_not_wait ts
      exact ⟨Or.inl this.1, Or.inl this.2, fun _ => this⟩
    | pushBlock q ts i x h hr =>
      have := cs ts i _ (.waitPush x) h
      simp [QPC.isWaitPush, QPC.isWaitPop, QPC.isWantPush, QPC.isWantPop] at this
      simp [RgQueue.pushReady] at hr
      simp only [QInv] at *
      refine ⟨by omega, by omega, fun hc => by simp [hc] at hr⟩
    | pushRefuse q ts i x h hr hcl =>
      have := cs ts i _ .idle h
      simp [QPC.isWaitPush, QPC.isWaitPop, QPC.isWantPush, QPC.isWantPop] at this
      have := i3 hcl
      simp only [QInv] at *
      refine ⟨by omega, by omega, fun hc => by omega⟩
    | pushAccept q ts ts' i x h hr hcl hn =>
      have := cs ts i _ .idle h
      simp [QPC.isWaitPush, QPC.isWaitPop, QPC.isWantPush, QPC.isWantPop] at this
      have hnn := notify_pop hn
      simp only [QInv, RgQueue.enqueue] at *
      simp only [List.length_append, List.length_singleton]
      rcases hnn with ⟨n1, n2, ⟨n3, rfl⟩ | ⟨n3, n4⟩⟩
      · refine ⟨by omega, by omega, fun hc => by simp [hc] at hcl⟩
      · refine ⟨by omega, by omega, fun hc => by simp [hc] at hcl⟩
    | popBlock q ts i h hr =>
      have := cs ts i _ .waitPop h
      simp [QPC.isWaitPush, QPC.isWaitPop, QPC.isWantPush, QPC.isWantPop] at this
      simp [RgQueue.popReady] at hr
      simp only [QInv] at *
      simp only [hr.1, List.length_nil] at *
      refine ⟨by omega, by omega, fun hc => by simp [hc] at hr⟩
    | popNone q ts i h hr he =>
      have := cs ts i _ .idle h
      simp [QPC.isWaitPush, QPC.isWaitPop, QPC.isWantPush, QPC.isWantPop] at this
      simp [RgQueue.popReady, he] at hr
      have := i3 hr
      simp only [QInv] at *
      refine ⟨by omega, by omega, fun hc => by omega⟩
    | popSome c ts ts' i x rest h hn =>
      have := cs ts i _ .idle h
      simp [QPC.isWaitPush, QPC.isWaitPop, QPC.isWantPush, QPC.isWantPop] at this
      have hnn := notify_push hn
      simp only [QInv, List.length_cons] at *
      rcases hnn with ⟨n1, n2, ⟨n3, rfl⟩ | ⟨n3, n4⟩⟩
      · refine ⟨by omega, by omega, fun hc => by have := i3 hc; omega⟩
      · refine ⟨by omega, by omega, fun hc => by have := i3 hc; omega⟩
    | spurious q ts i t h =>
      have := cs ts i _ t.wake h
      simp only [QInv] at *
      cases t <;> simp only [QPC.isWaitPush, QPC.isWaitPop, QPC.isWantPush, QPC.isWantPop, QPC.wake,
          Bool.toNat_false, Bool.toNat_true] at this ⊢ <;>
        refine ⟨by omega, by omega, fun hc => by have := i3 hc; omega⟩

/-- **C38** No lost wake-up, for any number of producers and consumers: if no thread is about to run
inside the queue (every thread is outside it or blocked in a wait), then blocked consumers imply an
empty open queue, blocked producers imply a full open queue; so after `close` nobody is blocked. -/
theorem C38_no_lost_wakeup {α} {cap n : Nat} {log : List (QEvent α)} {s} (h : QRun cap n log s)
    (hquiet : ∀ t ∈ s.threads, t.isWantPush = false ∧ t.isWantPop = false) :
    ((∃ t ∈ s.threads, t.isWaitPop = true) → s.q.items = [] ∧ s.q.closed = false) ∧
    ((∃ t ∈ s.threads, t.isWaitPush = true) → cap ≤ s.q.items.length ∧ s.q.closed = false) := by
  obtain ⟨i1, i2, i3⟩ := qinv h
  have z1 : s.threads.countP QPC.isWantPop = 0 := List.countP_eq_zero.2 (fun a ha => by simp [hquiet a ha])
  have z2 : s.threads.countP QPC.isWantPush = 0 := List.countP_eq_zero.2 (fun a ha => by simp [hquiet a ha])
  constructor
  · rintro hw
    have hp := List.countP_pos_iff.2 hw
    refine ⟨List.length_eq_zero_iff.1 (by omega), ?_⟩
    cases hc : s.q.closed
    · rfl
    · have := i3 hc; omega
  · rintro hw
    have hp := List.countP_pos_iff.2 hw
    refine ⟨by omega, ?_⟩
    cases hc : s.q.closed
    · rfl
    · have := i3 hc; omega

/-- **C38** With capacity at least one, producers and consumers are never all blocked together. -/
theorem C38_not_both_blocked {α} {cap n : Nat} (hcap : 1 ≤ cap) {log : List (QEvent α)} {s} (h : QRun cap n log s)
    (hquiet : ∀ t ∈ s.threads, t.isWantPush = false ∧ t.isWantPop = false) :
    ¬ ((∃ t ∈ s.threads, t.isWaitPop = true) ∧ (∃ t ∈ s.threads, t.isWaitPush = true)) := by
  rintro ⟨h1, h2⟩
  have a := (C38_no_lost_wakeup h hquiet).1 h1
  have b := (C38_no_lost_wakeup h hquiet).2 h2
  simp [a.1] at b; omega

/-- A thread about to run inside the queue always can (its critical section is enabled). -/
theorem C38_enabled {α} (cap : Nat) (s : QState α) (i : Nat) (t : QPC α) (h : s.threads[i]? = some t)
    (hw : t.isWantPush = true ∨ t.isWantPop = true) : ∃ e s', QStep cap s e s' := by
  obtain ⟨q, ts⟩ := s
  have nexist : ∀ (p : QPC α → Bool) (l : List (QPC α)), ∃ l', NotifyOne p l l' := by
    intro p l
    by_cases hx : ∃ t ∈ l, p t = true
    · obtain ⟨t, ht, hp⟩ := hx
      obtain ⟨w, hw⟩ := List.getElem?_of_mem ht
      exact ⟨_, .one l w t hw hp⟩
    · refine ⟨_, .none l ?_⟩
      intro t ht
      cases hp : p t
      · rfl
      · exact absurd ⟨t, ht, hp⟩ hx
  cases t with
  | wantPush x =>
    cases hr : q.pushReady cap
    · exact ⟨_, _, .pushBlock q ts i x h hr⟩
    · cases hc : q.closed
      · obtain ⟨ts', hn⟩ := nexist QPC.isWaitPop (ts.set i .idle)
        exact ⟨_, _, .pushAccept q ts ts' i x h hr hc hn⟩
      · exact ⟨_, _, .pushRefuse q ts i x h hr hc⟩
  | wantPop =>
    obtain ⟨items, c⟩ := q
    cases items with
    | nil =>
      cases hr : RgQueue.popReady ⟨([] : List α), c⟩
      · exact ⟨_, _, .popBlock _ ts i h hr⟩
      · exact ⟨_, _, .popNone _ ts i h hr rfl⟩
    | cons x rest =>
      obtain ⟨ts', hn⟩ := nexist QPC.isWaitPush (ts.set i .idle)
      exact ⟨_, _, .popSome c ts ts' i x rest h hn⟩
  | idle => simp [QPC.isWantPush, QPC.isWantPop] at hw
  | waitPush x => simp [QPC.isWantPush, QPC.isWantPop] at hw
  | waitPop => simp [QPC.isWantPush, QPC.isWantPop] at hw

/-- A concrete run: capacity 1, a producer that blocks, a consumer that drains, then close. -/
example : ∃ s, QRun (α := Nat) 1 2 [.accepted 7, .popped 7, .accepted 8, .closed, .popped 8, .exhausted] s := by
  have h0 : QRun (α := Nat) 1 2 [] _ := .start
  have h1 := h0.step (.callPush _ _ 0 7 rfl)
  have h2 := h1.step (.pushAccept _ _ _ 0 7 rfl rfl rfl (.none _ (by decide)))
  have h3 := h2.step (.callPush _ _ 0 8 rfl)
  have h4 := h3.step (.pushBlock _ _ 0 8 rfl rfl)
  have h5 := h4.step (.callPop _ _ 1 rfl)
  have h6 := h5.step (.popSome _ _ _ 1 7 [] rfl (.one _ 0 (.waitPush 8) rfl rfl))
  have h7 := h6.step (.pushAccept _ _ _ 0 8 rfl rfl rfl (.none _ (by decide)))
  have h8 := h7.step (.close _ _ 0 rfl)
  have h9 := h8.step (.callPop _ _ 1 rfl)
  have h10 := h9.step (.popSome _ _ _ 1 8 [] rfl (.none _ (by decide)))
  have h11 := h10.step (.callPop _ _ 1 rfl)
  have h12 := h11.step (.popNone _ _ 1 rfl rfl rfl)
  exact ⟨_, h12⟩

/-! ### The pipeline -/

/-- Row group in the writer's hands. -/
def ConsPC.current {α} : ConsPC α → List α | .writing x => [x] | _ => []
/-- Row groups not yet accepted by the queue. -/
def ProdPC.pending {α} : ProdPC α → List α
  | .submit todo => todo | .wantPush x todo => x :: todo | .waitPush x todo => x :: todo | _ => []

/-- What holds of the converting thread in each of its states. -/
def ProdOk {α} (cap : Nat) (q : RgQueue α) (err : Bool) (exited : Prop) : ProdPC α → Prop
  | .submit _ => q.closed = true → err = true
  | .wantPush _ _ => q.closed = true → err = true
  | .waitPush _ _ => cap ≤ q.items.length ∧ q.closed = false
  | .joining => q.closed = true
  | .finished b => q.closed = true ∧ b = !err ∧ exited
  | .submitFailed => err = true

/-- What holds of the writer thread in each of its states. -/
def ConsOk {α} (q : RgQueue α) (err : Bool) : ConsPC α → Prop
  | .wantPop => err = false
  | .waitPop => err = false ∧ q.items = [] ∧ q.closed = false
  | .writing _ => err = false
  | .errorSet => err = true
  | .exited => q.closed = true ∧ (err = false → q.items = [])

structure PipeInv {α} (cap : Nat) (todo : List α) (s : PipeState α) : Prop where
  prod : ProdOk cap s.q s.error (s.cons = .exited) s.prod
  cons : ConsOk s.q s.error s.cons
  account : s.error = false → s.written ++ s.cons.current ++ s.q.items ++ s.prod.pending = todo
  strict : s.error = true → ∃ x l, s.written ++ x :: l = todo
  bound : s.q.items.length ≤ cap

theorem consOk_wake {α} {q q' : RgQueue α} {err} {c : ConsPC α} (h : ConsOk q err c) (hne : c ≠ .exited) :
    ConsOk q' err c.wake := by
  cases c <;> simp_all [ConsOk, ConsPC.wake]

theorem current_wake {α} (c : ConsPC α) : c.wake.current = c.current := by cases c <;> rfl
theorem pending_wake {α} (p : ProdPC α) : p.wake.pending = p.pending := by cases p <;> rfl
theorem wake_exited {α} (c : ConsPC α) : c.wake = .exited ↔ c = .exited := by cases c <;> simp [ConsPC.wake]

theorem pipeInv {α} {cap : Nat} {todo : List α} {n k s} (h : PipeRun cap todo n k s) : PipeInv cap todo s := by
  induction h with
  | start => constructor <;> simp [PipeState.start, ConsPC.current, ProdPC.pending, ProdOk, ConsOk]
  | step _ hs ih =>
    obtain ⟨a1, a2, a3, a4, a5⟩ := ih
    cases hs with
    | submitErr q c w x todo => exact ⟨rfl, a2, nofun, a4, a5⟩
    | submit q c w x todo => exact ⟨a1, a2, a3, a4, a5⟩
    | pushBlock q c w e x todo hr =>
      simp [RgQueue.pushReady] at hr
      exact ⟨hr, a2, a3, a4, a5⟩
    | pushRefuse q c w e x todo hr hc =>
      have : e = true := a1 hc
      subst this
      exact ⟨rfl, a2, nofun, a4, a5⟩
    | pushAccept q c w e x todo hr hc =>
      simp [RgQueue.pushReady, hc] at hr
      have hne : c ≠ .exited := by rintro rfl; simp [ConsOk, hc] at a2
      refine ⟨by simp [ProdOk, RgQueue.enqueue, hc], consOk_wake a2 hne, ?_, a4, by simp [RgQueue.enqueue]; omega⟩
      intro he
      have := a3 he
      simp only [current_wake, ProdPC.pending, RgQueue.enqueue] at *
      simpa using this
    | finish q c w e =>
      refine ⟨by simp [ProdOk], ?_, ?_, a4, a5⟩
      · cases c <;> simp_all [ConsOk, ConsPC.wake]
      · intro he; have := a3 he; simp only [current_wake, ProdPC.pending] at *; exact this
    | join q w e => exact ⟨⟨a1, rfl, rfl⟩, a2, a3, a4, a5⟩
    | popBlock q p w e hr =>
      simp [RgQueue.popReady] at hr
      refine ⟨?_, ⟨a2, hr⟩, a3, a4, a5⟩
      cases p <;> simp_all [ProdOk]
    | popNone q p w e hr hem =>
      simp [RgQueue.popReady, hem] at hr
      refine ⟨?_, ⟨hr, fun _ => hem⟩, a3, a4, a5⟩
      cases p <;> simp_all [ProdOk]
    | popSome cl p w e x rest =>
      refine ⟨?_, a2, ?_, a4, Nat.le_of_succ_le a5⟩
      · cases p <;> simp_all [ProdOk, ProdPC.wake]
      · intro he; have := a3 he
        simp only [pending_wake, ConsPC.current] at *
        simpa using this
    | writeOk q p w e x =>
      refine ⟨?_, a2, ?_, ?_, a5⟩
      · cases p <;> simp_all [ProdOk]
      · intro he; have := a3 he
        simp only [ConsPC.current] at *
        simpa using this
      · intro he; simp [ConsOk] at a2; simp [a2] at he
    | writeThrows q p w e x =>
      refine ⟨?_, rfl, nofun, ?_, a5⟩
      · cases p <;> simp_all [ProdOk]
      · intro _
        have he : e = false := a2
        have := a3 he
        simp only [ConsPC.current] at this
        exact ⟨x, q.items ++ p.pending, by rw [← this]; simp⟩
    | errClose q p w e =>
      simp [ConsOk] at a2
      subst a2
      refine ⟨?_, ⟨rfl, nofun⟩, nofun, a4, a5⟩
      cases p <;> simp_all [ProdOk, ProdPC.wake]
    | spuriousP q p c w e =>
      refine ⟨?_, a2, ?_, a4, a5⟩
      · cases p <;> simp_all [ProdOk, ProdPC.wake]
      · intro he; rw [← a3 he]; simp [pending_wake]
    | spuriousC q p c w e =>
      refine ⟨?_, ?_, ?_, a4, a5⟩
      · simp only [wake_exited]; exact a1
      · cases c <;> simp_all [ConsOk, ConsPC.wake]
      · intro he; rw [← a3 he]; simp [current_wake]

/-- **C38** The pipeline cannot deadlock: in every reachable state in which the converter has not
got its answer, a real step (not a spurious wake-up) of one of the threads is enabled. -/
theorem C38_progress {α} {cap : Nat} (hcap : 1 ≤ cap) {todo : List α} {n k s} (h : PipeRun cap todo n k s)
    (hnot : s.prod ≠ .submitFailed ∧ ∀ b, s.prod ≠ .finished b) : ∃ s', PipeStep cap true s s' := by
  obtain ⟨a1, a2, -, -, -⟩ := pipeInv h
  obtain ⟨q, p, c, w, e⟩ := s
  obtain ⟨items, cl⟩ := q
  cases p with
  | submit l =>
    cases l with
    | nil => exact ⟨_, .finish _ _ _ _⟩
    | cons x l => cases e; exacts [⟨_, .submit _ _ _ _ _⟩, ⟨_, .submitErr _ _ _ _ _⟩]
  | wantPush x l =>
    cases hr : RgQueue.pushReady cap ⟨items, cl⟩
    · exact ⟨_, .pushBlock _ _ _ _ _ _ hr⟩
    · cases cl
      · exact ⟨_, .pushAccept _ _ _ _ _ _ hr rfl⟩
      · exact ⟨_, .pushRefuse _ _ _ _ _ _ hr rfl⟩
  | finished b => exact absurd rfl (hnot.2 b)
  | submitFailed => exact absurd rfl hnot.1
  | waitPush x l =>
    simp [ProdOk] at a1
    cases c with
    | wantPop =>
      cases items with
      | nil => simp at a1; omega
      | cons y t => exact ⟨_, .popSome _ _ _ _ _ _⟩
    | waitPop => simp [ConsOk] at a2; simp [a2] at a1; omega
    | writing y => exact ⟨_, .writeOk _ _ _ _ _⟩
    | errorSet => exact ⟨_, .errClose _ _ _ _⟩
    | exited => simp [ConsOk, a1] at a2
  | joining =>
    simp [ProdOk] at a1; subst a1
    cases c with
    | wantPop =>
      cases items with
      | nil => exact ⟨_, .popNone _ _ _ _ rfl rfl⟩
      | cons y t => exact ⟨_, .popSome _ _ _ _ _ _⟩
    | waitPop => simp [ConsOk] at a2
    | writing y => exact ⟨_, .writeOk _ _ _ _ _⟩
    | errorSet => exact ⟨_, .errClose _ _ _ _⟩
    | exited => exact ⟨_, .join _ _ _⟩

/-- Remaining work of the converting thread / writer thread (proof device for termination). -/
def ProdPC.work {α} : ProdPC α → Nat
  | .submit l => 7 * l.length + 3
  | .wantPush _ l => 7 * l.length + 9
  | .waitPush _ l => 7 * l.length + 8
  | .joining => 1
  | _ => 0
def ConsPC.work {α} : ConsPC α → Nat
  | .wantPop => 1 | .waitPop => 0 | .writing _ => 3 | .errorSet => 2 | .exited => 0

theorem prod_work_wake {α} (p : ProdPC α) : p.wake.work ≤ p.work + 1 ∧ p.work ≤ p.wake.work := by
  cases p <;> simp [ProdPC.wake, ProdPC.work]
theorem cons_work_wake {α} (c : ConsPC α) : c.wake.work ≤ c.work + 1 ∧ c.work ≤ c.wake.work := by
  cases c <;> simp [ConsPC.wake, ConsPC.work]

/-- **C38** The pipeline terminates: under every schedule, the number of steps that are not spurious
wake-ups is at most linear in the number of row groups plus the number of spurious wake-ups. -/
theorem C38_terminates {α} {cap : Nat} {todo : List α} {n k s} (h : PipeRun cap todo n k s) :
    n ≤ 7 * todo.length + 4 + k := by
  suffices n + s.prod.work + s.cons.work + 4 * s.q.items.length ≤ 7 * todo.length + 4 + k by omega
  induction h with
  | start => simp [PipeState.start, ProdPC.work, ConsPC.work]
  | step _ hs ih =>
    cases hs with
    | spuriousP q p c w e =>
      have := prod_work_wake p; simp only [Bool.toNat_false, Bool.not_false, Bool.toNat_true] at *; omega
    | spuriousC q p c w e =>
      have := cons_work_wake c; simp only [Bool.toNat_false, Bool.not_false, Bool.toNat_true] at *; omega
    | pushAccept q c w e x todo hr hc =>
      have := cons_work_wake c
      simp only [Bool.toNat_true, Bool.not_true, Bool.toNat_false, ProdPC.work, RgQueue.enqueue, List.length_append, List.length_singleton] at *
      omega
    | finish q c w e =>
      have := cons_work_wake c
      simp only [Bool.toNat_true, Bool.not_true, Bool.toNat_false, ProdPC.work, List.length_nil] at *
      omega
    | popSome cl p w e x rest =>
      have := prod_work_wake p
      simp only [Bool.toNat_true, Bool.not_true, Bool.toNat_false, ConsPC.work, List.length_cons] at *
      omega
    | errClose q p w e =>
      have := prod_work_wake p
      simp only [Bool.toNat_true, Bool.not_true, Bool.toNat_false, ConsPC.work] at *
      omega
    | _ =>
      simp only [Bool.toNat_true, Bool.not_true, Bool.toNat_false, ConsPC.work, ProdPC.work, List.length_cons] at *
      omega

/-- **C38** A successful finish means every row group was written, in order. -/
theorem C38_success_complete {α} {cap : Nat} {todo : List α} {n k s} (h : PipeRun cap todo n k s)
    (hf : s.prod = .finished true) : s.written = todo ∧ s.cons = .exited := by
  obtain ⟨a1, a2, a3, -, -⟩ := pipeInv h
  rw [hf] at a1
  have he : s.error = false := by simpa using a1.2.1.symm
  have hc := a1.2.2
  have a3' := a3 he
  rw [hc] at a2 a3'
  rw [hf, a2.2 he] at a3'
  simpa [ConsPC.current, ProdPC.pending] using And.intro a3' hc

/-- **C38** An unsuccessful end (either way) means a write failed and only a strict prefix was written. -/
theorem C38_failure_prefix {α} {cap : Nat} {todo : List α} {n k s} (h : PipeRun cap todo n k s)
    (hf : s.prod = .finished false ∨ s.prod = .submitFailed) :
    s.error = true ∧ ∃ x l, s.written ++ x :: l = todo := by
  obtain ⟨a1, -, -, a4, -⟩ := pipeInv h
  have he : s.error = true := by
    rcases hf with hf | hf <;> rw [hf] at a1
    · simpa using a1.2.1.symm
    · exact a1
  exact ⟨he, a4 he⟩

/-- **C38** At every moment the written row groups are a prefix of the submitted ones (crash point). -/
theorem C38_written_prefix {α} {cap : Nat} {todo : List α} {n k s} (h : PipeRun cap todo n k s) :
    s.written <+: todo := by
  obtain ⟨-, -, a3, a4, -⟩ := pipeInv h
  cases he : s.error
  · exact ⟨_, by rw [← a3 he, List.append_assoc, List.append_assoc]⟩
  · obtain ⟨x, l, hx⟩ := a4 he; exact ⟨_, hx⟩

/-- Finding: if a write throws, the converter can be told so by `submit_row_group` and then returns
without `finish_pipeline`; at that point the writer thread need not have ended, so destroying the
writer destroys a joinable `std::thread` (C++: `std::terminate`). -/
theorem C38_submit_failure_leaves_thread_running :
    ∃ n k s, PipeRun (α := Nat) 4 [1, 2] n k s ∧ s.prod = .submitFailed ∧ s.cons ≠ .exited := by
  have h0 := PipeRun.start (cap := 4) (todo := [1, 2])
  have h1 := h0.step (.submit _ _ _ 1 [2])
  have h2 := h1.step (.pushAccept _ _ _ _ 1 [2] rfl rfl)
  have h3 := h2.step (.popSome _ _ _ _ 1 [])
  have h4 := h3.step (.writeThrows _ _ _ _ 1)
  have h5 := h4.step (.submitErr _ _ _ 2 [])
  exact ⟨_, _, _, h5, rfl, by simp⟩

/-- A concrete successful run with two row groups. -/
example : ∃ n k s, PipeRun (α := Nat) 1 [1, 2] n k s ∧ s.prod = .finished true ∧ s.written = [1, 2] := by
  have h0 := PipeRun.start (cap := 1) (todo := [1, 2])
  have h1 := h0.step (.submit _ _ _ 1 [2])
  have h2 := h1.step (.pushAccept _ _ _ _ 1 [2] rfl rfl)
  have h3 := h2.step (.submit _ _ _ 2 [])
  have h4 := h3.step (.pushBlock _ _ _ _ 2 [] rfl)
  have h5 := h4.step (.popSome _ _ _ _ 1 [])
  have h6 := h5.step (.pushAccept _ _ _ _ 2 [] rfl rfl)
  have h7 := h6.step (.writeOk _ _ _ _ 1)
  have h8 := h7.step (.finish _ _ _ _)
  have h9 := h8.step (.popSome _ _ _ _ 2 [])
  have h10 := h9.step (.writeOk _ _ _ _ 2)
  have h11 := h10.step (.popNone _ _ _ _ rfl rfl)
  have h12 := h11.step (.join _ _ _)
  exact ⟨_, _, _, h12, rfl, rfl⟩

end Vroom
