import Verif.Model.ReaderLife
import Verif.Props.MemSafe
import Verif.Props.Open
import Mathlib.Tactic.SplitIfs
/-
C81: what a reader reads is there while it reads it, and released afterwards.
-/
namespace Vroom.Spec

/-- What the data pointer of a reader stands for: nothing (no data, size 0), the content of a file, the content of a
buffer, or a file that is no longer mapped. -/
inductive Holds where
  | nothing
  | mapped (content : List UInt8)
  | buffer (content : List UInt8)
  | gone
deriving DecidableEq, Repr

/-- The effect of one call. -/
def Holds.after (h : Holds) : Src.Call → Holds
  | .openFile (.file c) => if c = [] then .nothing else .mapped c
  | .openFile (.cannotMap 0) => .nothing
  | .openFile _ => match h with
    | .mapped _ => .gone
    | h => h
  | .openBuffer (some (c, _)) => .buffer c
  | .openBuffer none => .nothing
  | .readAll => h

/-- The effect of a sequence of calls on a new reader. -/
def held (cs : List Src.Call) : Holds := cs.foldl Holds.after .nothing

/-- What is live in `o` is numbered below `next`. -/
structure Os.Wf (o : Src.Os) : Prop where
  fd : ∀ n, o.next ≤ n → o.fd n = false
  map : ∀ n, o.next ≤ n → o.map n = none
  heap : ∀ n, o.next ≤ n → o.heap n = none

/-- Machine and options fit together. -/
structure Setup.Ok (S : Src.Setup) : Prop where
  infer : S.t.Is S.infer.cpu
  read : S.t.Is S.read.cpu

end Vroom.Spec

namespace Vroom.Src
open Vroom Mem Spec

/-! ### Reading with sizes as they are -/

theorem readAllW_zero (S : Setup) (n : Nat) (m : Bytes) (start : Nat) :
    ∃ res, readAllW S n m 0 start = some res ∧ res.totalRows = 0 ∧ res.rowCount = 0 := by
  have hser : ∃ res, readSerialM S.t S.read n m 0 start = some res ∧ res.totalRows = 0 ∧ res.rowCount = 0 := by
    unfold readSerialM
    by_cases h : n = 0
    · rw [if_pos h]; exact ⟨_, rfl, rfl, rfl⟩
    · rw [if_neg h]
      refine ⟨_, by simp [parseRowsM]; rfl, ?_, ?_⟩ <;> cases n <;> simp_all
  unfold readAllW
  by_cases h : n = 0
  · rw [if_pos h]; exact ⟨_, rfl, rfl, rfl⟩
  · rw [if_neg h]
    split_ifs
    · exact hser
    · simpa [chunkRangesGoM] using hser

theorem readAllW_eq {S : Setup} (hS : Setup.Ok S) (n : Nat) {m : Bytes} {size start : Nat} (hs : size ≤ m.length) (hst : start ≤ size) :
    ∃ res, readAllW S n m size start = some res ∧ readAll' S.read n S.threads (m.take size) start = some res := by
  have hl : (m.take size).length = size := by simp; omega
  have hpos : 0 < calculateChunkSize (size - start) n S.threads := by
    unfold calculateChunkSize minChunkSize maxChunkSize
    dsimp only
    split_ifs <;> omega
  obtain ⟨res, h1, h2⟩ := C80_read_all hS.read n (1024 * 1024) _ hpos hs hst
  refine ⟨res, ?_, ?_⟩
  · unfold readAllM at h1
    unfold readAllW wrapSub
    rw [if_pos hst]
    exact h1
  · unfold readAll'
    rw [hl]
    exact h2

/-! ### The source alone -/

/-- A source among other users of the system (`o0` is the system without it). -/
structure SInv (o0 o : Os) (s : Source) : Prop where
  wf : Os.Wf o
  bad : o.bad = o0.bad
  next : o0.next ≤ o.next
  fdNew : ∀ n, s.fd = some n → o0.next ≤ n
  dataNew : ∀ n, s.data = some n → o0.next ≤ n
  fd : ∀ n, o.fd n = (decide (s.fd = some n) || o0.fd n)
  map : ∀ n, if s.data = some n then (o.map n).map List.length = some s.size else o.map n = o0.map n
  shut : s.fd = none → s.data = none
  pos : ∀ n, s.data = some n → 0 < s.size

theorem close_inv {o0 o : Os} (h0 : Os.Wf o0) {s : Source} (h : SInv o0 o s) :
    SInv o0 (s.close o).1 (s.close o).2 ∧ (s.close o).2 = {} ∧ (s.close o).1.heap = o.heap ∧ (s.close o).1.next = o.next ∧
    (s.close o).1.fd = o0.fd ∧ (s.close o).1.map = o0.map := by
  obtain ⟨wf, bad, next, fdNew, dataNew, fd, map, shut, pos⟩ := h
  obtain ⟨sfd, sdata, ssize⟩ := s
  dsimp only at *
  have hclose : ∀ (o : Os), o.bad = o0.bad → o0.next ≤ o.next → (∀ n, o.fd n = (decide (sfd = some n) || o0.fd n)) →
      ∀ o', (match sfd with | some n => o.closeFd n | none => o) = o' → o'.fd = o0.fd ∧ o'.map = o.map ∧ o'.heap = o.heap ∧ o'.next = o.next ∧ o'.bad = o0.bad := by
    intro o hb hn hf o' ho'
    cases sfd with
    | none =>
      subst ho'
      refine ⟨funext fun n => ?_, rfl, rfl, rfl, hb⟩
      rw [hf n]; simp
    | some k =>
      have hk : o.fd k = true := by rw [hf k]; simp
      dsimp only at ho'
      unfold Os.closeFd at ho'
      rw [if_pos hk] at ho'
      subst ho'
      refine ⟨funext fun n => ?_, rfl, rfl, rfl, hb⟩
      dsimp only [put]
      by_cases h : n = k
      · subst h
        rw [if_pos rfl, h0.fd n (fdNew n rfl)]
      · rw [if_neg h, hf n]
        have : ¬ (some k = some n) := by simpa using fun h' => h h'.symm
        simp [this]
  have key : ∃ o', (Source.close o ⟨sfd, sdata, ssize⟩) = (o', ({} : Source)) ∧ o'.fd = o0.fd ∧ o'.map = o0.map ∧ o'.heap = o.heap ∧ o'.next = o.next ∧ o'.bad = o0.bad := by
    cases sdata with
    | none =>
      obtain ⟨h1, h2, h3, h4, h5⟩ := hclose o bad next fd _ rfl
      refine ⟨_, rfl, h1, h2.trans ?_, h3, h4, h5⟩
      funext n
      simpa using map n
    | some p =>
      have hp := pos p rfl
      have hm := map p
      rw [if_pos rfl] at hm
      have hu : o.unmap p ssize = { o with map := put o.map p none } := by unfold Os.unmap; rw [if_pos hm]
      obtain ⟨h1, h2, h3, h4, h5⟩ := hclose (o.unmap p ssize) (by rw [hu]; exact bad) (by rw [hu]; exact next) (by rw [hu]; exact fd) _ rfl
      refine ⟨_, by simp only [Source.close]; rw [if_pos hp]; rfl, h1, h2.trans ?_, h3.trans (by rw [hu]), h4.trans (by rw [hu]), h5⟩
      · rw [hu]
        funext n
        dsimp only [put]
        by_cases h : n = p
        · subst h; rw [if_pos rfl, h0.map n (dataNew n rfl)]
        · rw [if_neg h]
          have := map n
          rwa [if_neg (by simpa using fun h' => h h'.symm)] at this
  obtain ⟨o', he, h1, h2, h3, h4, h5⟩ := key
  rw [he]
  dsimp only
  refine ⟨⟨⟨?_, ?_, ?_⟩, h5, by omega, by simp, by simp, ?_, ?_, fun _ => rfl, by simp⟩, rfl, h3, h4, h1, h2⟩
  · intro n hn; rw [h1]; exact h0.fd n (by omega)
  · intro n hn; rw [h2]; exact h0.map n (by omega)
  · intro n hn; rw [h3]; exact wf.heap n (by omega)
  · intro n; rw [h1]; simp
  · intro n; rw [h2]; simp

/-- The state of a closed source. -/
theorem closed_inv {o0 o : Os} {s : Source} (h : SInv o0 o s) (hf : s.fd = none) : o.fd = o0.fd ∧ o.map = o0.map ∧ s.data = none := by
  have hd := h.shut hf
  refine ⟨funext fun n => ?_, funext fun n => ?_, hd⟩
  · rw [h.fd n, hf]; simp
  · have := h.map n
    rwa [hd, if_neg (by simp)] at this

/-- What `open` does to a source, by the answer of the system. -/
def Opened (o o' : Os) (s' : Source) (e : Option SrcErr) : FileAnswer → Prop
  | .cannotOpen => e = some .cannotOpen ∧ s'.fd = none
  | .cannotStat => e = some .cannotStat ∧ s'.fd = none
  | .cannotMap n => if n = 0 then e = none ∧ s'.fd.isSome = true ∧ s'.data = none ∧ s'.size = 0 else e = some .cannotMap ∧ s'.fd = none ∧ s'.size = n
  | .file c => e = none ∧ s'.fd.isSome = true ∧ s'.size = c.length ∧ (if c = [] then s'.data = none else ∃ p, s'.data = some p ∧ o'.map p = some c ∧ o.next ≤ p)

theorem openFile_inv {o0 o : Os} (h0 : Os.Wf o0) {s : Source} (h : SInv o0 o s) (a : FileAnswer) :
    ∃ e o' s', s.openFile o a = (e, o', s') ∧ SInv o0 o' s' ∧ o'.heap = o.heap ∧ o.next ≤ o'.next ∧ Opened o o' s' e a := by
  -- the state after the first `close`
  have key : ∃ o1 s1, (if s.fd.isSome then s.close o else (o, s)) = (o1, s1) ∧ SInv o0 o1 s1 ∧ s1.fd = none ∧ o1.heap = o.heap ∧ o1.next = o.next := by
    cases hf : s.fd with
    | none =>
      exact ⟨o, s, rfl, h, hf, rfl, rfl⟩
    | some k =>
      obtain ⟨h1, h2, h3, h4, h5, h6⟩ := close_inv h0 h
      exact ⟨_, _, rfl, h1, congrArg Source.fd h2, h3, h4⟩
  obtain ⟨o1, s1, he, hi, hf, hh, hn⟩ := key
  obtain ⟨c1, c2, c3⟩ := closed_inv hi hf
  have w := hi.wf
  -- closing the descriptor just obtained
  have hcl : ({ o1 with fd := put o1.fd o1.next true, next := o1.next + 1 } : Os).closeFd o1.next =
      { o1 with next := o1.next + 1 } := by
    unfold Os.closeFd
    rw [if_pos (by simp [put])]
    congr 1
    funext n
    dsimp only [put]
    by_cases h : n = o1.next
    · rw [if_pos h, h, w.fd _ (Nat.le_refl _)]
    · rw [if_neg h, if_neg h]
  have hskip : ∀ (sz : Nat), SInv o0 { o1 with next := o1.next + 1 } { s1 with fd := none, size := sz } := by
    intro sz
    have hn' := hi.next
    refine ⟨⟨?_, ?_, ?_⟩, hi.bad, ?_, by simp, ?_, ?_, ?_, fun _ => c3, ?_⟩
    · intro n hn; exact w.fd n (by dsimp only at hn; omega)
    · intro n hn; exact w.map n (by dsimp only at hn; omega)
    · intro n hn; exact w.heap n (by dsimp only at hn; omega)
    · dsimp only; omega
    · intro n h; rw [c3] at h; cases h
    · intro n; dsimp only; rw [c1]; simp
    · intro n; dsimp only; rw [c3, c2]; simp
    · intro n h; rw [c3] at h; cases h
  have hempty : SInv o0 { o1 with fd := put o1.fd o1.next true, next := o1.next + 1 } { s1 with fd := some o1.next, size := 0 } := by
    have hn' := hi.next
    refine ⟨⟨?_, ?_, ?_⟩, hi.bad, ?_, ?_, ?_, ?_, ?_, by simp, ?_⟩
    · intro n hn; dsimp only [put] at hn ⊢; rw [if_neg (by omega)]; exact w.fd n (by omega)
    · intro n hn; exact w.map n (by dsimp only at hn; omega)
    · intro n hn; exact w.heap n (by dsimp only at hn; omega)
    · dsimp only; omega
    · intro n h; dsimp only at h; simp only [Option.some.injEq] at h; omega
    · intro n h; rw [c3] at h; cases h
    · intro n
      dsimp only [put]
      by_cases h : n = o1.next
      · rw [if_pos h]; simp [h]
      · rw [if_neg h, c1]; simp [Ne.symm h]
    · intro n; dsimp only; rw [c3, c2]; simp
    · intro n h; rw [c3] at h; cases h
  unfold Source.openFile
  rw [he]
  cases a with
  | cannotOpen =>
    refine ⟨_, _, _, rfl, ?_, hh, by dsimp only; omega, rfl, rfl⟩
    dsimp only
    refine ⟨w, hi.bad, hi.next, by simp, ?_, ?_, ?_, fun _ => c3, ?_⟩
    · intro n h; rw [c3] at h; cases h
    · intro n; rw [c1]; simp
    · intro n; dsimp only; rw [c3, c2]; simp
    · intro n h; rw [c3] at h; cases h
  | cannotStat =>
    dsimp only
    rw [hcl]
    exact ⟨_, _, _, rfl, hskip s1.size, hh, by dsimp only; omega, rfl, rfl⟩
  | cannotMap size =>
    dsimp only
    by_cases hz : size = 0
    · rw [if_pos hz]
      refine ⟨_, _, _, rfl, hempty, hh, by dsimp only; omega, ?_⟩
      rw [Opened, if_pos hz]
      exact ⟨rfl, rfl, c3, rfl⟩
    · rw [if_neg hz, hcl]
      refine ⟨_, _, _, rfl, hskip size, hh, by dsimp only; omega, ?_⟩
      rw [Opened, if_neg hz]
      exact ⟨rfl, rfl, rfl⟩
  | file c =>
    dsimp only
    by_cases hz : c.length = 0
    · rw [if_pos hz]
      have hc : c = [] := List.length_eq_zero_iff.1 hz
      refine ⟨_, _, _, rfl, hempty, hh, by dsimp only; omega, rfl, rfl, hz.symm, ?_⟩
      rw [if_pos hc]; exact c3
    · rw [if_neg hz]
      have hc : c ≠ [] := fun h => hz (by rw [h]; rfl)
      have hn' := hi.next
      refine ⟨_, _, _, rfl, ?_, hh, by dsimp only; omega, rfl, rfl, rfl, ?_⟩
      · refine ⟨⟨?_, ?_, ?_⟩, hi.bad, ?_, ?_, ?_, ?_, ?_, by simp, ?_⟩
        · intro n hn; dsimp only [put] at hn ⊢; rw [if_neg (by omega)]; exact w.fd n (by omega)
        · intro n hn; dsimp only [put] at hn ⊢; rw [if_neg (by omega)]; exact w.map n (by omega)
        · intro n hn; exact w.heap n (by dsimp only at hn; omega)
        · dsimp only; omega
        · intro n h; dsimp only at h; simp only [Option.some.injEq] at h; omega
        · intro n h; dsimp only at h; simp only [Option.some.injEq] at h; omega
        · intro n
          dsimp only [put]
          by_cases h : n = o1.next
          · rw [if_pos h]; simp [h]
          · rw [if_neg h, c1]; simp [Ne.symm h]
        · intro n
          dsimp only [put]
          by_cases h : n = o1.next + 1
          · rw [if_pos (by rw [h]), if_pos h]; rfl
          · rw [if_neg (by simpa using Ne.symm h), if_neg h, c2]
        · intro n _; dsimp only; omega
      · rw [if_neg hc]
        refine ⟨o1.next + 1, rfl, ?_, by omega⟩
        simp [put]

/-! ### The invariant -/

structure Inv (o0 o : Os) (r : Reader) : Prop where
  src : SInv o0 o r.source
  blockNew : ∀ n, r.owned.data = some n → o0.next ≤ n
  heap : ∀ n, if r.owned.data = some n then (o.heap n).isSome = true else o.heap n = o0.heap n
  start : r.st.dataStart ≤ r.size ∨ r.size = 0

/-- What the pointer stands for. -/
def Tells (o : Os) (r : Reader) : Holds → Prop
  | .nothing => r.size = 0
  | .mapped b => ∃ p, r.ptr = .mapping p ∧ r.source.data = some p ∧ o.map p = some b ∧ r.size = b.length ∧ b ≠ []
  | .buffer b => ∃ p pad, r.ptr = .block p ∧ r.owned.data = some p ∧ o.heap p = some (b ++ pad) ∧ r.size = b.length
  | .gone => True

/-- The bytes the reader is to read. -/
def _root_.Vroom.Spec.Holds.content : Holds → Bytes
  | .mapped b => b
  | .buffer b => b
  | _ => []

theorem tells_at {o : Os} {r : Reader} {h : Holds} (ht : Tells o r h) (hg : h ≠ .gone) :
    r.size ≤ (o.at r.ptr).length ∧ (o.at r.ptr).take r.size = h.content ∧ r.size = h.content.length := by
  cases h with
  | nothing => simp only [Tells] at ht; rw [ht]; simp [Holds.content]
  | mapped b =>
    obtain ⟨p, h1, h2, h3, h4, h5⟩ := ht
    rw [h1, h4]
    simp [Os.at, h3, Holds.content]
  | buffer b =>
    obtain ⟨p, pad, h1, h2, h3, h4⟩ := ht
    rw [h1, h4]
    simp [Os.at, h3, Holds.content]
  | gone => exact absurd rfl hg

theorem openData_start' (ic : InferCfg) (sampleRows : Nat) (st : ReaderState) (file : List UInt8) :
    (openData ic sampleRows st file).2.dataStart ≤ file.length ∨ file.length = 0 := by
  have hle := findRowEnd_le ic.cpu ic.quote file 0
  unfold openData
  dsimp only
  split_ifs with h
  · exact .inr h
  · exact .inl hle
  · exact .inl hle
  · exact .inl (Nat.zero_le _)

/-- The common end of the two ways of opening. -/
theorem openTail_eq {S : Setup} (hS : Setup.Ok S) {o : Os} {r : Reader} (hs : r.size ≤ (o.at r.ptr).length) :
    ∃ ans rc, openTail S o r = some (ans, o, ⟨r.source, r.owned, r.ptr, r.size, (openData S.infer S.sampleRows r.st ((o.at r.ptr).take r.size)).2, rc⟩) ∧
      (match (openData S.infer S.sampleRows r.st ((o.at r.ptr).take r.size)).1 with | none => ans = .opened ∧ rc = 0 | some e => ans = .refused e ∧ rc = r.rowCount) := by
  unfold openTail
  rw [C80_open hS.infer S.sampleRows r.st hs, Option.map_some]
  generalize openData S.infer S.sampleRows r.st _ = x
  obtain ⟨e, st'⟩ := x
  cases e with
  | none => exact ⟨_, _, rfl, rfl, rfl⟩
  | some e => exact ⟨_, _, rfl, rfl, rfl⟩

/-- Freeing a buffer. -/
theorem free_inv {o0 o : Os} (h0 : Os.Wf o0) {b : Buf} (hnew : ∀ n, b.data = some n → o0.next ≤ n)
    (hheap : ∀ n, if b.data = some n then (o.heap n).isSome = true else o.heap n = o0.heap n) :
    (b.free o).1 = { o with heap := o0.heap } := by
  cases hb : b.data with
  | none =>
    simp only [Buf.free, hb]
    have : o.heap = o0.heap := funext fun n => by simpa [hb] using hheap n
    rw [← this]
  | some p =>
    simp only [Buf.free, hb]
    have hp := hheap p
    rw [if_pos hb] at hp
    unfold Os.free
    rw [if_pos hp]
    congr 1
    funext n
    dsimp only [put]
    by_cases h : n = p
    · rw [if_pos h, h0.heap n (h ▸ hnew p hb)]
    · rw [if_neg h]
      have := hheap n
      rwa [if_neg (by rw [hb]; simpa using Ne.symm h)] at this

theorem openTail_inv {S : Setup} (hS : Setup.Ok S) {o0 o : Os} {r : Reader} {h : Holds} (hsrc : SInv o0 o r.source)
    (hnew : ∀ n, r.owned.data = some n → o0.next ≤ n) (hheap : ∀ n, if r.owned.data = some n then (o.heap n).isSome = true else o.heap n = o0.heap n)
    (ht : Tells o r h) (hg : h ≠ .gone) {x : Answer × Os × Reader} (hx : openTail S o r = some x) : Inv o0 x.2.1 x.2.2 ∧ Tells x.2.1 x.2.2 h := by
  obtain ⟨h1, h2, h3⟩ := tells_at ht hg
  obtain ⟨ans, rc, he, _⟩ := openTail_eq hS h1
  rw [he] at hx
  cases hx
  dsimp only
  have hd := openData_start' S.infer S.sampleRows r.st ((o.at r.ptr).take r.size)
  rw [h2, ← h3] at hd
  refine ⟨⟨hsrc, hnew, hheap, by rw [h2]; exact hd⟩, ?_⟩
  cases h <;> exact ht

theorem step_inv {S : Setup} (hS : Setup.Ok S) {o0 : Os} (h0 : Os.Wf o0) {o : Os} {r : Reader} {h : Holds} (hi : Inv o0 o r) (ht : Tells o r h) (c : Call)
    {x : Answer × Os × Reader} (hx : step S o r c = some x) : Inv o0 x.2.1 x.2.2 ∧ Tells x.2.1 x.2.2 (h.after c) := by
  cases c with
  | openFile a =>
    obtain ⟨e, o', s', he, hs', hh, hn, hop⟩ := openFile_inv h0 hi.src a
    simp only [step, he] at hx
    have hheap : ∀ n, if r.owned.data = some n then (o'.heap n).isSome = true else o'.heap n = o0.heap n := by rw [hh]; exact hi.heap
    have fail : ∀ e', e = some e' → (h.after (.openFile a) = match h with | .mapped _ => .gone | h => h) → Inv o0 x.2.1 x.2.2 ∧ Tells x.2.1 x.2.2 (h.after (.openFile a)) := by
      intro e' hee hah
      rw [hee] at hx
      cases hx
      refine ⟨⟨hs', hi.blockNew, hheap, hi.start⟩, ?_⟩
      rw [hah]
      cases h with
      | nothing => exact ht
      | mapped b => trivial
      | buffer b => simp only [Tells, hh] at ht ⊢; exact ht
      | gone => trivial
    have succ : e = none → s'.data = none → s'.size = 0 → Inv o0 x.2.1 x.2.2 ∧ Tells x.2.1 x.2.2 .nothing := by
      intro hee hd hz
      rw [hee] at hx
      simp only [Source.ptr, hd] at hx
      refine openTail_inv hS (h := .nothing) ?_ ?_ ?_ ?_ (by simp) hx
      exacts [hs', hi.blockNew, hheap, hz]
    cases a with
    | cannotOpen => exact fail _ hop.1 (by cases h <;> rfl)
    | cannotStat => exact fail _ hop.1 (by cases h <;> rfl)
    | cannotMap k =>
      rw [Opened] at hop
      by_cases hk : k = 0
      · rw [if_pos hk] at hop
        subst hk
        exact succ hop.1 hop.2.2.1 hop.2.2.2
      · rw [if_neg hk] at hop
        exact fail _ hop.1 (by cases k with | zero => exact absurd rfl hk | succ k => cases h <;> rfl)
    | file c =>
      obtain ⟨hee, _, hsz, hc⟩ := hop
      by_cases hcn : c = []
      · rw [if_pos hcn] at hc
        have : h.after (.openFile (.file c)) = .nothing := by simp [Holds.after, hcn]
        rw [this]
        exact succ hee hc (by rw [hsz, hcn]; rfl)
      · rw [if_neg hcn] at hc
        obtain ⟨p, hp, hm, _⟩ := hc
        have : h.after (.openFile (.file c)) = .mapped c := by simp [Holds.after, hcn]
        rw [this]
        rw [hee] at hx
        simp only [Source.ptr, hp] at hx
        refine openTail_inv hS (h := .mapped c) ?_ ?_ ?_ ?_ (by simp) hx
        exacts [hs', hi.blockNew, hheap, ⟨p, rfl, hp, hm, hsz, hcn⟩]
  | openBuffer b =>
    have hsrc := hi.src
    cases b with
    | none =>
      simp only [step, Buf.moveAssign] at hx
      rw [free_inv h0 hi.blockNew hi.heap] at hx
      refine openTail_inv hS (h := .nothing) ?_ ?_ ?_ ?_ (by simp) hx
      rotate_left 1
      · simp
      · simp
      · rfl
      have w := hsrc.wf
      refine ⟨⟨w.fd, w.map, ?_⟩, hsrc.bad, hsrc.next, hsrc.fdNew, hsrc.dataNew, hsrc.fd, hsrc.map, hsrc.shut, hsrc.pos⟩
      intro n hn
      exact h0.heap n (Nat.le_trans hsrc.next hn)
    | some b =>
      obtain ⟨content, padding⟩ := b
      have w := hsrc.wf
      -- the system with the new block, without the reader's
      have h1 : Os.Wf { o0 with heap := put o0.heap o.next (some (content ++ List.replicate padding 0)), next := o.next + 1 } := by
        have := hsrc.next
        refine ⟨?_, ?_, ?_⟩
        · intro n hn; exact h0.fd n (by dsimp only at hn; omega)
        · intro n hn; exact h0.map n (by dsimp only at hn; omega)
        · intro n hn; dsimp only [put] at hn ⊢; rw [if_neg (by omega)]; exact h0.heap n (by omega)
      have hlt : ∀ n, r.owned.data = some n → n < o.next := by
        intro n hn
        have := hi.heap n
        rw [if_pos hn] at this
        by_contra hge
        rw [w.heap n (by omega)] at this
        cases this
      simp only [step, Buf.moveAssign, Buf.allocate, Buf.ptr] at hx
      have hf : (r.owned.free { o with heap := put o.heap o.next (some (content ++ List.replicate padding 0)), next := o.next + 1 }).1 =
          { o with heap := put o0.heap o.next (some (content ++ List.replicate padding 0)), next := o.next + 1 } := by
        cases hb : r.owned.data with
        | none =>
          simp only [Buf.free, hb]
          have : o.heap = o0.heap := funext fun n => by simpa [hb] using hi.heap n
          rw [← this]
        | some p =>
          have hp := hi.heap p
          rw [if_pos hb] at hp
          have hpl := hlt p hb
          simp only [Buf.free, hb, Os.free]
          rw [if_pos (by dsimp only [put]; rw [if_neg (by omega)]; exact hp)]
          congr 1
          funext n
          dsimp only [put]
          by_cases h : n = p
          · rw [if_pos h, if_neg (by omega), h0.heap n (h ▸ hi.blockNew p hb)]
          · rw [if_neg h]
            have := hi.heap n
            rw [if_neg (by rw [hb]; simpa using Ne.symm h)] at this
            rw [this]
      rw [hf] at hx
      refine openTail_inv hS (h := .buffer content) (o0 := o0) ?_ ?_ ?_ ?_ (by simp) hx
      · have := hsrc.next
        refine ⟨⟨?_, ?_, ?_⟩, hsrc.bad, ?_, hsrc.fdNew, hsrc.dataNew, hsrc.fd, hsrc.map, hsrc.shut, hsrc.pos⟩
        · intro n hn; exact w.fd n (by dsimp only at hn; omega)
        · intro n hn; exact w.map n (by dsimp only at hn; omega)
        · intro n hn; dsimp only [put] at hn ⊢; rw [if_neg (by omega)]; exact h0.heap n (by omega)
        · dsimp only; omega
      · intro n hn; dsimp only at hn; simp only [Option.some.injEq] at hn; have := hsrc.next; omega
      · intro n
        dsimp only [put]
        by_cases h : n = o.next
        · rw [if_pos (by rw [h]), if_pos h]; rfl
        · rw [if_neg (by simpa using Ne.symm h), if_neg h]
      · exact ⟨o.next, List.replicate padding 0, rfl, rfl, by simp [put], rfl⟩
  | readAll =>
    simp only [step, Option.map_eq_some_iff] at hx
    obtain ⟨res, _, hx⟩ := hx
    subst hx
    dsimp only
    have hah : h.after .readAll = h := by cases h <;> rfl
    rw [hah]
    split_ifs
    · exact ⟨hi, ht⟩
    · refine ⟨⟨hi.src, hi.blockNew, hi.heap, hi.start⟩, ?_⟩
      cases h <;> exact ht

/-- Opening never faults, and says what C13-C16 and C58 say for the bytes of the file. -/
theorem open_ok {S : Setup} (hS : Setup.Ok S) {o0 : Os} (h0 : Os.Wf o0) {o : Os} {r : Reader} (hi : Inv o0 o r) (a : FileAnswer) :
    ∃ x, step S o r (.openFile a) = some x ∧ match a with
      | .cannotOpen => x.1 = .noFile .cannotOpen ∧ x.2.2.st = r.st
      | .cannotStat => x.1 = .noFile .cannotStat ∧ x.2.2.st = r.st
      | .cannotMap k => if k = 0 then x.1 = .refused .emptyFile else x.1 = .noFile .cannotMap ∧ x.2.2.st = r.st
      | .file c => x.1 = (match (openData S.infer S.sampleRows r.st c).1 with | none => .opened | some e => .refused e) ∧
          x.2.2.st = (openData S.infer S.sampleRows r.st c).2 := by
  obtain ⟨e, o', s', he, hs', hh, hn, hop⟩ := openFile_inv h0 hi.src a
  simp only [step, he]
  cases a with
  | cannotOpen => rw [hop.1]; exact ⟨_, rfl, rfl, rfl⟩
  | cannotStat => rw [hop.1]; exact ⟨_, rfl, rfl, rfl⟩
  | cannotMap k =>
    rw [Opened] at hop
    by_cases hk : k = 0
    · rw [if_pos hk] at hop
      obtain ⟨rfl, _, h2, h3⟩ := hop
      simp only [h2, h3, Source.ptr]
      obtain ⟨ans, rc, h4, h5⟩ := openTail_eq (S := S) hS (o := o') (r := ⟨s', r.owned, .null, 0, r.st, r.rowCount⟩) (Nat.zero_le _)
      refine ⟨_, h4, ?_⟩
      dsimp only
      rw [if_pos hk]
      exact h5.1
    · rw [if_neg hk] at hop
      rw [hop.1]
      refine ⟨_, rfl, ?_⟩
      dsimp only
      rw [if_neg hk]
      exact ⟨rfl, rfl⟩
  | file c =>
    obtain ⟨rfl, _, hsz, hc⟩ := hop
    dsimp only
    have hat : s'.size ≤ (o'.at s'.ptr).length ∧ (o'.at s'.ptr).take s'.size = c := by
      by_cases hcn : c = []
      · rw [hsz, hcn]; simp
      · rw [if_neg hcn] at hc
        obtain ⟨p, hp, hm, _⟩ := hc
        rw [Source.ptr, hp, hsz]
        simp [Os.at, hm]
    obtain ⟨h1, h2⟩ := hat
    obtain ⟨ans, rc, h4, h5⟩ := openTail_eq (S := S) hS (o := o') (r := ⟨s', r.owned, s'.ptr, s'.size, r.st, r.rowCount⟩) h1
    refine ⟨_, h4, ?_, ?_⟩
    · dsimp only at h5 ⊢
      rw [h2] at h5
      revert h5
      cases (openData S.infer S.sampleRows r.st c).1 with
      | none => exact fun h => h.1
      | some e => exact fun h => h.1
    · dsimp only; rw [h2]

theorem buffer_ok {S : Setup} (hS : Setup.Ok S) (o : Os) (r : Reader) (b : Option (Bytes × Nat)) (hlt : ∀ n, r.owned.data = some n → n ≠ o.next) :
    ∃ x, step S o r (.openBuffer b) = some x ∧
      x.1 = (match (openData S.infer S.sampleRows r.st ((b.map Prod.fst).getD [])).1 with | none => .opened | some e => .refused e) ∧
      x.2.2.st = (openData S.infer S.sampleRows r.st ((b.map Prod.fst).getD [])).2 := by
  have fin : ∀ (o' : Os) (r' : Reader) (c : Bytes), r'.st = r.st → r'.size ≤ (o'.at r'.ptr).length → (o'.at r'.ptr).take r'.size = c →
      ∃ x, openTail S o' r' = some x ∧ x.1 = (match (openData S.infer S.sampleRows r.st c).1 with | none => Answer.opened | some e => Answer.refused e) ∧
        x.2.2.st = (openData S.infer S.sampleRows r.st c).2 := by
    intro o' r' c e1 e2 e3
    obtain ⟨ans, rc, h4, h5⟩ := openTail_eq (S := S) hS e2
    rw [e1, e3] at h4 h5
    refine ⟨_, h4, ?_, rfl⟩
    revert h5
    cases (openData S.infer S.sampleRows r.st c).1 with
    | none => exact fun h => h.1
    | some e => exact fun h => h.1
  cases b with
  | none =>
    simp only [step, Buf.moveAssign]
    exact fin _ _ [] rfl (Nat.zero_le _) (by simp)
  | some b =>
    obtain ⟨content, padding⟩ := b
    simp only [step, Buf.moveAssign, Buf.allocate, Buf.ptr, Option.map_some, Option.getD_some]
    have hh : ∀ (o1 : Os), o1.heap o.next = some (content ++ List.replicate padding 0) → ((r.owned.free o1).1.heap o.next) = some (content ++ List.replicate padding 0) := by
      intro o1 h1
      cases hb : r.owned.data with
      | none => simp only [Buf.free, hb]; exact h1
      | some p =>
        have := hlt p hb
        simp only [Buf.free, hb, Os.free]
        split_ifs
        · dsimp only [put]; rw [if_neg (Ne.symm this)]; exact h1
        · exact h1
    refine fin _ _ content rfl ?_ ?_
    · simp only [Os.at]
      rw [hh _ (by simp [put])]
      simp
    · simp only [Os.at]
      rw [hh _ (by simp [put])]
      simp

theorem read_ok {S : Setup} (hS : Setup.Ok S) {o0 : Os} {o : Os} {r : Reader} {h : Holds} (hi : Inv o0 o r) (ht : Tells o r h) (hg : h ≠ .gone) :
    ∃ res r', step S o r .readAll = some (.table res, o, r') ∧ (r'.st = r.st ∧ (r.st.schema ≠ [] → r'.rowCount = res.rowCount)) ∧
      (r.st.dataStart ≤ h.content.length → readAll' S.read r.st.schema.length S.threads h.content r.st.dataStart = some res) ∧
      (h.content = [] → res.totalRows = 0) := by
  obtain ⟨h1, h2, h3⟩ := tells_at ht hg
  have : ∃ res, readAllW S r.st.schema.length (o.at r.ptr) r.size r.st.dataStart = some res ∧
      (r.st.dataStart ≤ h.content.length → readAll' S.read r.st.schema.length S.threads h.content r.st.dataStart = some res) ∧
      (h.content = [] → res.totalRows = 0) := by
    by_cases hz : r.size = 0
    · obtain ⟨res, e1, e2, _⟩ := readAllW_zero S r.st.schema.length (o.at r.ptr) r.st.dataStart
      refine ⟨res, by rw [hz]; exact e1, ?_, fun _ => e2⟩
      intro hle
      obtain ⟨res', f1, f2⟩ := readAllW_eq hS r.st.schema.length h1 (start := r.st.dataStart) (by omega)
      rw [hz, e1] at f1
      cases f1
      rw [← h2]; exact f2
    · obtain ⟨res, e1, e2⟩ := readAllW_eq hS r.st.schema.length h1 (start := r.st.dataStart) (by have := hi.start; omega)
      refine ⟨res, e1, fun _ => by rw [← h2]; exact e2, fun he => ?_⟩
      rw [he] at h3
      exact absurd h3 hz
  obtain ⟨res, e1, e2, e3⟩ := this
  refine ⟨res, _, by simp only [step]; rw [e1]; rfl, ?_, e2, e3⟩
  split_ifs with hz
  · exact ⟨rfl, fun h => absurd (List.length_eq_zero_iff.1 hz) h⟩
  · exact ⟨rfl, fun _ => rfl⟩

theorem new_inv {o0 : Os} (h0 : Os.Wf o0) (mode : ErrMode) (maxErrors : Nat) : Inv o0 o0 (Reader.new mode maxErrors) ∧ Tells o0 (Reader.new mode maxErrors) .nothing := by
  refine ⟨⟨⟨h0, rfl, Nat.le_refl _, by simp [Reader.new], by simp [Reader.new], ?_, ?_, fun _ => rfl, by simp [Reader.new]⟩, by simp [Reader.new], ?_, .inr rfl⟩, rfl⟩
  · intro n; simp [Reader.new]
  · intro n; simp [Reader.new]
  · intro n; simp [Reader.new]

theorem run_inv {S : Setup} (hS : Setup.Ok S) {o0 : Os} (h0 : Os.Wf o0) (cs : List Call) : ∀ {o : Os} {r : Reader} {h : Holds}, Inv o0 o r → Tells o r h →
    ∀ {ans o' r'}, run S o r cs = some (ans, o', r') → Inv o0 o' r' ∧ Tells o' r' (cs.foldl Holds.after h) := by
  induction cs with
  | nil => intro o r h hi ht ans o' r' hr; cases hr; exact ⟨hi, ht⟩
  | cons c cs ih =>
    intro o r h hi ht ans o' r' hr
    simp only [run, Option.bind_eq_some_iff, Option.map_eq_some_iff] at hr
    obtain ⟨x, hx, y, hy, hxy⟩ := hr
    obtain ⟨hi', ht'⟩ := step_inv hS h0 hi ht c hx
    obtain ⟨y1, y2, y3⟩ := y
    cases hxy
    exact ih hi' ht' hy

/-! ### The property -/

/-- The answer to the last opening call. -/
def _root_.Vroom.Spec.lastOpen (init : Option Answer) (xs : List Answer) : Option Answer :=
  xs.foldl (fun l a => match a with | .table _ => l | a => some a) init

theorem step_opened {S : Setup} (hS : Setup.Ok S) {o0 : Os} (h0 : Os.Wf o0) {o : Os} {r : Reader} {h : Holds} (hi : Inv o0 o r) (ht : Tells o r h) (c : Call)
    {x : Answer × Os × Reader} (hx : step S o r c = some x) (ha : x.1 = .opened) : h.after c ≠ .gone ∧ (h.after c).content ≠ [] := by
  cases c with
  | openFile a =>
    obtain ⟨y, hy, hm⟩ := open_ok hS h0 hi a
    rw [hx] at hy; cases hy
    cases a with
    | cannotOpen => rw [hm.1] at ha; cases ha
    | cannotStat => rw [hm.1] at ha; cases ha
    | cannotMap k =>
      dsimp only at hm
      split_ifs at hm
      · rw [hm] at ha; cases ha
      · rw [hm.1] at ha; cases ha
    | file c =>
      by_cases hc : c = []
      · rw [hm.1, hc] at ha; cases ha
      · simp [Holds.after, hc, Holds.content]
  | openBuffer b =>
    have hlt : ∀ n, r.owned.data = some n → n ≠ o.next := by
      intro n hn he
      have := hi.heap n
      rw [if_pos hn, hi.src.wf.heap n (by omega)] at this
      cases this
    obtain ⟨y, hy, hm, _⟩ := buffer_ok hS o r b hlt
    rw [hx] at hy; cases hy
    cases b with
    | none => rw [hm] at ha; cases ha
    | some b =>
      obtain ⟨content, padding⟩ := b
      by_cases hc : content = []
      · rw [hm, hc] at ha; cases ha
      · exact ⟨by simp [Holds.after], by simpa [Holds.after, Holds.content] using hc⟩
  | readAll =>
    simp only [step, Option.map_eq_some_iff] at hx
    obtain ⟨res, _, hx⟩ := hx
    subst hx
    cases ha

theorem step_table {S : Setup} {o : Os} {r : Reader} {c : Call} {x : Answer × Os × Reader} (hx : step S o r c = some x) :
    (∃ res, x.1 = .table res) ↔ c = .readAll := by
  cases c with
  | openFile a =>
    simp only [step] at hx
    constructor
    · rintro ⟨res, h⟩
      split at hx
      · cases hx; cases h
      · simp only [openTail, Option.map_eq_some_iff] at hx
        obtain ⟨y, _, hy⟩ := hx
        split at hy <;> (subst hy; cases h)
    · intro h; cases h
  | openBuffer b =>
    simp only [step] at hx
    constructor
    · rintro ⟨res, h⟩
      simp only [openTail, Option.map_eq_some_iff] at hx
      obtain ⟨y, _, hy⟩ := hx
      split at hy <;> (subst hy; cases h)
    · intro h; cases h
  | readAll =>
    simp only [step, Option.map_eq_some_iff] at hx
    obtain ⟨res, _, hx⟩ := hx
    subst hx
    exact ⟨fun _ => rfl, fun _ => ⟨res, rfl⟩⟩

theorem run_opened {S : Setup} (hS : Setup.Ok S) {o0 : Os} (h0 : Os.Wf o0) (cs : List Call) : ∀ {o : Os} {r : Reader} {h : Holds} {l : Option Answer}, Inv o0 o r → Tells o r h →
    (l = some .opened → h ≠ .gone ∧ h.content ≠ []) →
    ∀ {ans o' r'}, run S o r cs = some (ans, o', r') → lastOpen l ans = some .opened → cs.foldl Holds.after h ≠ .gone ∧ (cs.foldl Holds.after h).content ≠ [] := by
  induction cs with
  | nil => intro o r h l hi ht hl ans o' r' hr he; cases hr; exact hl he
  | cons c cs ih =>
    intro o r h l hi ht hl ans o' r' hr he
    simp only [run, Option.bind_eq_some_iff, Option.map_eq_some_iff] at hr
    obtain ⟨x, hx, y, hy, hxy⟩ := hr
    obtain ⟨hi', ht'⟩ := step_inv hS h0 hi ht c hx
    have ho := step_opened hS h0 hi ht c hx
    have htab := step_table hx
    obtain ⟨y1, y2, y3⟩ := y
    cases hxy
    refine ih hi' ht' ?_ hy he
    cases hx1 : x.1 with
    | table res =>
      have hc := htab.1 ⟨res, hx1⟩
      subst hc
      exact hl
    | opened => exact fun _ => ho hx1
    | noFile e => intro h; cases h
    | refused e => intro h; cases h

end Vroom.Src

namespace Vroom
open Src Spec

/-- **C81** A program that reads only after a successful `open` or `open_from_buffer`: whatever calls came before, with whatever outcomes, reading
touches only memory that is there, and gives what C07 to C13 say about exactly the bytes of the last file or buffer (in the reader's current schema).
It changes nothing but the row count, so that it may be repeated. -/
theorem C81_careful {S : Setup} (hS : Setup.Ok S) {o0 : Src.Os} (h0 : Os.Wf o0) (mode : ErrMode) (maxErrors : Nat) (cs : List Call) {ans o r}
    (hrun : run S o0 (Reader.new mode maxErrors) cs = some (ans, o, r)) (hlast : lastOpen none ans = some .opened) :
    (held cs).content ≠ [] ∧ ∃ res r', step S o r .readAll = some (.table res, o, r') ∧ (r'.st = r.st ∧ (r.st.schema ≠ [] → r'.rowCount = res.rowCount)) ∧
      readAll' S.read r.st.schema.length S.threads (held cs).content r.st.dataStart = some res := by
  obtain ⟨hi, ht⟩ := new_inv h0 mode maxErrors
  obtain ⟨hi', ht'⟩ := run_inv hS h0 cs hi ht hrun
  obtain ⟨hg, hne⟩ := run_opened hS h0 cs hi ht (l := none) (by simp) hrun hlast
  obtain ⟨res, r', h1, h2, h3, _⟩ := read_ok hS hi' ht' hg
  have hz := tells_at ht' hg
  refine ⟨hne, res, r', h1, h2, h3 ?_⟩
  have := hi'.start
  rcases this with h | h
  · exact hz.2.2 ▸ h
  · exfalso
    exact hne (List.length_eq_zero_iff.1 (hz.2.2.symm.trans h))

/-- **C81** No sequence of calls touches memory that is not there, unless it reads after a file could not be opened, inspected or mapped while the
reader was on a mapped file. -/
theorem C81_no_fault {S : Setup} (hS : Setup.Ok S) {o0 : Src.Os} (h0 : Os.Wf o0) (mode : ErrMode) (maxErrors : Nat) (cs : List Call)
    (hg : ∀ pre post, cs = pre ++ .readAll :: post → held pre ≠ .gone) : ∃ x, run S o0 (Reader.new mode maxErrors) cs = some x := by
  obtain ⟨hi, ht⟩ := new_inv h0 mode maxErrors
  have : ∀ (cs : List Call) (o : Src.Os) (r : Reader) (h : Holds), Inv o0 o r → Tells o r h →
      (∀ pre post, cs = pre ++ .readAll :: post → pre.foldl Holds.after h ≠ .gone) → ∃ x, run S o r cs = some x := by
    intro cs
    induction cs with
    | nil => intro o r h _ _ _; exact ⟨_, rfl⟩
    | cons c cs ih =>
      intro o r h hi ht hg
      have hstep : ∃ x, step S o r c = some x := by
        cases c with
        | openFile a => obtain ⟨x, hx, _⟩ := open_ok hS h0 hi a; exact ⟨x, hx⟩
        | openBuffer b =>
          have hlt : ∀ n, r.owned.data = some n → n ≠ o.next := by
            intro n hn he
            have := hi.heap n
            rw [if_pos hn, hi.src.wf.heap n (by omega)] at this
            cases this
          obtain ⟨x, hx, _⟩ := buffer_ok hS o r b hlt
          exact ⟨x, hx⟩
        | readAll =>
          obtain ⟨res, r', hx, _⟩ := read_ok hS hi ht (hg [] cs rfl)
          exact ⟨_, hx⟩
      obtain ⟨x, hx⟩ := hstep
      obtain ⟨hi', ht'⟩ := step_inv hS h0 hi ht c hx
      obtain ⟨y, hy⟩ := ih _ _ _ hi' ht' (fun pre post he => by
        have := hg (c :: pre) post (by rw [he]; rfl)
        exact this)
      exact ⟨_, by simp only [run, hx, Option.bind_some, hy, Option.map_some]; rfl⟩
  exact this cs o0 _ .nothing hi ht hg

/-- **C81** Whatever was called, when the reader is destroyed every descriptor, mapping and buffer it held is given back, each exactly once, and
nobody else's. -/
theorem C81_released {S : Setup} (hS : Setup.Ok S) {o0 : Src.Os} (h0 : Os.Wf o0) (mode : ErrMode) (maxErrors : Nat) (cs : List Call) {ans o r}
    (hrun : run S o0 (Reader.new mode maxErrors) cs = some (ans, o, r)) :
    (r.destroy o).fd = o0.fd ∧ (r.destroy o).map = o0.map ∧ (r.destroy o).heap = o0.heap ∧ (r.destroy o).bad = o0.bad := by
  obtain ⟨hi, ht⟩ := new_inv h0 mode maxErrors
  obtain ⟨hi', ht'⟩ := run_inv hS h0 cs hi ht hrun
  have hf := free_inv h0 hi'.blockNew hi'.heap
  unfold Reader.destroy
  rw [hf]
  have hs := hi'.src
  have w := hs.wf
  have hs' : SInv o0 { o with heap := o0.heap } r.source :=
    ⟨⟨w.fd, w.map, fun n hn => h0.heap n (Nat.le_trans hs.next hn)⟩, hs.bad, hs.next, hs.fdNew, hs.dataNew, hs.fd, hs.map, hs.shut, hs.pos⟩
  obtain ⟨h1, h2, h3, h4, h5, h6⟩ := close_inv h0 hs'
  exact ⟨h5, h6, h3, h1.bad⟩

/-- **C81** What the opening calls answer, at any time: the three failures of the system are reported as such and leave the reader's schema and
errors alone; otherwise the outcome is that of C15, C57, C58 for the bytes of the file or buffer. -/
theorem C81_open_answers {S : Setup} (hS : Setup.Ok S) {o0 : Src.Os} (h0 : Os.Wf o0) (mode : ErrMode) (maxErrors : Nat) (cs : List Call) {ans o r}
    (hrun : run S o0 (Reader.new mode maxErrors) cs = some (ans, o, r)) :
    (∀ a e, (a, e) ∈ [(FileAnswer.cannotOpen, SrcErr.cannotOpen), (.cannotStat, .cannotStat)] →
      ∃ x, step S o r (.openFile a) = some x ∧ x.1 = .noFile e ∧ x.2.2.st = r.st) ∧
    (∀ k, 0 < k → ∃ x, step S o r (.openFile (.cannotMap k)) = some x ∧ x.1 = .noFile .cannotMap ∧ x.2.2.st = r.st) ∧
    (∀ c call, call = .openFile (.file c) ∨ (∃ padding, call = .openBuffer (some (c, padding))) → ∃ x, step S o r call = some x ∧
      x.1 = (match (openData S.infer S.sampleRows r.st c).1 with | none => .opened | some e => .refused e) ∧
      x.2.2.st = (openData S.infer S.sampleRows r.st c).2) := by
  obtain ⟨hi, ht⟩ := new_inv h0 mode maxErrors
  obtain ⟨hi', ht'⟩ := run_inv hS h0 cs hi ht hrun
  refine ⟨?_, ?_, ?_⟩
  · intro a e hae
    simp only [List.mem_cons, Prod.mk.injEq, List.not_mem_nil, or_false] at hae
    obtain ⟨x, hx, hm⟩ := open_ok hS h0 hi' a
    rcases hae with ⟨rfl, rfl⟩ | ⟨rfl, rfl⟩ <;> exact ⟨x, hx, hm⟩
  · intro k hk
    obtain ⟨x, hx, hm⟩ := open_ok hS h0 hi' (.cannotMap k)
    dsimp only at hm
    rw [if_neg (by omega)] at hm
    exact ⟨x, hx, hm⟩
  · rintro c call (rfl | ⟨padding, rfl⟩)
    · obtain ⟨x, hx, hm⟩ := open_ok hS h0 hi' (.file c)
      exact ⟨x, hx, hm⟩
    · have hlt : ∀ n, r.owned.data = some n → n ≠ o.next := by
        intro n hn he
        have := hi'.heap n
        rw [if_pos hn, hi'.src.wf.heap n (by omega)] at this
        cases this
      obtain ⟨x, hx, hm⟩ := buffer_ok hS o r (some (c, padding)) hlt
      exact ⟨x, hx, hm⟩

/-- **C81** A mapped file by itself: after any calls, an open source of positive size points to a live mapping of that size; a closed one has a null
pointer; and closing (the destructor) gives back exactly what was taken. -/
theorem C81_source {o0 : Src.Os} (h0 : Os.Wf o0) (cs : List SourceCall) :
    let o := (runSource o0 {} cs).1
    let s := (runSource o0 {} cs).2
    (s.fd.isSome = true → 0 < s.size → ∃ p b, s.ptr = .mapping p ∧ o.map p = some b ∧ b.length = s.size) ∧
    (s.fd = none → s.ptr = .null) ∧
    (s.close o).1.fd = o0.fd ∧ (s.close o).1.map = o0.map ∧ (s.close o).1.bad = o0.bad := by
  have : ∀ (cs : List SourceCall) (o : Src.Os) (s : Source), SInv o0 o s → (s.fd.isSome = true → 0 < s.size → s.data.isSome = true) →
      SInv o0 (runSource o s cs).1 (runSource o s cs).2 ∧
      ((runSource o s cs).2.fd.isSome = true → 0 < (runSource o s cs).2.size → (runSource o s cs).2.data.isSome = true) := by
    intro cs
    induction cs with
    | nil => intro o s h1 h2; exact ⟨h1, h2⟩
    | cons c cs ih =>
      intro o s h1 h2
      cases c with
      | openFile a =>
        obtain ⟨e, o', s', he, hs', _, _, hop⟩ := openFile_inv h0 h1 a
        simp only [runSource, he]
        refine ih _ _ hs' ?_
        intro hf hz
        cases a with
        | cannotOpen => rw [hop.2] at hf; cases hf
        | cannotStat => rw [hop.2] at hf; cases hf
        | cannotMap k =>
          rw [Opened] at hop
          split_ifs at hop
          · omega
          · rw [hop.2.1] at hf; cases hf
        | file c =>
          obtain ⟨_, _, hsz, hc⟩ := hop
          by_cases hcn : c = []
          · rw [hcn] at hsz; rw [hsz] at hz; exact absurd hz (by simp)
          · rw [if_neg hcn] at hc
            obtain ⟨p, hp, _⟩ := hc
            rw [hp]; rfl
      | close =>
        obtain ⟨h3, h4, _⟩ := close_inv h0 h1
        simp only [runSource]
        refine ih _ _ h3 ?_
        rw [h4]; intro h; cases h
  intro o s
  have hnew : SInv o0 o0 {} := by
    refine ⟨h0, rfl, Nat.le_refl _, by simp, by simp, ?_, ?_, fun _ => rfl, by simp⟩
    · intro n; simp
    · intro n; simp
  obtain ⟨hi, hp⟩ := this cs o0 {} hnew (by intro h; cases h)
  obtain ⟨h1, h2, h3, h4, h5, h6⟩ := close_inv h0 hi
  refine ⟨?_, ?_, h5, h6, h1.bad⟩
  · intro hf hz
    obtain ⟨p, hd⟩ := Option.isSome_iff_exists.1 (hp hf hz)
    have := hi.map p
    rw [if_pos hd, Option.map_eq_some_iff] at this
    obtain ⟨b, hb, hl⟩ := this
    exact ⟨p, b, by show Source.ptr _ = _; unfold Source.ptr; rw [hd], hb, hl⟩
  · intro hf
    have := hi.shut hf
    show Source.ptr _ = _
    unfold Source.ptr
    rw [this]

/-! ### Concrete cases and findings -/

/-- Machine and options of the examples. -/
def lifeSetup : Setup := ⟨target32, openCfg, cfg0, 10, 4⟩

theorem lifeSetup_ok : Setup.Ok lifeSetup := ⟨⟨rfl, rfl⟩, ⟨rfl, rfl⟩⟩

theorem os_empty_wf : Os.Wf ({} : Src.Os) := ⟨fun _ _ => rfl, fun _ _ => rfl, fun _ _ => rfl⟩

/-- `a` / `1`. -/
def fileA : Bytes := [97, 10, 49, 10]

/-- Open a file, read it twice, fail to open a second one, open a buffer, read it. -/
def carefulCalls : List Call := [.openFile (.file fileA), .readAll, .readAll, .openFile .cannotOpen, .openBuffer (some ([98, 10, 50, 10], 64)), .readAll]

example : (run lifeSetup {} (Reader.new .permissive 5) carefulCalls).isSome = true ∧ held carefulCalls = .buffer [98, 10, 50, 10] ∧
    ((run lifeSetup {} (Reader.new .permissive 5) carefulCalls).map fun x => lastOpen none x.1) = some (some .opened) := by decide +kernel

/-- **C81 refuted** after a failed `open`: the old file is unmapped but still read. -/
theorem C81_failed_open_refuted : (run lifeSetup {} (Reader.new .permissive 5) [.openFile (.file fileA), .openFile .cannotOpen]).map (·.1) =
      some [.opened, .noFile .cannotOpen] ∧
    run lifeSetup {} (Reader.new .permissive 5) [.openFile (.file fileA), .openFile .cannotOpen, .readAll] = none := by decide +kernel

/-- **C81 finding** After an `open` that was refused, reading succeeds: for an empty file with no rows in the columns of the earlier file, for a file
without header with its rows in the columns of the earlier file. -/
theorem C81_refused_open_stale :
    (run lifeSetup {} (Reader.new .failFast 5) [.openFile (.file fileA), .openFile (.file []), .readAll]).map (fun x => (x.1, x.2.2.st.schema.map (·.name))) =
      some ([.opened, .refused .emptyFile, .table ⟨[[[]]], 0, 0⟩], [[97]]) ∧
    (run lifeSetup {} (Reader.new .failFast 5) [.openFile (.file fileA), .openFile (.file [10, 55, 10]), .readAll]).map (fun x => (x.1, x.2.2.st.schema.map (·.name))) =
      some ([.opened, .refused .emptyHeader, .table ⟨[[[.text [55]]]], 1, 1⟩], [[97]]) := by decide +kernel

/-- **C81 finding** A source whose file could not be mapped reports the file's size with a null pointer. -/
theorem C81_unmapped_size : let s := (runSource {} {} [.openFile (.cannotMap 4096)]).2
    s.size = 4096 ∧ s.ptr = .null ∧ s.fd = none := by decide +kernel

end Vroom
