import Verif.Props.ReaderLife
/-
C81: buffers moved around by a program.
-/
namespace Vroom
open Src Spec

/-- The content of every variable as the program sees it: values are moved, an allocated one replaces the old one. -/
def Spec.bufValue (val : Nat → Option (List UInt8)) : BufCall → Nat → Option (List UInt8)
  | .allocate v content _ => fun w => if w = v then some content else val w
  | .assign dst src => fun w => if dst = src then val w else if w = src then none else if w = dst then val src else val w
  | .drop v => fun w => if w = v then none else val w

structure BufInv (o0 o : Src.Os) (env : Nat → Buf) (val : Nat → Option (List UInt8)) : Prop where
  wf : Os.Wf o
  bad : o.bad = o0.bad
  next : o0.next ≤ o.next
  fresh : ∀ v p, (env v).data = some p → o0.next ≤ p
  one : ∀ v w p, (env v).data = some p → (env w).data = some p → v = w
  some_ : ∀ v p, (env v).data = some p → ∃ content padding, val v = some content ∧ o.heap p = some (content ++ List.replicate padding 0) ∧
    (env v).size = content.length ∧ (env v).capacity = content.length + padding
  none_ : ∀ v, (env v).data = none → val v = none ∧ (env v).size = 0
  rest : ∀ p, (∀ v, (env v).data ≠ some p) → o.heap p = o0.heap p

theorem drop_inv {o0 o : Src.Os} {env : Nat → Buf} {val : Nat → Option (List UInt8)} (h0 : Os.Wf o0) (h : BufInv o0 o env val) (v : Nat) :
    BufInv o0 ((env v).free o).1 (put env v {}) (fun w => if w = v then none else val w) ∧ ((env v).free o).1.next = o.next := by
  cases hb : (env v).data with
  | none =>
    have he : ((env v).free o).1 = o := by simp only [Buf.free, hb]
    rw [he]
    refine ⟨⟨h.wf, h.bad, h.next, ?_, ?_, ?_, ?_, ?_⟩, rfl⟩
    · intro w p hw
      dsimp only [put] at hw
      split_ifs at hw
      · exact h.fresh w p hw
    · intro w w' p hw hw'
      dsimp only [put] at hw hw'
      split_ifs at hw hw' <;> first | cases hw | cases hw' | exact h.one w w' p hw hw'
    · intro w p hw
      dsimp only [put] at hw ⊢
      split_ifs at hw with hwv
      · simp only [if_neg hwv]; exact h.some_ w p hw
    · intro w hw
      dsimp only [put] at hw ⊢
      split_ifs at hw with hwv
      · simp [hwv]
      · simp only [if_neg hwv]; exact h.none_ w hw
    · intro p hp
      refine h.rest p (fun w hw => ?_)
      have := hp w
      dsimp only [put] at this
      split_ifs at this with hwv
      · rw [hwv, hb] at hw; cases hw
      · exact this hw
  | some p =>
    obtain ⟨content, padding, _, hheap, _⟩ := h.some_ v p hb
    have he : ((env v).free o).1 = { o with heap := put o.heap p none } := by
      simp only [Buf.free, hb, Os.free]
      rw [if_pos (by rw [hheap]; rfl)]
    rw [he]
    have hp0 : o0.heap p = none := h0.heap p (h.fresh v p hb)
    refine ⟨⟨⟨h.wf.fd, h.wf.map, ?_⟩, h.bad, h.next, ?_, ?_, ?_, ?_, ?_⟩, rfl⟩
    · intro n hn
      dsimp only [put] at hn ⊢
      split_ifs
      · rfl
      · exact h.wf.heap n hn
    · intro w q hw
      dsimp only [put] at hw
      split_ifs at hw
      · exact h.fresh w q hw
    · intro w w' q hw hw'
      dsimp only [put] at hw hw'
      split_ifs at hw hw' <;> first | cases hw | cases hw' | exact h.one w w' q hw hw'
    · intro w q hw
      dsimp only [put] at hw ⊢
      split_ifs at hw with hwv
      · have hqp : q ≠ p := fun e => hwv (h.one w v p (e ▸ hw) hb)
        simp only [if_neg hwv, if_neg hqp]; exact h.some_ w q hw
    · intro w hw
      dsimp only [put] at hw ⊢
      split_ifs at hw with hwv
      · simp [hwv]
      · simp only [if_neg hwv]; exact h.none_ w hw
    · intro q hq
      dsimp only [put]
      split_ifs with hqp
      · rw [hqp, hp0]
      · refine h.rest q (fun w hw => ?_)
        have := hq w
        dsimp only [put] at this
        split_ifs at this with hwv
        · rw [hwv, hb] at hw; cases hw; exact hqp rfl
        · exact this hw

theorem bufStep_inv {o0 o : Src.Os} {env : Nat → Buf} {val : Nat → Option (List UInt8)} (h0 : Os.Wf o0) (h : BufInv o0 o env val) (c : BufCall) :
    BufInv o0 (bufStep o env c).1 (bufStep o env c).2 (bufValue val c) := by
  cases c with
  | drop v => exact (drop_inv h0 h v).1
  | assign dst src =>
    by_cases hds : dst = src
    · simp only [bufStep, if_pos hds]
      have : bufValue val (.assign dst src) = val := by funext w; simp [bufValue, hds]
      rw [this]; exact h
    · simp only [bufStep, if_neg hds, Buf.moveAssign]
      obtain ⟨hd, _⟩ := drop_inv h0 h dst
      generalize ((env dst).free o).1 = o1 at hd
      have hsrc : (put env dst {}) src = env src := by simp [put, Ne.symm hds]
      refine ⟨hd.wf, hd.bad, hd.next, ?_, ?_, ?_, ?_, ?_⟩
      · intro w p hw
        dsimp only [put] at hw
        split_ifs at hw with a b
        · exact h.fresh src p hw
        · exact h.fresh w p hw
      · intro w w' p hw hw'
        dsimp only [put] at hw hw'
        split_ifs at hw hw' with a b a b a b
        · omega
        · exact absurd (h.one src w' p hw hw') (fun e => by omega)
        · exact absurd (h.one src w p hw' hw) (fun e => by omega)
        · exact h.one w w' p hw hw'
      · intro w p hw
        dsimp only [put] at hw
        simp only [bufValue, if_neg hds]
        dsimp only [put]
        split_ifs at hw ⊢ with a b
        · have := hd.some_ src p (by rw [hsrc]; exact hw)
          rw [hsrc] at this
          simpa [Ne.symm hds] using this
        · have := hd.some_ w p (by dsimp only [put]; rw [if_neg b]; exact hw)
          simpa [put, b] using this
      · intro w hw
        dsimp only [put] at hw
        simp only [bufValue, if_neg hds]
        dsimp only [put]
        split_ifs at hw ⊢ with a b
        · exact ⟨rfl, rfl⟩
        · have := hd.none_ src (by rw [hsrc]; exact hw)
          rw [hsrc] at this
          simpa [Ne.symm hds] using this
        · have := hd.none_ w (by dsimp only [put]; rw [if_neg b]; exact hw)
          simpa [put, b] using this
      · intro p hp
        refine hd.rest p (fun w hw => ?_)
        dsimp only [put] at hw
        split_ifs at hw with a
        · by_cases hws : w = src
          · have := hp dst
            dsimp only [put] at this
            rw [if_neg hds, if_pos rfl] at this
            rw [hws] at hw
            exact this hw
          · have := hp w
            dsimp only [put] at this
            rw [if_neg hws, if_neg a] at this
            exact this hw
  | allocate v content padding =>
    simp only [bufStep, Buf.moveAssign, Buf.allocate]
    -- first drop, then allocate: the same state
    obtain ⟨hd, hn⟩ := drop_inv h0 h v
    have hlt : ∀ w p, (env w).data = some p → p < o.next := by
      intro w p hw
      obtain ⟨_, _, _, hh, _⟩ := h.some_ w p hw
      by_contra hge
      rw [h.wf.heap p (by omega)] at hh; cases hh
    have he : ((env v).free { o with heap := put o.heap o.next (some (content ++ List.replicate padding 0)), next := o.next + 1 }).1 =
        { ((env v).free o).1 with heap := put ((env v).free o).1.heap o.next (some (content ++ List.replicate padding 0)), next := o.next + 1 } := by
      cases hb : (env v).data with
      | none => simp only [Buf.free, hb]
      | some p =>
        have hp := hlt v p hb
        obtain ⟨_, _, _, hh, _⟩ := h.some_ v p hb
        simp only [Buf.free, hb, Os.free]
        rw [if_pos (by dsimp only [put]; rw [if_neg (by omega), hh]; rfl), if_pos (by rw [hh]; rfl)]
        dsimp only
        congr 1
        funext n
        dsimp only [put]
        split_ifs <;> first | rfl | omega
    rw [he]
    generalize ((env v).free o).1 = o1 at hd hn
    have hw1 := hd.wf
    have hnx := h.next
    have hltd : ∀ w p, w ≠ v → (env w).data = some p → p ≠ o.next := fun w p _ hw => by have := hlt w p hw; omega
    refine ⟨⟨?_, ?_, ?_⟩, hd.bad, ?_, ?_, ?_, ?_, ?_, ?_⟩
    · intro n hn'; exact hw1.fd n (by dsimp only at hn'; omega)
    · intro n hn'; exact hw1.map n (by dsimp only at hn'; omega)
    · intro n hn'; dsimp only [put] at hn' ⊢; rw [if_neg (by omega)]; exact hw1.heap n (by omega)
    · dsimp only; omega
    · intro w p hw
      dsimp only [put] at hw
      split_ifs at hw
      · cases hw; exact hnx
      · exact h.fresh w p hw
    · intro w w' p hw hw'
      dsimp only [put] at hw hw'
      split_ifs at hw hw' with a b b
      · omega
      · cases hw; exact absurd rfl (hltd w' _ b hw')
      · cases hw'; exact absurd rfl (hltd w _ a hw)
      · exact h.one w w' p hw hw'
    · intro w p hw
      dsimp only [put] at hw
      simp only [bufValue]
      dsimp only [put]
      split_ifs at hw ⊢ with a
      all_goals first
        | (cases hw; refine ⟨content, padding, ?_⟩; simp [a])
        | skip
      all_goals first
        | exact absurd ‹_› (hltd w p a hw)
        | (have := hd.some_ w p (by dsimp only [put]; rw [if_neg a]; exact hw); simpa [put, a] using this)
        | skip
      all_goals trivial
    · intro w hw
      dsimp only [put] at hw
      simp only [bufValue]
      dsimp only [put]
      split_ifs at hw ⊢ with a
      have := hd.none_ w (by dsimp only [put]; rw [if_neg a]; exact hw)
      simpa [put, a] using this
    · intro p hp
      have hpn : p ≠ o.next := by
        intro e
        have := hp v
        dsimp only [put] at this
        rw [if_pos rfl] at this
        exact this (by rw [e])
      dsimp only [put]
      rw [if_neg hpn]
      refine hd.rest p (fun w hw => ?_)
      dsimp only [put] at hw
      split_ifs at hw with a
      · have := hp w
        dsimp only [put] at this
        rw [if_neg a] at this
        exact this hw

/-- **C81** Buffers: after any sequence of allocations, moves and ends of life, a variable holds exactly the value the program put there or moved
there, followed by zeroed padding, and is empty after it was moved from; different variables never share memory; nothing is freed twice or freed while
owned; and once all variables are gone all memory is back. -/
theorem C81_buffers {o0 : Src.Os} (h0 : Os.Wf o0) (cs : List BufCall) :
    let o := (bufRun o0 (fun _ => {}) cs).1
    let env := (bufRun o0 (fun _ => {}) cs).2
    let val := cs.foldl Spec.bufValue (fun _ => none)
    o.bad = o0.bad ∧
    (∀ v, match val v with
      | none => (env v).data = none ∧ (env v).size = 0
      | some content => ∃ p padding, (env v).data = some p ∧ o.heap p = some (content ++ List.replicate padding 0) ∧ (env v).size = content.length ∧
          (env v).capacity = content.length + padding) ∧
    (∀ v w p, (env v).data = some p → (env w).data = some p → v = w) ∧
    ((∀ v, val v = none) → o.heap = o0.heap) := by
  have : ∀ (cs : List BufCall) (o : Src.Os) (env : Nat → Buf) (val : Nat → Option (List UInt8)), BufInv o0 o env val →
      BufInv o0 (bufRun o env cs).1 (bufRun o env cs).2 (cs.foldl Spec.bufValue val) := by
    intro cs
    induction cs with
    | nil => intro o env val h; exact h
    | cons c cs ih => intro o env val h; exact ih _ _ _ (bufStep_inv h0 h c)
  have h := this cs o0 (fun _ => {}) (fun _ => none)
    ⟨h0, rfl, Nat.le_refl _, by simp, by simp, by simp, by simp, fun _ _ => rfl⟩
  intro o env val
  refine ⟨h.bad, ?_, h.one, ?_⟩
  · intro v
    cases hd : (env v).data with
    | none =>
      obtain ⟨h1, h2⟩ := h.none_ v hd
      have h1' : val v = none := h1
      rw [h1']; exact ⟨rfl, h2⟩
    | some p =>
      obtain ⟨c, pad, h1, h2, h3, h4⟩ := h.some_ v p hd
      have h1' : val v = some c := h1
      rw [h1']; exact ⟨p, pad, rfl, h2, h3, h4⟩
  · intro hv
    funext p
    refine h.rest p (fun v hd => ?_)
    obtain ⟨c, pad, h1, _⟩ := h.some_ v p hd
    have h1' : val v = some c := h1
    rw [hv v] at h1'; cases h1'

/-- A buffer moved twice and overwritten once. -/
example : let cs : List BufCall := [.allocate 0 [1, 2] 64, .allocate 1 [3] 64, .assign 1 0, .assign 1 1, .assign 2 1, .drop 1]
    (bufRun {} (fun _ => {}) cs).1.bad = false ∧ ((bufRun {} (fun _ => {}) cs).2 2).size = 2 ∧ ((bufRun {} (fun _ => {}) cs).2 0).data = none := by
  decide +kernel

end Vroom
