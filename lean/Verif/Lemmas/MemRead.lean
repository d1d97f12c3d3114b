import Verif.Model.MemRead
import Verif.Lemmas.MemScan
/-
The checked loads of `Model/MemRead` against the byte lists of the other models.
-/
namespace Vroom.Mem
open Vroom

/-- The target is what `cpu` describes. -/
structure Target.Is (t : Target) (cpu : Cpu) : Prop where
  lanes : cpu.lanes = t.lanes
  pf : cpu.pf = t.pf

theorem quotedTail_eq {p : Bytes} {rem : Nat} (hs : rem ≤ p.length) (D : Dial) : ∀ (n : Nat) (inq : Bool) (i : Nat), i ≤ rem → rem - i ≤ n →
    quotedTailM D p rem inq i = some (i + scanQuotedScalar D inq ((p.take rem).drop i)) := by
  intro n
  induction n with
  | zero =>
    intro inq i h1 h2
    rw [quotedTailM, if_neg (by omega), drop_end (by omega), scanQuotedScalar]
    congr 1; omega
  | succ n ih =>
    intro inq i h1 h2
    by_cases h : i < rem
    · obtain ⟨c, e1, e2⟩ := ld_step hs h
      rw [quotedTailM, if_pos h, e1, Option.bind_some, e2, scanQuotedScalar]
      dsimp only
      generalize (if c = D.quote then !inq else inq) = b
      by_cases hb : (!b && eofEol D c) = true
      · rw [if_pos hb, if_pos hb]; rfl
      · rw [if_neg hb, if_neg hb, ih _ _ (by omega) (by omega)]; congr 1; omega
    · rw [quotedTailM, if_neg h, drop_end h, scanQuotedScalar]
      congr 1; omega

theorem unquotedTail_eq {p : Bytes} {rem : Nat} (hs : rem ≤ p.length) (D : Dial) : ∀ (n : Nat) (i : Nat), i ≤ rem → rem - i ≤ n →
    unquotedTailM D p rem i = some (i + scanUnquotedScalar D ((p.take rem).drop i)) := by
  intro n
  induction n with
  | zero =>
    intro i h1 h2
    rw [unquotedTailM, if_neg (by omega), drop_end (by omega), scanUnquotedScalar]
    congr 1; omega
  | succ n ih =>
    intro i h1 h2
    by_cases h : i < rem
    · obtain ⟨c, e1, e2⟩ := ld_step hs h
      rw [unquotedTailM, if_pos h, e1, Option.bind_some, e2, scanUnquotedScalar]
      by_cases hb : eofEol D c = true
      · rw [if_pos hb, if_pos hb]; rfl
      · rw [if_neg hb, if_neg hb, ih _ (by omega) (by omega)]; congr 1; omega
    · rw [unquotedTailM, if_neg h, drop_end h, scanUnquotedScalar]
      congr 1; omega

theorem quoted_eq {t : Target} {cpu : Cpu} (ht : t.Is cpu) {p : Bytes} {rem : Nat} (hs : rem ≤ p.length) (D : Dial) :
    ∀ (n : Nat) (cache : U64) (nif : Bool) (total : Nat), total ≤ rem → rem - total ≤ n →
    quotedM t D p rem cache nif total = some (scanQuoted cpu D cache nif total ((p.take rem).drop total)) := by
  have hd : t.lanes ∣ 64 := ht.lanes ▸ cpu.dvd
  intro n
  induction n with
  | zero =>
    intro cache nif total h1 h2
    rw [quotedM, scanQuoted, drop_len hs, if_neg (by omega), if_neg (by omega), quotedTail_eq hs D _ _ _ h1 (Nat.le_refl _)]
    rfl
  | succ n ih =>
    intro cache nif total h1 h2
    rw [quotedM, scanQuoted, drop_len hs]
    by_cases h : rem - total > 64
    · rw [if_pos h, if_pos h]
      simp only [blockMask_eq' t hd hs (show total + 64 ≤ rem by omega), Option.bind_some, ht.lanes, ht.pf]
      generalize (blockMask t.lanes D.sep _ ||| _) &&& _ = e
      by_cases h0 : e ≠ 0#64
      · rw [if_pos h0, if_pos h0]
      · rw [if_neg h0, if_neg h0, ih _ _ _ (by omega) (by omega), List.drop_drop]
    · rw [if_neg h, if_neg h, quotedTail_eq hs D _ _ _ h1 (Nat.le_refl _)]; rfl

theorem unquoted_eq {t : Target} {cpu : Cpu} (ht : t.Is cpu) {p : Bytes} {rem : Nat} (hs : rem ≤ p.length) (D : Dial) :
    ∀ (n : Nat) (cache : U64) (total : Nat), total ≤ rem → rem - total ≤ n →
    unquotedM t D p rem cache total = some (scanUnquoted cpu D cache total ((p.take rem).drop total)) := by
  have hd : t.lanes ∣ 64 := ht.lanes ▸ cpu.dvd
  intro n
  induction n with
  | zero =>
    intro cache total h1 h2
    rw [unquotedM, scanUnquoted, drop_len hs, if_neg (by omega), if_neg (by omega), unquotedTail_eq hs D _ _ h1 (Nat.le_refl _)]
    rfl
  | succ n ih =>
    intro cache total h1 h2
    rw [unquotedM, scanUnquoted, drop_len hs]
    by_cases h : rem - total > 64
    · rw [if_pos h, if_pos h]
      simp only [blockMask_eq' t hd hs (show total + 64 ≤ rem by omega), Option.bind_some, ht.lanes]
      generalize (blockMask t.lanes D.sep _ ||| _) = e
      by_cases h0 : e ≠ 0#64
      · rw [if_pos h0, if_pos h0]
      · rw [if_neg h0, if_neg h0, ih _ _ (by omega) (by omega), List.drop_drop]
    · rw [if_neg h, if_neg h, unquotedTail_eq hs D _ _ h1 (Nat.le_refl _)]; rfl

/-- The list state of an iterator. -/
def It.abs (s : It) : SF := ⟨s.v.take s.rem, s.finished, s.cache⟩

/-- A field's bytes. -/
def View.bytes (w : View) : Bytes := w.p.take w.len

theorem emit_eq {s : It} (hs : s.rem ≤ s.v.length) (D : Dial) (pos : Nat) (needs : Bool) (cache : U64) (h : pos < s.rem) :
    ∃ s', s.emitM D pos needs cache = some (some (⟨s.v, pos, needs⟩, s')) ∧ s'.rem ≤ s.rem ∧ s'.v = s.v.drop (s.rem - s'.rem) ∧
      s.abs.emit D pos needs cache = .field ((⟨s.v, pos, needs⟩ : View).bytes) needs s'.abs := by
  have h1 : s.abs.rest[pos]? = some (s.v[pos]'(by omega)) := by
    show (s.v.take s.rem)[pos]? = _
    rw [List.getElem?_take, if_pos h, List.getElem?_eq_getElem]
  have h2 : ld s.v pos = some (s.v[pos]'(by omega)) := by unfold ld; rw [List.getElem?_eq_getElem]
  refine ⟨⟨s.v.drop (pos + 1), s.rem - (pos + 1), (s.v[pos]'(by omega)) == D.eol, cache⟩, ?_, ?_, ?_, ?_⟩
  · unfold It.emitM; rw [h2, Option.bind_some, if_neg (by omega)]
  · dsimp only; omega
  · show s.v.drop (pos + 1) = _; dsimp only; congr 1; omega
  · unfold SF.emit
    rw [h1]
    show NextRes.field ((s.v.take s.rem).take pos) needs ⟨(s.v.take s.rem).drop (pos + 1), _, cache⟩ = NextRes.field (s.v.take pos) needs ⟨(s.v.drop (pos + 1)).take (s.rem - (pos + 1)), _, cache⟩
    rw [List.take_take, List.drop_take, Nat.min_eq_left (by omega)]

theorem take_head {p : Bytes} {n : Nat} (h : 0 < n) : (p.take n).head? = p.head? := by
  cases p with
  | nil => simp
  | cons a p => obtain ⟨k, rfl⟩ : ∃ k, n = k + 1 := ⟨n - 1, by omega⟩; simp

theorem ld_zero (p : Bytes) : ld p 0 = p.head? := by unfold ld; rw [List.head?_eq_getElem?]

/-- One call: either the list iterator meets undefined behaviour, or both agree. -/
theorem next_eq {t : Target} {cpu : Cpu} (ht : t.Is cpu) (D : Dial) {s : It} (hs : s.rem ≤ s.v.length) (stale : Bool)
    (hub : s.abs.next cpu D stale ≠ .ub) :
    (s.nextM t D stale = some none ∧ s.abs.next cpu D stale = .done) ∨
    ∃ w s', s.nextM t D stale = some (some (w, s')) ∧ s'.rem ≤ s.rem ∧ s'.v = s.v.drop (s.rem - s'.rem) ∧ w.len ≤ w.p.length ∧
      s.abs.next cpu D stale = .field w.bytes w.needs s'.abs := by
  unfold It.nextM SF.next at *
  by_cases hf : s.finished = true
  · left
    rw [if_pos hf, if_pos (show s.abs.finished = true from hf)]
    exact ⟨rfl, rfl⟩
  · right
    have hf' : ¬ s.abs.finished = true := hf
    rw [if_neg hf] at *
    rw [if_neg hf'] at *
    have hfirst : ∀ n : Nat, 0 < s.rem → (if D.quote ≠ 0 ∧ s.rem > 0 then (ld s.v 0).map (· == D.quote) else some false) = some (decide (D.quote ≠ 0) && s.abs.rest.head? == some D.quote) := by
      intro _ hr
      by_cases hq : D.quote ≠ 0
      · rw [if_pos ⟨hq, hr⟩, ld_zero]
        show _ = some (_ && (s.v.take s.rem).head? == _)
        rw [take_head hr]
        cases hv : s.v with
        | nil => rw [hv] at hs; simp at hs; omega
        | cons a v => simp [hq]
      · rw [if_neg (fun h => hq h.1)]; simp [hq]
    by_cases hc : s.cache ≠ 0#64
    · have hc' : s.abs.cache ≠ 0#64 := hc
      rw [if_pos hc]
      rw [if_pos hc'] at hub ⊢
      dsimp only at hub ⊢
      have ec : s.abs.cache = s.cache := rfl
      rw [ec] at hub ⊢
      by_cases hp : s.cache.ctz.toNat + 1 ≥ 64
      · rw [if_pos hp] at hub; exact absurd rfl hub
      · rw [if_neg hp] at hub ⊢
        rw [if_neg hp]
        -- the emitted position is inside, or the list iterator would have faulted
        have hin : s.cache.ctz.toNat < s.rem := by
          by_contra hcon
          apply hub
          unfold SF.emit
          rw [List.getElem?_eq_none (l := s.abs.rest) (by show (s.v.take s.rem).length ≤ _; simp; omega)]
        rw [hfirst 0 (by omega), Option.bind_some]
        obtain ⟨s', e1, e2, e3, e4⟩ := emit_eq hs D s.cache.ctz.toNat (decide (D.quote ≠ 0) && s.abs.rest.head? == some D.quote) (s.cache >>> (s.cache.ctz.toNat + 1)) hin
        exact ⟨_, s', e1, e2, e3, by dsimp only; omega, e4⟩
    · have hc' : ¬ s.abs.cache ≠ 0#64 := hc
      rw [if_neg hc]
      rw [if_neg hc'] at hub ⊢
      by_cases hr : s.rem = 0
      · rw [if_pos hr]
        have : s.abs.rest = [] := by show s.v.take s.rem = []; rw [hr]; simp
        refine ⟨_, _, rfl, by dsimp only; omega, by dsimp only; rw [hr]; simp, by simp, ?_⟩
        rw [this]
        dsimp only
        congr 1
      · rw [if_neg hr]
        have hfirst' : (if D.quote ≠ 0 then (ld s.v 0).map (· == D.quote) else some false) = some (decide (D.quote ≠ 0) && s.abs.rest.head? == some D.quote) := by
          rw [← hfirst 0 (by omega)]
          by_cases hq : D.quote ≠ 0
          · rw [if_pos hq, if_pos ⟨hq, by omega⟩]
          · rw [if_neg hq, if_neg (fun h => hq h.1)]
        rw [hfirst', Option.bind_some]
        have hlen : s.abs.rest.length = s.rem := by show (s.v.take s.rem).length = _; simp; omega
        have hq0 : quotedM t D s.v s.rem s.cache true 0 = some (scanQuoted cpu D s.abs.cache true 0 s.abs.rest) :=
          quoted_eq ht hs D _ _ _ 0 (by omega) (Nat.le_refl _)
        have hu0 : unquotedM t D s.v s.rem s.cache 0 = some (scanUnquoted cpu D s.abs.cache 0 s.abs.rest) :=
          unquoted_eq ht hs D _ _ 0 (by omega) (Nat.le_refl _)
        rw [hq0, hu0]
        cases hrest : s.abs.rest with
        | nil => rw [hrest] at hlen; simp at hlen; omega
        | cons c tl =>
          dsimp only
          have hn : (decide (D.quote ≠ 0) && (c :: tl).head? == some D.quote) = (decide (D.quote ≠ 0) && c == D.quote) := by
            simp
          rw [hn, ← apply_ite some, Option.bind_some]
          generalize (decide (D.quote ≠ 0) && c == D.quote) = needs
          rw [← hrest, hlen]
          generalize (if needs = true then scanQuoted cpu D s.abs.cache true 0 s.abs.rest else scanUnquoted cpu D s.abs.cache 0 s.abs.rest) = r
          by_cases hge : r.1 ≥ s.rem
          · rw [if_pos hge, if_pos hge]
            refine ⟨_, _, rfl, by simp, by simp, hs, ?_⟩
            show NextRes.field (s.v.take s.rem) needs _ = NextRes.field (s.v.take s.rem) needs _
            simp [It.abs]
          · rw [if_neg hge, if_neg hge]
            obtain ⟨s', e1, e2, e3, e4⟩ := emit_eq hs D r.1 needs r.2 (by omega)
            exact ⟨_, s', e1, e2, e3, by dsimp only; omega, e4⟩

theorem collect_eq {t : Target} {cpu : Cpu} (ht : t.Is cpu) (D : Dial) : ∀ (fuel : Nat) (s : It) (stale : Bool) (out : List (Bytes × Bool)) (tail : Bytes),
    s.rem ≤ s.v.length → SF.collect cpu D fuel s.abs stale = some (out, tail) →
    ∃ ws s', It.collectM t D fuel s stale = some (ws, s') ∧ ws.map (fun w => (w.bytes, w.needs)) = out ∧ (∀ w ∈ ws, w.len ≤ w.p.length) ∧
      s'.rem ≤ s.rem ∧ s'.v = s.v.drop (s.rem - s'.rem) ∧ tail = s'.v.take s'.rem := by
  intro fuel
  induction fuel with
  | zero => intro s stale out tail _ h; simp [SF.collect] at h
  | succ fuel ih =>
    intro s stale out tail hs h
    simp only [SF.collect] at h
    have hub : s.abs.next cpu D stale ≠ .ub := by intro e; rw [e] at h; simp at h
    rcases next_eq ht D hs stale hub with ⟨e1, e2⟩ | ⟨w, s', e1, e2, e3, e4, e5⟩
    · rw [e2] at h
      simp only [Option.some.injEq, Prod.mk.injEq] at h
      refine ⟨[], s, by simp only [It.collectM, e1, Option.bind_some], ?_, by simp, Nat.le_refl _, by simp, ?_⟩
      · rw [← h.1]; rfl
      · rw [← h.2]; rfl
    · rw [e5] at h
      dsimp only at h
      rw [Option.map_eq_some_iff] at h
      obtain ⟨⟨out', tail'⟩, h1, h2⟩ := h
      simp only [Prod.mk.injEq] at h2
      have hs' : s'.rem ≤ s'.v.length := by rw [e3, List.length_drop]; omega
      obtain ⟨ws, s'', f1, f2, f3, f4, f5, f6⟩ := ih s' w.needs out' tail' hs' h1
      refine ⟨w :: ws, s'', ?_, ?_, ?_, by omega, ?_, ?_⟩
      · simp only [It.collectM, e1, Option.bind_some]
        rw [f1]; rfl
      · rw [List.map_cons, f2, ← h2.1]
      · intro x hx
        rcases List.mem_cons.1 hx with rfl | hx
        · exact e4
        · exact f3 x hx
      · rw [f5, e3, List.drop_drop]
        congr 1
        have : s''.rem ≤ s'.rem := f4
        omega
      · rw [← h2.2, f6]

theorem ldVec_eq {p : Bytes} {i n : Nat} (h : i + n ≤ p.length) : ldVec p i n = some ((p.drop i).take n) := by
  unfold ldVec; rw [if_pos h]

theorem getLast_take {p : Bytes} {n : Nat} (h0 : 0 < n) (h : n ≤ p.length) : (p.take n).getLast? = some (p[n - 1]'(by omega)) := by
  rw [List.getLast?_eq_getElem?, List.length_take, Nat.min_eq_left h, List.getElem?_take, if_pos (by omega), List.getElem?_eq_getElem]

theorem ld_some {p : Bytes} {i : Nat} (h : i < p.length) : ld p i = some p[i] := by
  unfold ld; rw [List.getElem?_eq_getElem]

theorem strip_eq {p : Bytes} {len : Nat} (h : len ≤ p.length) :
    ∃ n, stripCRM p len = some n ∧ n ≤ len ∧ p.take n = stripCR (p.take len) := by
  unfold stripCRM stripCR
  by_cases h0 : len > 0
  · rw [if_pos h0, ld_some (show len - 1 < p.length by omega), getLast_take h0 h]
    by_cases hc : p[len - 1]'(by omega) = CR
    · refine ⟨len - 1, by simp [hc], by omega, ?_⟩
      rw [if_pos (by rw [hc]), List.dropLast_eq_take, List.take_take, List.length_take]
      congr 1; omega
    · refine ⟨len, by simp [hc], Nat.le_refl _, ?_⟩
      rw [if_neg (by simpa using hc)]
  · have : len = 0 := by omega
    subst this
    exact ⟨0, by simp, by omega, by simp⟩

theorem cell_eq (nc : NullChecker) (q : UInt8) (w : View) (h : w.len ≤ w.p.length) : cellM nc q w = some (cellOf nc q w.bytes w.needs) := by
  obtain ⟨n, h1, h2, h3⟩ := strip_eq h
  unfold cellM cellOf View.bytes
  dsimp only
  rw [h1, Option.bind_some, ldVec_eq (by omega : 0 + n ≤ w.p.length), Option.bind_some, List.drop_zero, ← h3]
  by_cases hn : nc.isNull (w.p.take n) = true
  · rw [if_pos hn, if_pos hn]
  · rw [if_neg hn, if_neg hn]
    cases hw : w.needs with
    | false => rfl
    | true =>
      simp only [if_true]
      have hl : (w.p.take n).length = n := by simp; omega
      rw [hl]
      by_cases h2' : n ≥ 2
      · rw [if_pos h2', ld_zero]
        have hhead : (w.p.take n).head? = w.p.head? := take_head (by omega)
        rw [hhead, getLast_take (by omega) (by omega)]
        obtain ⟨a, ha⟩ : ∃ a, w.p.head? = some a := by
          cases hp : w.p with
          | nil => rw [hp] at hl; simp at hl; omega
          | cons a tl => exact ⟨a, rfl⟩
        rw [ha, Option.bind_some]
        by_cases hq : a = q
        · rw [if_pos hq, ld_some (show n - 1 < w.p.length by omega)]
          by_cases hq2 : w.p[n - 1]'(by omega) = q
          · rw [if_pos ⟨h2', by rw [hq], by rw [hq2]⟩, Option.map_some, Option.bind_some, if_pos (by simpa using hq2),
              ldVec_eq (by omega : 1 + (n - 2) ≤ w.p.length), Option.map_some]
            congr 3
            rw [List.drop_take, List.take_take, Nat.min_eq_left (by omega)]
          · rw [if_neg (fun hh => hq2 (by simpa using hh.2.2)), Option.map_some, Option.bind_some, if_neg (by simpa using hq2)]
        · rw [if_neg hq, if_neg (fun hh => hq (by simpa using hh.2.1)), Option.bind_some, if_neg (by simp)]
      · rw [if_neg h2', if_neg (fun hh => h2' hh.1), Option.bind_some, if_neg (by simp)]

theorem fields_eq (nc : NullChecker) (q : UInt8) (n : Nat) : ∀ (ws : List View) (cols : Cols) (idx : Nat), (∀ w ∈ ws, w.len ≤ w.p.length) →
    fieldsM nc q n cols idx ws = some ((ws.map (fun w => (w.bytes, w.needs))).foldl (fieldStep nc q n) (cols, idx)) := by
  intro ws
  induction ws with
  | nil => intro cols idx _; rfl
  | cons w ws ih =>
    intro cols idx h
    have hw := h w (by simp)
    have ih' := fun cols idx => ih cols idx (fun x hx => h x (by simp [hx]))
    simp only [fieldsM, List.map_cons, List.foldl_cons]
    by_cases hi : idx ≥ n
    · obtain ⟨k, h1, _⟩ := strip_eq hw
      rw [if_pos hi, h1, Option.bind_some, ih']
      unfold fieldStep
      rw [if_pos hi]
    · rw [if_neg hi, cell_eq nc q w hw, Option.bind_some, ih']
      congr 2
      unfold fieldStep
      rw [if_neg hi]

theorem skipBlank_eq {p : Bytes} {size : Nat} (hs : size ≤ p.length) : ∀ (n i : Nat), i ≤ size → size - i ≤ n →
    ∃ j, skipBlankM p size i = some j ∧ j ≤ size ∧ (p.take size).drop j = skipBlank ((p.take size).drop i) := by
  intro n
  induction n with
  | zero =>
    intro i h1 h2
    refine ⟨i, by rw [skipBlankM, if_neg (by omega)], h1, ?_⟩
    rw [drop_end (by omega)]; simp [skipBlank]
  | succ n ih =>
    intro i h1 h2
    by_cases h : i < size
    · obtain ⟨c, e1, e2⟩ := ld_step hs h
      rw [skipBlankM, if_pos h, e1, Option.bind_some, e2, skipBlank.eq_def]
      dsimp only
      by_cases hc : c = LF
      · rw [if_pos hc, if_pos hc]
        exact ih _ (by omega) (by omega)
      · rw [if_neg hc, if_neg hc]
        by_cases hr : c = CR
        · rw [if_pos hr, if_pos hr, peek_eq hs, Option.bind_some]
          simp only [decide_eq_true_eq]
          by_cases h' : i + 1 < size
          · obtain ⟨d, f1, f2⟩ := ld_step hs h'
            rw [f2]
            simp only [List.head?_cons, Option.some.injEq]
            by_cases hd : d = LF
            · rw [if_pos hd, if_pos hd]
              exact ih _ (by omega) (by omega)
            · rw [if_neg hd, if_neg hd, ← f2]
              exact ih _ (by omega) (by omega)
          · rw [drop_end h']
            simp only [List.head?_nil, reduceCtorEq, if_false]
            exact ⟨i + 1, by rw [skipBlankM, if_neg h'], by omega, drop_end h'⟩
        · rw [if_neg hr, if_neg hr]
          exact ⟨i, rfl, h1, e2⟩
    · refine ⟨i, by rw [skipBlankM, if_neg h], h1, ?_⟩
      rw [drop_end h]; simp [skipBlank]

end Vroom.Mem
