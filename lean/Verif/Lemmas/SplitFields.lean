import Verif.Model.SplitFields
import Verif.Lemmas.RowScan
import Mathlib.Tactic.Convert
import Mathlib.Tactic.ByContra
import Mathlib.Tactic.Tauto
/- Lemmas about the streaming field iterator. -/
namespace Vroom
open Spec

/-- Boolean form of "position k ends a field"; inclusive quote count (equal to the exclusive one at
separators different from the quote byte). -/
def endB (aware : Bool) (D : Dial) (d : Bytes) (k : Nat) : Bool :=
  (d[k]? == some D.sep || d[k]? == some D.eol) && (!aware || !oddB ((d.take (k + 1)).count D.quote))

/-- `e` is the least position satisfying `f` below `n`, or `n`. -/
def FirstAt (f : Nat → Bool) (n e : Nat) : Prop :=
  e ≤ n ∧ (e < n → f e = true) ∧ ∀ k, k < e → f k = false

theorem FirstAt.unique {f n e e'} (h : FirstAt f n e) (h' : FirstAt f n e') : e = e' := by
  obtain ⟨a, b, c⟩ := h
  obtain ⟨a', b', c'⟩ := h'
  rcases Nat.lt_trichotomy e e' with h | h | h
  · have := b (by omega); rw [c' e h] at this; simp at this
  · exact h
  · have := b' (by omega); rw [c e' h] at this; simp at this

theorem FirstAt.zero {f n} (h : f 0 = true) : FirstAt f n 0 := ⟨by omega, fun _ => h, by intro k hk; omega⟩

theorem FirstAt.succ {f : Nat → Bool} {n e} (h0 : f 0 = false) (h : FirstAt (fun k => f (1 + k)) n e) :
    FirstAt f (1 + n) (1 + e) := by
  obtain ⟨a, b, c⟩ := h
  refine ⟨by omega, fun h => b (by omega), ?_⟩
  intro k hk
  rcases k with _ | k
  · exact h0
  · rw [Nat.add_comm k 1]; exact c k (by omega)

theorem FirstAt.shift {f : Nat → Bool} {n e m} (h0 : ∀ k, k < m → f k = false)
    (h : FirstAt (fun k => f (m + k)) n e) : FirstAt f (m + n) (m + e) := by
  obtain ⟨a, b, c⟩ := h
  refine ⟨by omega, fun h => b (by omega), ?_⟩
  intro k hk
  by_cases hkm : k < m
  · exact h0 k hkm
  · have := c (k - m) (by omega)
    simpa [show m + (k - m) = k by omega] using this

theorem FirstAt.congr {f g : Nat → Bool} {n e} (h : ∀ k, f k = g k) (h' : FirstAt f n e) : FirstAt g n e := by
  have : f = g := funext h
  rwa [← this]

/-- end test started with an initial parity `ins`. -/
def endB' (ins : Bool) (D : Dial) (d : Bytes) (k : Nat) : Bool :=
  (d[k]? == some D.sep || d[k]? == some D.eol) && !(oddB ((d.take (k + 1)).count D.quote) ^^ ins)

theorem endB_true (D : Dial) (d : Bytes) (k : Nat) : endB true D d k = endB' false D d k := by
  simp [endB, endB']

theorem endB'_drop (ins : Bool) (D : Dial) (d : Bytes) (m k : Nat) :
    endB' ins D d (m + k) = endB' (oddB ((d.take m).count D.quote) ^^ ins) D (d.drop m) k := by
  unfold endB'
  rw [List.getElem?_drop, show m + k + 1 = m + (k + 1) by omega, List.take_add, List.count_append, oddB_add]
  cases oddB (List.count D.quote (d.take m)) <;> cases oddB (List.count D.quote ((d.drop m).take (k + 1))) <;>
    cases ins <;> rfl

theorem scanQuotedScalar_spec (D : Dial) (ins : Bool) (d : Bytes) :
    FirstAt (endB' ins D d) d.length (scanQuotedScalar D ins d) := by
  induction d generalizing ins with
  | nil => exact ⟨by simp [scanQuotedScalar], by simp, by simp [scanQuotedScalar]⟩
  | cons c rest ih =>
    unfold scanQuotedScalar
    have e1 : (if c = D.quote then !ins else ins) = ((c == D.quote) ^^ ins) := by
      by_cases h : c = D.quote
      · simp [h]
      · rw [if_neg h, beq_false_of_ne h]; simp
    rw [e1]
    have h0 : endB' ins D (c :: rest) 0 = (!((c == D.quote) ^^ ins) && eofEol D c) := by
      simp only [endB', eofEol, List.getElem?_cons_zero, List.take_succ_cons, List.take_zero, List.count_cons,
        List.count_nil]
      have : oddB (0 + if (c == D.quote) = true then 1 else 0) = (c == D.quote) := by
        cases c == D.quote <;> simp [oddB]
      rw [this, Bool.and_comm]; rfl
    dsimp only
    split
    · next h => exact FirstAt.zero (by rw [h0]; exact h)
    · next h =>
      rw [List.length_cons, Nat.add_comm rest.length 1]
      refine FirstAt.succ (by rw [h0]; simpa using h) ?_
      refine (ih ((c == D.quote) ^^ ins)).congr ?_
      intro k
      rw [endB'_drop]
      simp only [List.take_succ_cons, List.take_zero, List.count_cons, List.count_nil, List.drop_one, List.tail_cons]
      have : oddB (0 + if (c == D.quote) = true then 1 else 0) = (c == D.quote) := by
        cases c == D.quote <;> simp [oddB]
      rw [this]

theorem scanUnquotedScalar_spec (D : Dial) (d : Bytes) :
    FirstAt (endB false D d) d.length (scanUnquotedScalar D d) := by
  induction d with
  | nil => exact ⟨by simp [scanUnquotedScalar], by simp, by simp [scanUnquotedScalar]⟩
  | cons c rest ih =>
    unfold scanUnquotedScalar
    have h0 : endB false D (c :: rest) 0 = eofEol D c := by
      simp [endB, eofEol]
    split
    · next h => exact FirstAt.zero (by rw [h0]; exact h)
    · next h =>
      rw [List.length_cons, Nat.add_comm rest.length 1]
      refine FirstAt.succ (by rw [h0]; simpa using h) ?_
      refine ih.congr ?_
      intro k
      simp [endB, Nat.add_comm 1 k]

/-- Cache invariant: the bits are exactly the field ends among the first `w` bytes. -/
def CacheOK (f : Nat → Bool) (len : Nat) (cache : U64) : Prop :=
  ∃ w, w ≤ len ∧ w ≤ 63 ∧ ∀ k, k < 64 → cache.getLsbD k = (decide (k < w) && f k)

theorem CacheOK.zero (f : Nat → Bool) (len : Nat) : CacheOK f len 0#64 :=
  ⟨0, by omega, by omega, by simp⟩

theorem ctz_spec (x : U64) (hx : x ≠ 0#64) : x.ctz.toNat < 64 ∧ x.getLsbD x.ctz.toNat = true ∧
    ∀ k, k < x.ctz.toNat → x.getLsbD k = false := by
  have h1 := BitVec.getLsbD_true_ctz_of_ne_zero (x := x) hx
  refine ⟨?_, h1, fun k hk => BitVec.getLsbD_false_of_lt_ctz hk⟩
  by_cases h : x.ctz.toNat < 64
  · exact h
  · rw [BitVec.getLsbD_of_ge _ _ (by omega)] at h1; simp at h1

theorem CacheOK.hit {f : Nat → Bool} {len : Nat} {cache : U64} (h : CacheOK f len cache) (hc : cache ≠ 0#64) :
    cache.ctz.toNat < len ∧ cache.ctz.toNat + 1 < 64 ∧ FirstAt f len cache.ctz.toNat ∧
    CacheOK (fun k => f (cache.ctz.toNat + 1 + k)) (len - (cache.ctz.toNat + 1)) (cache >>> (cache.ctz.toNat + 1)) := by
  obtain ⟨w, h1, h2, h3⟩ := h
  obtain ⟨a, b, c⟩ := ctz_spec cache hc
  have hb := h3 _ a
  rw [b] at hb
  replace hb := hb.symm
  rw [Bool.and_eq_true, decide_eq_true_eq] at hb
  refine ⟨by omega, by omega, ⟨by omega, fun _ => hb.2, ?_⟩, w - (cache.ctz.toNat + 1), by omega, by omega, ?_⟩
  · intro k hk
    have h4 := h3 k (by omega)
    rw [c k hk] at h4
    replace h4 := h4.symm
    have : k < w := by omega
    simpa [this] using h4
  · intro k hk
    rw [BitVec.getLsbD_ushiftRight]
    by_cases hlt : cache.ctz.toNat + 1 + k < 64
    · rw [h3 _ hlt]
      congr 1
      simp only [decide_eq_decide]; omega
    · rw [BitVec.getLsbD_of_ge _ _ (by omega)]
      have : ¬ k < w - (cache.ctz.toNat + 1) := by omega
      simp [this]

/-- A block mask whose bits are the ends gives the first end and the cache. -/
theorem block_hit {f : Nat → Bool} {len : Nat} (m : U64) (hm : ∀ k, k < 64 → m.getLsbD k = f k) (hlen : 64 < len)
    (hne : m ≠ 0#64) :
    m.ctz.toNat < 64 ∧ FirstAt f len m.ctz.toNat ∧
    CacheOK (fun k => f (m.ctz.toNat + 1 + k)) (len - (m.ctz.toNat + 1))
      (if m.ctz.toNat = 63 then 0#64 else m >>> (m.ctz.toNat + 1)) := by
  obtain ⟨a, b, c⟩ := ctz_spec m hne
  refine ⟨a, ⟨by omega, fun _ => by rw [← hm _ a]; exact b, fun k hk => by rw [← hm _ (by omega)]; exact c k hk⟩, ?_⟩
  split
  · exact CacheOK.zero _ _
  · refine ⟨63 - m.ctz.toNat, by omega, by omega, ?_⟩
    intro k hk
    rw [BitVec.getLsbD_ushiftRight]
    by_cases hlt : m.ctz.toNat + 1 + k < 64
    · rw [hm _ hlt]
      have : k < 63 - m.ctz.toNat := by omega
      simp [this]
    · rw [BitVec.getLsbD_of_ge _ _ (by omega)]
      have : ¬ k < 63 - m.ctz.toNat := by omega
      simp [this]

theorem scanUnquoted_spec (cpu : Cpu) (D : Dial) (total : Nat) (d : Bytes) :
    ∃ e, (scanUnquoted cpu D 0#64 total d).1 = total + e ∧ FirstAt (endB false D d) d.length e ∧
      (e < d.length → CacheOK (fun k => endB false D d (e + 1 + k)) (d.length - (e + 1)) (scanUnquoted cpu D 0#64 total d).2)
      ∧ (e = d.length → (scanUnquoted cpu D 0#64 total d).2 = 0#64) := by
  induction h : d.length using Nat.strongRecOn generalizing d total with
  | _ n ih =>
  subst h
  rw [scanUnquoted]
  by_cases hlen : d.length > 64
  · simp only [hlen, if_true]
    have hm : ∀ k, k < 64 → (blockMask cpu.lanes D.sep (d.take 64) ||| blockMask cpu.lanes D.eol (d.take 64)).getLsbD k
        = endB false D d k := by
      intro k hk
      rw [BitVec.getLsbD_or, blockMask_bit _ cpu.dvd _ _ _ hk, blockMask_bit _ cpu.dvd _ _ _ hk]
      simp [endB, hk]
    generalize blockMask cpu.lanes D.sep (d.take 64) ||| blockMask cpu.lanes D.eol (d.take 64) = m at hm ⊢
    by_cases hne : m ≠ 0#64
    · rw [if_pos hne]
      obtain ⟨a, b, c⟩ := block_hit m hm hlen hne
      exact ⟨_, rfl, b, fun _ => c, fun h => by omega⟩
    · rw [if_neg hne]
      obtain ⟨e, h1, h2, h3, h4⟩ := ih (d.drop 64).length (by simp; omega) (total + 64) (d.drop 64) rfl
      have hl : d.length = 64 + (d.drop 64).length := by simp; omega
      have hsh : ∀ k, endB false D (d.drop 64) k = endB false D d (64 + k) := by
        intro k; simp [endB]
      refine ⟨64 + e, by rw [h1]; omega, ?_, ?_, ?_⟩
      · rw [hl]
        refine FirstAt.shift ?_ (h2.congr hsh)
        intro k hk
        rw [← hm k hk]
        exact ((eq_zero_of_bits m).1 (Decidable.not_not.1 hne)) k hk
      · intro he
        have := h3 (by omega)
        rw [show d.length - (64 + e + 1) = (d.drop 64).length - (e + 1) by omega]
        convert this using 2
        rw [hsh]; congr 1; omega
      · intro he; exact h4 (by omega)
  · rw [if_neg hlen]
    exact ⟨_, rfl, scanUnquotedScalar_spec D d, fun _ => CacheOK.zero _ _, fun _ => rfl⟩

theorem scanQuoted_spec (cpu : Cpu) (D : Dial) (ni : Bool) (total : Nat) (d : Bytes) :
    ∃ e, (scanQuoted cpu D 0#64 ni total d).1 = total + e ∧ FirstAt (endB' (!ni) D d) d.length e ∧
      (e < d.length → CacheOK (fun k => endB' (!ni) D d (e + 1 + k)) (d.length - (e + 1)) (scanQuoted cpu D 0#64 ni total d).2)
      ∧ (e = d.length → (scanQuoted cpu D 0#64 ni total d).2 = 0#64) := by
  induction h : d.length using Nat.strongRecOn generalizing d total ni with
  | _ n ih =>
  subst h
  rw [scanQuoted]
  by_cases hlen : d.length > 64
  · simp only [hlen, if_true]
    have hnq : ∀ k, k < 64 → (if ni = true then ~~~cpu.pf.run (blockMask cpu.lanes D.quote (d.take 64))
        else cpu.pf.run (blockMask cpu.lanes D.quote (d.take 64))).getLsbD k =
        !(oddB ((d.take (k + 1)).count D.quote) ^^ !ni) := by
      intro k hk
      have hp : (cpu.pf.run (blockMask cpu.lanes D.quote (d.take 64))).getLsbD k = oddB ((d.take (k + 1)).count D.quote) := by
        rw [pf_par _ _ _ hk, par_blockMask _ cpu.dvd _ _ _ hk]
      cases ni
      · simp only [Bool.false_eq_true, if_false, hp]; simp
      · simp only [if_true, BitVec.getLsbD_not, hk, decide_true, hp]; simp
    generalize (if ni = true then ~~~cpu.pf.run (blockMask cpu.lanes D.quote (d.take 64))
        else cpu.pf.run (blockMask cpu.lanes D.quote (d.take 64))) = nq at hnq ⊢
    have hm : ∀ k, k < 64 → ((blockMask cpu.lanes D.sep (d.take 64) ||| blockMask cpu.lanes D.eol (d.take 64)) &&& nq).getLsbD k
        = endB' (!ni) D d k := by
      intro k hk
      rw [BitVec.getLsbD_and, BitVec.getLsbD_or, blockMask_bit _ cpu.dvd _ _ _ hk, blockMask_bit _ cpu.dvd _ _ _ hk, hnq k hk]
      simp [endB', hk]
    generalize ((blockMask cpu.lanes D.sep (d.take 64) ||| blockMask cpu.lanes D.eol (d.take 64)) &&& nq) = m at hm ⊢
    by_cases hne : m ≠ 0#64
    · rw [if_pos hne]
      obtain ⟨a, b, c⟩ := block_hit m hm hlen hne
      exact ⟨_, rfl, b, fun _ => c, fun h => by omega⟩
    · rw [if_neg hne]
      have hni : (decide (nq &&& (1#64 <<< 63) ≠ 0#64)) = !(oddB ((d.take 64).count D.quote) ^^ !ni) := by
        rw [← hnq 63 (by omega)]
        have := one_shift_and nq 63 (by omega)
        cases hb : nq.getLsbD 63
        · rw [hb] at this; simpa using this
        · rw [hb] at this; simpa using this
      rw [hni]
      obtain ⟨e, h1, h2, h3, h4⟩ := ih (d.drop 64).length (by simp; omega)
        (!(oddB ((d.take 64).count D.quote) ^^ !ni)) (total + 64) (d.drop 64) rfl
      have hl : d.length = 64 + (d.drop 64).length := by simp; omega
      have hsh : ∀ k, endB' (!!(oddB ((d.take 64).count D.quote) ^^ !ni)) D (d.drop 64) k = endB' (!ni) D d (64 + k) := by
        intro k; rw [endB'_drop, Bool.not_not]
      refine ⟨64 + e, by rw [h1]; omega, ?_, ?_, ?_⟩
      · rw [hl]
        refine FirstAt.shift ?_ (h2.congr hsh)
        intro k hk
        rw [← hm k hk]
        exact ((eq_zero_of_bits m).1 (Decidable.not_not.1 hne)) k hk
      · intro he
        have := h3 (by omega)
        rw [show d.length - (64 + e + 1) = (d.drop 64).length - (e + 1) by omega]
        convert this using 2
        rw [hsh]; congr 1; omega
      · intro he; exact h4 (by omega)
  · rw [if_neg hlen]
    exact ⟨_, rfl, scanQuotedScalar_spec D _ d, fun _ => CacheOK.zero _ _, fun _ => rfl⟩

/-- After an end (even parity), the quote-aware ends of the tail are those of the whole. -/
theorem endB_drop (aware : Bool) (D : Dial) (d : Bytes) (e : Nat) (he : endB aware D d e = true) (k : Nat) :
    endB aware D d (e + 1 + k) = endB aware D (d.drop (e + 1)) k := by
  cases aware
  · simp [endB]
  · rw [endB_true] at he ⊢
    rw [endB_true, endB'_drop]
    have : oddB ((d.take (e + 1)).count D.quote) = false := by
      simp [endB'] at he
      exact he.2
    rw [this]; rfl

/-- Iterator invariant: the cache describes the ends of the remaining bytes, in one of the modes. -/
def SFInv (aware : Bool) (D : Dial) (s : SF) : Prop := CacheOK (endB aware D s.rest) s.rest.length s.cache

/-- One call of `next`: the scan mode is the mode of the cache when there is one, otherwise it is
quote-aware exactly when the field starts with a quote. -/
theorem next_spec (cpu : Cpu) (D : Dial) (s : SF) (stale : Bool) (hf : s.finished = false) (m : Bool)
    (hinv : SFInv m D s) :
    ∃ (aware : Bool) (e : Nat) (needs : Bool) (s' : SF),
      s.next cpu D stale = .field (s.rest.take e) needs s' ∧
      FirstAt (endB aware D s.rest) s.rest.length e ∧
      s'.rest = s.rest.drop (e + 1) ∧
      (s.cache ≠ 0#64 → aware = m) ∧
      (s.cache = 0#64 → aware = (decide (D.quote ≠ 0) && s.rest.head? == some D.quote)) ∧
      (s.rest ≠ [] → needs = (decide (D.quote ≠ 0) && s.rest.head? == some D.quote)) ∧
      s'.finished = (decide (e = s.rest.length) || s.rest[e]? == some D.eol) ∧
      SFInv aware D s' ∧ (s.cache = 0#64 → s.rest.length ≤ 64 → s'.cache = 0#64) := by
  have hdone : s.finished ≠ true := by simp [hf]
  unfold SF.next
  rw [if_neg hdone]
  by_cases hc : s.cache ≠ 0#64
  · rw [if_pos hc]
    obtain ⟨a, b, c, d⟩ := CacheOK.hit hinv hc
    dsimp only
    rw [if_neg (by omega)]
    have hget : s.rest[s.cache.ctz.toNat]? = some s.rest[s.cache.ctz.toNat] := List.getElem?_eq_getElem a
    refine ⟨m, s.cache.ctz.toNat, _, _, by unfold SF.emit; rw [hget], c, rfl, fun _ => rfl, fun h => absurd h hc,
      fun _ => rfl, ?_, ?_, fun h => absurd h hc⟩
    · rw [hget]
      have : s.cache.ctz.toNat ≠ s.rest.length := by omega
      simp [this]
    · unfold SFInv
      dsimp only
      rw [List.length_drop]
      refine (funext fun k => endB_drop m D s.rest _ (c.2.1 a) k) ▸ d
  · rw [if_neg hc]
    have hc0 : s.cache = 0#64 := Decidable.not_not.1 hc
    obtain ⟨rest, fin, cache⟩ := s
    simp only at hc0 hf hc
    subst hc0
    cases rest with
    | nil =>
      refine ⟨(decide (D.quote ≠ 0) && ([] : Bytes).head? == some D.quote), 0, stale, _, rfl, ?_, rfl, fun h => absurd rfl h,
        fun _ => rfl, fun h => absurd rfl h, ?_, ?_, fun _ _ => rfl⟩
      · exact ⟨by simp, by simp, by simp⟩
      · simp
      · exact CacheOK.zero _ _
    | cons c rest =>
      dsimp only
      have hhead : (decide (D.quote ≠ 0) && (c :: rest).head? == some D.quote) = (decide (D.quote ≠ 0) && c == D.quote) := by
        simp
      rw [hhead]
      cases hneeds : (decide (D.quote ≠ 0) && c == D.quote) with
      | true =>
        rw [if_pos rfl]
        obtain ⟨e, h1, h2, h3, h4⟩ := scanQuoted_spec cpu D true 0 (c :: rest)
        have hshort : (c :: rest).length ≤ 64 → (scanQuoted cpu D 0#64 true 0 (c :: rest)).2 = 0#64 := by
          intro h; rw [scanQuoted, if_neg (by omega)]
        generalize scanQuoted cpu D 0#64 true 0 (c :: rest) = r at h1 h3 h4 hshort
        obtain ⟨r1, r2⟩ := r
        simp only [Nat.zero_add] at h1
        subst h1
        have h2' : FirstAt (endB true D (c :: rest)) (c :: rest).length r1 := h2.congr (fun k => (endB_true D _ k).symm)
        by_cases hge : r1 ≥ (c :: rest).length
        · have he : r1 = (c :: rest).length := by have := h2.1; omega
          rw [if_pos hge]
          refine ⟨true, r1, true, _, by rw [he, List.take_length], h2', ?_, fun h => absurd rfl h, fun _ => rfl, fun _ => rfl, ?_, ?_, fun _ h => hshort h⟩
          · simp only [he]; rw [List.drop_of_length_le (by omega)]
          · simp [he]
          · unfold SFInv; dsimp only
            have h5 : r2 = 0#64 := h4 he
            rw [h5]; exact CacheOK.zero _ _
        · rw [if_neg hge]
          have hlt : r1 < (c :: rest).length := by omega
          have hget : (c :: rest)[r1]? = some (c :: rest)[r1] := List.getElem?_eq_getElem hlt
          refine ⟨true, r1, true, _, by unfold SF.emit; rw [hget], h2', rfl, fun h => absurd rfl h, fun _ => rfl, fun _ => rfl, ?_, ?_, fun _ h => hshort h⟩
          · rw [hget]; have : r1 ≠ (c :: rest).length := by omega
            simp only [this, decide_false, Bool.false_or]; simp
          · unfold SFInv
            dsimp only
            rw [List.length_drop]
            have := h3 hlt
            have hfun : (fun k => endB' (!true) D (c :: rest) (r1 + 1 + k)) = endB true D ((c :: rest).drop (r1 + 1)) := by
              funext k
              rw [← endB_drop true D (c :: rest) r1 (h2'.2.1 hlt) k, endB_true]; rfl
            rwa [hfun] at this
      | false =>
        rw [if_neg Bool.false_ne_true]
        obtain ⟨e, h1, h2, h3, h4⟩ := scanUnquoted_spec cpu D 0 (c :: rest)
        have hshort : (c :: rest).length ≤ 64 → (scanUnquoted cpu D 0#64 0 (c :: rest)).2 = 0#64 := by
          intro h; rw [scanUnquoted, if_neg (by omega)]
        generalize scanUnquoted cpu D 0#64 0 (c :: rest) = r at h1 h3 h4 hshort
        obtain ⟨r1, r2⟩ := r
        simp only [Nat.zero_add] at h1
        subst h1
        by_cases hge : r1 ≥ (c :: rest).length
        · have he : r1 = (c :: rest).length := by have := h2.1; omega
          rw [if_pos hge]
          refine ⟨false, r1, false, _, by rw [he, List.take_length], h2, ?_, fun h => absurd rfl h, fun _ => rfl, fun _ => rfl, ?_, ?_, fun _ h => hshort h⟩
          · simp only [he]; rw [List.drop_of_length_le (by omega)]
          · simp [he]
          · unfold SFInv; dsimp only
            have h5 : r2 = 0#64 := h4 he
            rw [h5]; exact CacheOK.zero _ _
        · rw [if_neg hge]
          have hlt : r1 < (c :: rest).length := by omega
          have hget : (c :: rest)[r1]? = some (c :: rest)[r1] := List.getElem?_eq_getElem hlt
          refine ⟨false, r1, false, _, by unfold SF.emit; rw [hget], h2, rfl, fun h => absurd rfl h, fun _ => rfl, fun _ => rfl, ?_, ?_, fun _ h => hshort h⟩
          · rw [hget]; have : r1 ≠ (c :: rest).length := by omega
            simp only [this, decide_false, Bool.false_or]; simp
          · unfold SFInv
            dsimp only
            rw [List.length_drop]
            have := h3 hlt
            rwa [show (fun k => endB false D (c :: rest) (r1 + 1 + k)) = endB false D ((c :: rest).drop (r1 + 1)) from
              funext (endB_drop false D (c :: rest) r1 (h2.2.1 hlt))] at this

theorem collect_finished (cpu : Cpu) (D : Dial) (fuel : Nat) (s : SF) (stale : Bool) (h : s.finished = true) :
    SF.collect cpu D (fuel + 1) s stale = some ([], s.rest) := by
  unfold SF.collect SF.next
  rw [if_pos h]

theorem joinFields_cons (sep : UInt8) (f : Bytes) (fs : List Bytes) (h : fs ≠ []) :
    joinFields sep (f :: fs) = f ++ sep :: joinFields sep fs := by
  cases fs with
  | nil => exact absurd rfl h
  | cons g gs => rfl

/-- Every row of every input is cut without loss: the iterator stops, never leaves the buffer, and
its fields joined by separators are exactly the consumed bytes. -/
theorem collect_total (cpu : Cpu) (D : Dial) (fuel : Nat) (s : SF) (stale m : Bool) (hf : s.finished = false)
    (hinv : SFInv m D s) (hfuel : s.rest.length + 2 ≤ fuel) :
    ∃ fs tail, SF.collect cpu D fuel s stale = some (fs, tail) ∧ fs ≠ [] ∧
      (s.rest = joinFields D.sep (fs.map Prod.fst) ++ D.eol :: tail ∨
        (s.rest = joinFields D.sep (fs.map Prod.fst) ∧ tail = [])) ∧
      (∀ fn ∈ fs, fn.1 ≠ [] → fn.2 = (decide (D.quote ≠ 0) && fn.1.head? == some D.quote)) := by
  induction hn : s.rest.length using Nat.strongRecOn generalizing s stale m fuel with
  | _ n ih =>
  subst hn
  obtain ⟨fuel, rfl⟩ : ∃ k, fuel = k + 1 := ⟨fuel - 1, by omega⟩
  obtain ⟨aware, e, needs, s', h1, h2, h3, _, _, h5, h6, h7, _⟩ := next_spec cpu D s stale hf m hinv
  have hflag : ∀ f, f = s.rest.take e → f ≠ [] → needs = (decide (D.quote ≠ 0) && f.head? == some D.quote) := by
    intro f hf hne
    subst hf
    have hr : s.rest ≠ [] := by intro h; rw [h] at hne; simp at hne
    rw [h5 hr]
    have he : e ≠ 0 := by intro h; rw [h] at hne; simp at hne
    congr 2
    cases hs : s.rest with
    | nil => exact absurd hs hr
    | cons c r => cases e with
      | zero => exact absurd rfl he
      | succ e => rfl
  unfold SF.collect
  rw [h1]
  dsimp only
  by_cases hfin : s'.finished = true
  · obtain ⟨fuel, rfl⟩ : ∃ k, fuel = k + 1 := ⟨fuel - 1, by omega⟩
    rw [collect_finished _ _ _ _ _ hfin]
    refine ⟨_, _, rfl, by simp, ?_, ?_⟩
    · simp only [List.map_cons, List.map_nil, joinFields]
      rw [h3]
      rw [h6, Bool.or_eq_true, decide_eq_true_eq] at hfin
      rcases hfin with hfin | hfin
      · right
        rw [hfin, List.take_length]
        refine ⟨rfl, List.drop_of_length_le (by omega)⟩
      · left
        have hget := eq_of_beq hfin
        have hlt : e < s.rest.length := by
          by_contra hge
          rw [List.getElem?_eq_none (by omega)] at hget; simp at hget
        rw [List.getElem?_eq_getElem hlt] at hget
        have := List.take_append_drop e s.rest
        rw [List.drop_eq_getElem_cons hlt, Option.some.inj hget] at this
        exact this.symm
    · intro fn hfn hne
      simp only [Option.map, List.mem_singleton] at hfn
      subst hfn
      exact hflag _ rfl hne
  · have hfin' : s'.finished = false := by simpa using hfin
    rw [hfin', Eq.comm, Bool.or_eq_false_iff, decide_eq_false_iff_not] at h6
    have hlt : e < s.rest.length := by have := h2.1; omega
    have hsep : s.rest[e] = D.sep := by
      have h8 := h2.2.1 hlt
      have h9 := h6.2
      unfold endB at h8
      rw [h9, Bool.or_false, Bool.and_eq_true] at h8
      have := eq_of_beq h8.1
      rw [List.getElem?_eq_getElem hlt] at this
      exact Option.some.inj this
    have hlen : s'.rest.length = s.rest.length - (e + 1) := by rw [h3, List.length_drop]
    obtain ⟨fs, tail, g1, g2, g3, g4⟩ := ih s'.rest.length (by omega) fuel s' needs aware hfin' h7 (by omega) rfl
    rw [g1]
    have hsplit : s.rest = s.rest.take e ++ D.sep :: s'.rest := by
      have := List.take_append_drop e s.rest
      rw [List.drop_eq_getElem_cons hlt, hsep, ← h3] at this
      exact this.symm
    refine ⟨_, _, rfl, by simp, ?_, ?_⟩
    · rw [List.map_cons, joinFields_cons _ _ _ (by simpa using g2)]
      rcases g3 with g3 | ⟨g3, g3'⟩
      · left; rw [g3] at hsplit; simpa using hsplit
      · right; rw [g3] at hsplit; exact ⟨by simpa using hsplit, g3'⟩
    · intro fn hfn hne
      simp only [List.mem_cons] at hfn
      rcases hfn with hfn | hfn
      · subst hfn; exact hflag _ rfl hne
      · exact g4 fn hfn hne

theorem field_first (aware : Bool) (D : Dial) (hD : D.Sane) (f t : Bytes)
    (h1 : ∀ k c, f[k]? = some c → c = D.sep ∨ c = D.eol → aware = true ∧ (f.take k).count D.quote % 2 = 1)
    (h2 : aware = true → f.count D.quote % 2 = 0)
    (ht : t = [] ∨ t.head? = some D.sep ∨ t.head? = some D.eol) :
    FirstAt (endB aware D (f ++ t)) (f ++ t).length f.length := by
  refine ⟨by simp, ?_, ?_⟩
  · intro hlt
    have htne : t ≠ [] := by intro h; subst h; simp at hlt
    have hget : (f ++ t)[f.length]? = t.head? := by
      rw [List.getElem?_append_right (by omega), Nat.sub_self, List.head?_eq_getElem?]
    have ht' := ht.resolve_left htne
    unfold endB
    rw [hget]
    cases t with
    | nil => exact absurd rfl htne
    | cons c t =>
      have hc : c = D.sep ∨ c = D.eol := by simpa using ht'
      have hcq : c ≠ D.quote := by
        rcases hc with h | h
        · rw [h]; exact hD.sep_quote
        · rw [h]; exact hD.eol_quote
      have hcount : ((f ++ c :: t).take (f.length + 1)).count D.quote = f.count D.quote := by
        rw [List.take_append, List.take_of_length_le (by omega), Nat.add_sub_cancel_left]
        simp [List.count_append, hcq]
      rw [hcount]
      have hor : ((c :: t).head? == some D.sep || (c :: t).head? == some D.eol) = true := by
        rcases hc with h | h <;> simp [h]
      rw [hor]
      cases aware
      · rfl
      · have := h2 rfl
        simp [oddB, this]
  · intro k hk
    have hget : (f ++ t)[k]? = f[k]? := List.getElem?_append_left hk
    unfold endB
    rw [hget]
    have hfk : f[k]? = some f[k] := List.getElem?_eq_getElem hk
    by_cases hend : f[k] = D.sep ∨ f[k] = D.eol
    · obtain ⟨ha, hodd⟩ := h1 k f[k] hfk hend
      have hcq : f[k] ≠ D.quote := by
        rcases hend with h | h
        · rw [h]; exact hD.sep_quote
        · rw [h]; exact hD.eol_quote
      have hcount : ((f ++ t).take (k + 1)).count D.quote = (f.take k).count D.quote := by
        rw [List.take_append_of_le_length (by omega), count_take_succ_of_ne _ _ _ _ hfk hcq]
      rw [hcount, ha]
      simp [oddB, hodd]
    · rw [hfk]
      have : ((some f[k] == some D.sep) || (some f[k] == some D.eol)) = false := by
        rw [not_or] at hend
        simp [hend.1, hend.2]
      rw [this]; rfl

theorem qsf_of_simple (D : Dial) (fs : List Bytes) (h : ∀ x ∈ fs, Simple D x) : QuotedSepsFirst D fs := by
  induction fs with
  | nil => trivial
  | cons a l ih => exact ⟨fun _ y hy => h y (by simp [hy]), ih (fun y hy => h y (by simp [hy]))⟩

/-- Rows made of well-formed raw fields are cut into exactly these fields. -/
theorem collect_row (cpu : Cpu) (D : Dial) (hD : D.Sane) (fs : List Bytes) (hfs : fs ≠ []) (t : Bytes)
    (ht : t = [] ∨ t.head? = some D.eol)
    (hraw : ∀ f ∈ fs, RawField D f) (fuel : Nat) (s : SF) (stale m : Bool)
    (hfin : s.finished = false) (hinv : SFInv m D s) (hrest : s.rest = joinFields D.sep fs ++ t)
    (hmode : (s.cache = 0#64 ∧ (s.rest.length ≤ 64 ∨ QuotedSepsFirst D fs)) ∨ (m = true ∧ QuotedSepsFirst D fs) ∨
      (m = false ∧ ∀ f ∈ fs, Simple D f))
    (hfuel : s.rest.length + 2 ≤ fuel) :
    ∃ out, SF.collect cpu D fuel s stale = some (out, t.drop 1) ∧ out.map Prod.fst = fs := by
  induction fs generalizing s stale m fuel with
  | nil => exact absurd rfl hfs
  | cons f fs ih =>
    obtain ⟨fuel, rfl⟩ : ∃ k, fuel = k + 1 := ⟨fuel - 1, by omega⟩
    obtain ⟨aware, e, needs, s', h1, h2, h3, h4, h4', h5, h6, h7, h8⟩ := next_spec cpu D s stale hfin m hinv
    -- the remainder after the first field
    obtain ⟨u, hu, hu'⟩ : ∃ u, s.rest = f ++ u ∧ (u = [] ∨ u.head? = some D.sep ∨ u.head? = some D.eol) := by
      cases fs with
      | nil => exact ⟨t, hrest, by tauto⟩
      | cons g gs => exact ⟨D.sep :: joinFields D.sep (g :: gs) ++ t, by rw [hrest]; simp [joinFields], by simp⟩
    have hrf := hraw f (by simp)
    -- the mode used
    have hq0 : decide (D.quote ≠ 0) = true := by simp [hD.quote_nz]
    have hplain_head : PlainField D f → (s.rest.head? == some D.quote) = false := by
      intro hp
      rw [hu]
      cases f with
      | nil =>
        rw [List.nil_append]
        rcases hu' with h | h | h
        · rw [h]; rfl
        · rw [h]; simpa using hD.sep_quote
        · rw [h]; simpa using hD.eol_quote
      | cons c f =>
        have : c ≠ D.quote := by
          intro h; apply hp.2.1; rw [h]; simp
        simpa using this
    have hquoted_head : QuotedField D f → (s.rest.head? == some D.quote) = true := by
      intro hp
      rw [hu]
      cases f with
      | nil => simp [QuotedField] at hp
      | cons c f => simpa [QuotedField] using hp.1
    have hfirst : FirstAt (endB aware D s.rest) s.rest.length f.length := by
      rw [hu]
      apply field_first aware D hD f u _ _ hu'
      · intro k c hk hc
        have hmem : c ∈ f := List.mem_of_getElem? hk
        rcases hrf with hp | hq
        · exfalso
          rcases hc with h | h
          · exact hp.1 (h ▸ hmem)
          · exact hp.2.2 (h ▸ hmem)
        · refine ⟨?_, hq.2.2 k c hk hc⟩
          by_cases hc0 : s.cache = 0#64
          · rw [h4' hc0, hq0, hquoted_head hq]; rfl
          · rw [h4 hc0]
            rcases hmode with hm | hm | hm
            · exact absurd hm.1 hc0
            · exact hm.1
            · exfalso
              have := hm.2 f (by simp)
              rcases hc with h | h
              · exact this.1 (h ▸ hmem)
              · exact this.2 (h ▸ hmem)
      · intro _
        rcases hrf with hp | hq
        · rw [List.count_eq_zero.2 hp.2.1]
        · exact hq.2.1
    have he : e = f.length := h2.unique hfirst
    subst he
    have htake : s.rest.take f.length = f := by rw [hu]; simp
    unfold SF.collect
    rw [h1]
    dsimp only
    rw [htake]
    cases fs with
    | nil =>
      have hut : s.rest = f ++ t := hrest
      have hfin' : s'.finished = true := by
        rw [h6, hut]
        rcases ht with h | h
        · subst h; simp
        · have : (f ++ t)[f.length]? = t.head? := by
            rw [List.getElem?_append_right (by omega), Nat.sub_self, List.head?_eq_getElem?]
          rw [this, h]; simp
      obtain ⟨fuel, rfl⟩ : ∃ k, fuel = k + 1 := ⟨fuel - 1, by omega⟩
      rw [collect_finished _ _ _ _ _ hfin', h3, hut]
      refine ⟨[(f, needs)], ?_, rfl⟩
      simp [List.drop_append]
    | cons g gs =>
      have hut : s.rest = f ++ D.sep :: (joinFields D.sep (g :: gs) ++ t) := by
        rw [hrest]; simp [joinFields]
      have hfin' : s'.finished = false := by
        rw [h6, hut]
        have : (f ++ D.sep :: (joinFields D.sep (g :: gs) ++ t))[f.length]? = some D.sep := by
          rw [List.getElem?_append_right (by omega), Nat.sub_self]; rfl
        rw [this]
        simp [hD.sep_eol]
      have hrest' : s'.rest = joinFields D.sep (g :: gs) ++ t := by
        rw [h3, hut]; simp [List.drop_append]
      have hlen : s.rest.length = f.length + 1 + s'.rest.length := by
        rw [hut, hrest']; simp; omega
      obtain ⟨out, g1, g2⟩ := ih (by simp) (fun x hx => hraw x (by simp [List.mem_cons.1 hx])) fuel s' needs aware hfin' h7
        hrest' (by
          by_cases hc0 : s.cache = 0#64
          · by_cases hshort : s.rest.length ≤ 64
            · exact Or.inl ⟨h8 hc0 hshort, Or.inl (by omega)⟩
            · right
              have hqs : QuotedSepsFirst D (f :: g :: gs) ∨ ∀ x ∈ f :: g :: gs, Simple D x := by
                rcases hmode with hm | hm | hm
                · exact Or.inl (hm.2.resolve_left hshort)
                · exact Or.inl hm.2
                · exact Or.inr hm.2
              have ha := h4' hc0
              rw [hq0, Bool.true_and] at ha
              rcases hqs with hqs | hqs
              · rcases hrf with hp | hq
                · right; exact ⟨by rw [ha]; exact hplain_head hp, hqs.1 hp⟩
                · left; exact ⟨by rw [ha]; exact hquoted_head hq, hqs.2⟩
              · cases hav : aware
                · right; exact ⟨rfl, fun x hx => hqs x (by simp [List.mem_cons.1 hx])⟩
                · left
                  refine ⟨rfl, ?_⟩
                  exact qsf_of_simple D _ (fun x hx => hqs x (by simp [List.mem_cons.1 hx]))
          · have ha := h4 hc0
            right
            rcases hmode with hm | hm | hm
            · exact absurd hm.1 hc0
            · left; exact ⟨by rw [ha]; exact hm.1, hm.2.2⟩
            · right; exact ⟨by rw [ha]; exact hm.1, fun x hx => hm.2 x (by simp [List.mem_cons.1 hx])⟩)
        (by omega)
      rw [g1]
      exact ⟨(f, needs) :: out, rfl, by simp [g2]⟩

end Vroom
