import Verif.Lemmas.SplitFields
import Verif.Spec.WindowRow
/- The streaming field iterator cuts rows as `WindowRow` says. -/
namespace Vroom
open Spec

/-- The cache shows the ends among the first `w` bytes. -/
def CacheW (f : Nat → Bool) (len w : Nat) (cache : U64) : Prop :=
  w ≤ len ∧ w ≤ 63 ∧ ∀ k, k < 64 → cache.getLsbD k = (decide (k < w) && f k)

theorem CacheW.zero (f : Nat → Bool) (len : Nat) : CacheW f len 0 0#64 := ⟨by omega, by omega, by simp⟩

theorem CacheW.ok {f len w cache} (h : CacheW f len w cache) : CacheOK f len cache := ⟨w, h⟩

theorem CacheW.hit {f : Nat → Bool} {len w : Nat} {cache : U64} (h : CacheW f len w cache) (hc : cache ≠ 0#64) :
    cache.ctz.toNat < w ∧ CacheW (fun k => f (cache.ctz.toNat + 1 + k)) (len - (cache.ctz.toNat + 1)) (w - (cache.ctz.toNat + 1)) (cache >>> (cache.ctz.toNat + 1)) := by
  obtain ⟨h1, h2, h3⟩ := h
  obtain ⟨a, b, c⟩ := ctz_spec cache hc
  have hb := h3 _ a
  rw [b] at hb
  replace hb := hb.symm
  rw [Bool.and_eq_true, decide_eq_true_eq] at hb
  refine ⟨hb.1, by omega, by omega, ?_⟩
  intro k hk
  rw [BitVec.getLsbD_ushiftRight]
  by_cases hlt : cache.ctz.toNat + 1 + k < 64
  · rw [h3 _ hlt]
    congr 1
    simp only [decide_eq_decide]; omega
  · rw [BitVec.getLsbD_of_ge _ _ (by omega)]
    have : ¬ k < w - (cache.ctz.toNat + 1) := by omega
    simp [this]

theorem CacheW.miss {f : Nat → Bool} {len w : Nat} (h : CacheW f len w 0#64) : ∀ k, k < w → f k = false := by
  intro k hk
  have := h.2.2 k (by have := h.2.1; omega)
  simpa [hk] using this.symm

theorem block_hitW {f : Nat → Bool} {len : Nat} (m : U64) (hm : ∀ k, k < 64 → m.getLsbD k = f k) (hlen : 64 < len) (hne : m ≠ 0#64) :
    CacheW (fun k => f (m.ctz.toNat + 1 + k)) (len - (m.ctz.toNat + 1)) (63 - m.ctz.toNat) (if m.ctz.toNat = 63 then 0#64 else m >>> (m.ctz.toNat + 1)) := by
  obtain ⟨a, b, c⟩ := ctz_spec m hne
  split
  · next h => rw [h]; exact CacheW.zero _ _
  · refine ⟨by omega, by omega, ?_⟩
    intro k hk
    rw [BitVec.getLsbD_ushiftRight]
    by_cases hlt : m.ctz.toNat + 1 + k < 64
    · rw [hm _ hlt]
      have : k < 63 - m.ctz.toNat := by omega
      simp [this]
    · rw [BitVec.getLsbD_of_ge _ _ (by omega)]
      have : ¬ k < 63 - m.ctz.toNat := by omega
      simp [this]

theorem scanUnquotedW (cpu : Cpu) (D : Dial) (total : Nat) (d : Bytes) :
    ∃ e, (scanUnquoted cpu D 0#64 total d).1 = total + e ∧
      (e < d.length → CacheW (fun k => endB false D d (e + 1 + k)) (d.length - (e + 1)) (windowLeft d.length e) (scanUnquoted cpu D 0#64 total d).2) := by
  induction h : d.length using Nat.strongRecOn generalizing d total with
  | _ n ih =>
  subst h
  rw [scanUnquoted]
  by_cases hlen : d.length > 64
  · simp only [hlen, if_true]
    have hm : ∀ k, k < 64 → (blockMask cpu.lanes D.sep (d.take 64) ||| blockMask cpu.lanes D.eol (d.take 64)).getLsbD k
        = endB false D d k := by
      intro k hk
      rw [BitVec.getLsbD_or, blockMask_bit _ cpu.dvd _ _ _ hk, blockMask_bit _ cpu.dvd _ _ _ hk]
      simp [endB, hk]
    generalize blockMask cpu.lanes D.sep (d.take 64) ||| blockMask cpu.lanes D.eol (d.take 64) = m at hm ⊢
    by_cases hne : m ≠ 0#64
    · rw [if_pos hne]
      have a := (ctz_spec m hne).1
      refine ⟨_, rfl, fun _ => ?_⟩
      have := block_hitW m hm hlen hne
      rwa [show windowLeft d.length m.ctz.toNat = 63 - m.ctz.toNat by
        unfold windowLeft; rw [Nat.div_eq_of_lt a, Nat.mod_eq_of_lt a, if_pos (by omega)]]
    · rw [if_neg hne]
      obtain ⟨e, h1, h3⟩ := ih (d.drop 64).length (by simp; omega) (total + 64) (d.drop 64) rfl
      have hl : d.length = 64 + (d.drop 64).length := by simp; omega
      have hsh : ∀ k, endB false D (d.drop 64) k = endB false D d (64 + k) := by
        intro k; simp [endB]
      refine ⟨64 + e, by rw [h1]; omega, ?_⟩
      intro he
      have := h3 (by omega)
      rw [show d.length - (64 + e + 1) = (d.drop 64).length - (e + 1) by omega,
        show windowLeft d.length (64 + e) = windowLeft (d.drop 64).length e by
          unfold windowLeft; rw [hl]; congr 1
          · apply propext; constructor <;> intro <;> omega
          · omega]
      convert this using 2
      rw [hsh]; congr 1; omega
  · rw [if_neg hlen]
    refine ⟨_, rfl, fun _ => ?_⟩
    rw [show windowLeft d.length (scanUnquotedScalar D d) = 0 by unfold windowLeft; rw [if_neg (by omega)]]
    exact CacheW.zero _ _

theorem scanQuotedW (cpu : Cpu) (D : Dial) (ni : Bool) (total : Nat) (d : Bytes) :
    ∃ e, (scanQuoted cpu D 0#64 ni total d).1 = total + e ∧
      (e < d.length → CacheW (fun k => endB' (!ni) D d (e + 1 + k)) (d.length - (e + 1)) (windowLeft d.length e) (scanQuoted cpu D 0#64 ni total d).2) := by
  induction h : d.length using Nat.strongRecOn generalizing d total ni with
  | _ n ih =>
  subst h
  rw [scanQuoted]
  by_cases hlen : d.length > 64
  · simp only [hlen, if_true]
    have hnq : ∀ k, k < 64 → (if ni = true then ~~~cpu.pf.run (blockMask cpu.lanes D.quote (d.take 64))
        else cpu.pf.run (blockMask cpu.lanes D.quote (d.take 64))).getLsbD k =
        !(oddB ((d.take (k + 1)).count D.quote) ^^ !ni) := by
      intro k hk
      have hp : (cpu.pf.run (blockMask cpu.lanes D.quote (d.take 64))).getLsbD k = oddB ((d.take (k + 1)).count D.quote) := by
        rw [pf_par _ _ _ hk, par_blockMask _ cpu.dvd _ _ _ hk]
      cases ni
      · simp only [Bool.false_eq_true, if_false, hp]; simp
      · simp only [if_true, BitVec.getLsbD_not, hk, decide_true, hp]; simp
    generalize (if ni = true then ~~~cpu.pf.run (blockMask cpu.lanes D.quote (d.take 64))
        else cpu.pf.run (blockMask cpu.lanes D.quote (d.take 64))) = nq at hnq ⊢
    have hm : ∀ k, k < 64 → ((blockMask cpu.lanes D.sep (d.take 64) ||| blockMask cpu.lanes D.eol (d.take 64)) &&& nq).getLsbD k
        = endB' (!ni) D d k := by
      intro k hk
      rw [BitVec.getLsbD_and, BitVec.getLsbD_or, blockMask_bit _ cpu.dvd _ _ _ hk, blockMask_bit _ cpu.dvd _ _ _ hk, hnq k hk]
      simp [endB', hk]
    generalize ((blockMask cpu.lanes D.sep (d.take 64) ||| blockMask cpu.lanes D.eol (d.take 64)) &&& nq) = m at hm ⊢
    by_cases hne : m ≠ 0#64
    · rw [if_pos hne]
      have a := (ctz_spec m hne).1
      refine ⟨_, rfl, fun _ => ?_⟩
      have := block_hitW m hm hlen hne
      rwa [show windowLeft d.length m.ctz.toNat = 63 - m.ctz.toNat by
        unfold windowLeft; rw [Nat.div_eq_of_lt a, Nat.mod_eq_of_lt a, if_pos (by omega)]]
    · rw [if_neg hne]
      have hni : (decide (nq &&& (1#64 <<< 63) ≠ 0#64)) = !(oddB ((d.take 64).count D.quote) ^^ !ni) := by
        rw [← hnq 63 (by omega)]
        have := one_shift_and nq 63 (by omega)
        cases hb : nq.getLsbD 63
        · rw [hb] at this; simpa using this
        · rw [hb] at this; simpa using this
      rw [hni]
      obtain ⟨e, h1, h3⟩ := ih (d.drop 64).length (by simp; omega)
        (!(oddB ((d.take 64).count D.quote) ^^ !ni)) (total + 64) (d.drop 64) rfl
      have hl : d.length = 64 + (d.drop 64).length := by simp; omega
      have hsh : ∀ k, endB' (!!(oddB ((d.take 64).count D.quote) ^^ !ni)) D (d.drop 64) k = endB' (!ni) D d (64 + k) := by
        intro k; rw [endB'_drop, Bool.not_not]
      refine ⟨64 + e, by rw [h1]; omega, ?_⟩
      intro he
      have := h3 (by omega)
      rw [show d.length - (64 + e + 1) = (d.drop 64).length - (e + 1) by omega,
        show windowLeft d.length (64 + e) = windowLeft (d.drop 64).length e by
          unfold windowLeft; rw [hl]; congr 1
          · apply propext; constructor <;> intro <;> omega
          · omega]
      convert this using 2
      rw [hsh]; congr 1; omega
  · rw [if_neg hlen]
    refine ⟨_, rfl, fun _ => ?_⟩
    rw [show windowLeft d.length (scanQuotedScalar D (!ni) d) = 0 by unfold windowLeft; rw [if_neg (by omega)]]
    exact CacheW.zero _ _

/-- The two ways to say where a field ends. -/
theorem isFieldEnd_iff (aware : Bool) (D : Dial) (h1 : D.sep ≠ D.quote) (h2 : D.eol ≠ D.quote) (d : Bytes) (e : Nat) :
    IsFieldEnd aware D d e ↔ FirstAt (endB aware D d) d.length e := by
  have key : ∀ k, endB aware D d k = true ↔ (d[k]? = some D.sep ∨ d[k]? = some D.eol) ∧ (aware = true → (d.take k).count D.quote % 2 = 0) := by
    intro k
    unfold endB
    rw [Bool.and_eq_true, Bool.or_eq_true, beq_iff_eq, beq_iff_eq]
    constructor
    · rintro ⟨ha, hb⟩
      refine ⟨ha, fun hw => ?_⟩
      have : ∃ c, d[k]? = some c ∧ c ≠ D.quote := by
        rcases ha with h | h
        · exact ⟨_, h, h1⟩
        · exact ⟨_, h, h2⟩
      obtain ⟨c, hc, hcq⟩ := this
      rw [hw, count_take_succ_of_ne _ _ _ _ hc hcq] at hb
      simpa [oddB] using hb
    · rintro ⟨ha, hb⟩
      refine ⟨ha, ?_⟩
      have : ∃ c, d[k]? = some c ∧ c ≠ D.quote := by
        rcases ha with h | h
        · exact ⟨_, h, h1⟩
        · exact ⟨_, h, h2⟩
      obtain ⟨c, hc, hcq⟩ := this
      cases aware with
      | false => rfl
      | true =>
        rw [count_take_succ_of_ne _ _ _ _ hc hcq]
        have := hb rfl
        simp [oddB, this]
  unfold IsFieldEnd FirstAt
  refine and_congr Iff.rfl (and_congr ?_ ?_)
  · exact forall_congr' fun _ => (key e).symm
  · refine forall_congr' fun k => forall_congr' fun _ => ?_
    rw [← Bool.not_eq_true, key k]

theorem opens_decide (D : Marks) (d : Bytes) : (decide (D.quote ≠ 0) && d.head? == some D.quote) = decide (OpensQuote D d) := by
  rw [Bool.eq_iff_iff, decide_eq_true_eq, Bool.and_eq_true, decide_eq_true_eq, beq_iff_eq]
  rfl

theorem next_window (cpu : Cpu) (D : Dial) (hsq : D.sep ≠ D.quote) (heq : D.eol ≠ D.quote) (s : SF) (stale : Bool) (hf : s.finished = false) (w : Nat) (m : Bool)
    (hinv : CacheW (endB m D s.rest) s.rest.length w s.cache) :
    ∃ (e : Nat) (needs : Bool) (s' : SF) (w' : Nat) (m' : Bool), s.next cpu D stale = .field (s.rest.take e) needs s' ∧ FieldStep D w m s.rest e w' m' ∧
      s'.rest = s.rest.drop (e + 1) ∧ s'.finished = (decide (e = s.rest.length) || s.rest[e]? == some D.eol) ∧
      (s'.finished = false → CacheW (endB m' D s'.rest) s'.rest.length w' s'.cache) ∧ e ≤ s.rest.length := by
  obtain ⟨aware, e, needs, s', h1, h2, h3, h4, h4', h5, h6, -, -⟩ := next_spec cpu D s stale hf m hinv.ok
  have hdone : s.finished ≠ true := by simp [hf]
  by_cases hc : s.cache ≠ 0#64
  · have ha := h4 hc
    subst ha
    obtain ⟨a, b⟩ := hinv.hit hc
    obtain ⟨c1, c2, c3, -⟩ := CacheOK.hit hinv.ok hc
    have he := h2.unique c3
    subst he
    refine ⟨_, needs, s', w - (s.cache.ctz.toNat + 1), aware, h1, .shown ((isFieldEnd_iff aware D hsq heq _ _).2 h2) a, h3, h6, ?_, h2.1⟩
    intro _
    have hcache : s'.cache = s.cache >>> (s.cache.ctz.toNat + 1) := by
      unfold SF.next at h1
      rw [if_neg hdone, if_pos hc] at h1
      dsimp only at h1
      rw [if_neg (by omega)] at h1
      unfold SF.emit at h1
      rw [List.getElem?_eq_getElem c1] at h1
      simp only [NextRes.field.injEq] at h1
      rw [← h1.2.2]
    rw [hcache, h3, List.length_drop]
    have hfun : (fun k => endB aware D s.rest (s.cache.ctz.toNat + 1 + k)) = endB aware D (s.rest.drop (s.cache.ctz.toNat + 1)) :=
      funext (endB_drop aware D s.rest _ (h2.2.1 c1))
    rwa [hfun] at b
  · have hc0 : s.cache = 0#64 := Decidable.not_not.1 hc
    have ha := h4' hc0
    rw [opens_decide] at ha
    subst ha
    rw [hc0] at hinv
    have hmiss := hinv.miss
    refine ⟨e, needs, s', windowLeft s.rest.length e, _, h1, .search ?_ ((isFieldEnd_iff _ D hsq heq _ _).2 h2), h3, h6, ?_, h2.1⟩
    · intro e' he'
      rw [isFieldEnd_iff m D hsq heq] at he'
      by_contra hlt
      have hlt : e' < w := by omega
      have := he'.2.1 (by have := hinv.1; omega)
      rw [hmiss e' hlt] at this
      simp at this
    · intro hfin
      rw [hfin, Eq.comm, Bool.or_eq_false_iff, decide_eq_false_iff_not] at h6
      have hlt : e < s.rest.length := by have := h2.1; omega
      have hfun : (fun k => endB (decide (OpensQuote D s.rest)) D s.rest (e + 1 + k)) = endB (decide (OpensQuote D s.rest)) D (s.rest.drop (e + 1)) :=
        funext (endB_drop _ D s.rest _ (h2.2.1 hlt))
      rw [h3, List.length_drop, ← hfun]
      obtain ⟨rest, fin, cache⟩ := s
      simp only at *
      subst hc0
      cases rest with
      | nil => simp at hlt
      | cons c rest =>
        unfold SF.next at h1
        rw [if_neg hdone, if_neg hc] at h1
        dsimp only at h1
        have hn : (decide (D.quote ≠ 0) && c == D.quote) = decide (OpensQuote D (c :: rest)) := by
          rw [← opens_decide]; simp
        rw [hn] at h1
        cases hq : decide (OpensQuote D (c :: rest)) with
        | true =>
          rw [hq] at h1 h2
          rw [if_pos rfl] at h1
          obtain ⟨e1, g1, g2, -, -⟩ := scanQuoted_spec cpu D true 0 (c :: rest)
          obtain ⟨e2, k1, k2⟩ := scanQuotedW cpu D true 0 (c :: rest)
          have : e1 = e2 := by omega
          subst this
          have : e1 = e := (g2.congr (fun k => (endB_true D _ k).symm)).unique h2
          subst this
          have hr : s'.cache = (scanQuoted cpu D 0#64 true 0 (c :: rest)).2 := by
            have hne : ¬ (scanQuoted cpu D 0#64 true 0 (c :: rest)).1 ≥ (c :: rest).length := by omega
            rw [if_neg hne] at h1
            unfold SF.emit at h1
            rw [List.getElem?_eq_getElem (show (scanQuoted cpu D 0#64 true 0 (c :: rest)).1 < (c :: rest).length by omega)] at h1
            simp only [NextRes.field.injEq] at h1
            rw [← h1.2.2]
          rw [hr]
          have := k2 hlt
          convert this using 2
          rw [endB_true]; rfl
        | false =>
          rw [hq] at h1 h2
          rw [if_neg Bool.false_ne_true] at h1
          obtain ⟨e1, g1, g2, -, -⟩ := scanUnquoted_spec cpu D 0 (c :: rest)
          obtain ⟨e2, k1, k2⟩ := scanUnquotedW cpu D 0 (c :: rest)
          have : e1 = e2 := by omega
          subst this
          have : e1 = e := g2.unique h2
          subst this
          have hr : s'.cache = (scanUnquoted cpu D 0#64 0 (c :: rest)).2 := by
            have hne : ¬ (scanUnquoted cpu D 0#64 0 (c :: rest)).1 ≥ (c :: rest).length := by omega
            rw [if_neg hne] at h1
            unfold SF.emit at h1
            rw [List.getElem?_eq_getElem (show (scanUnquoted cpu D 0#64 0 (c :: rest)).1 < (c :: rest).length by omega)] at h1
            simp only [NextRes.field.injEq] at h1
            rw [← h1.2.2]
          rw [hr]
          exact k2 hlt

theorem collect_window (cpu : Cpu) (D : Dial) (hsq : D.sep ≠ D.quote) (heq : D.eol ≠ D.quote) (fuel : Nat) (s : SF) (stale : Bool) (hf : s.finished = false) (w : Nat) (m : Bool)
    (hinv : CacheW (endB m D s.rest) s.rest.length w s.cache) (hfuel : s.rest.length + 2 ≤ fuel) :
    ∃ out tail, SF.collect cpu D fuel s stale = some (out, tail) ∧ WindowRow D w m s.rest (out.map Prod.fst) tail := by
  induction hn : s.rest.length using Nat.strongRecOn generalizing s stale m w fuel with
  | _ n ih =>
  subst hn
  obtain ⟨fuel, rfl⟩ : ∃ k, fuel = k + 1 := ⟨fuel - 1, by omega⟩
  obtain ⟨e, needs, s', w', m', h1, h2, h3, h4, h5, h6⟩ := next_window cpu D hsq heq s stale hf w m hinv
  unfold SF.collect
  rw [h1]
  dsimp only
  by_cases hfin : s'.finished = true
  · obtain ⟨fuel, rfl⟩ : ∃ k, fuel = k + 1 := ⟨fuel - 1, by omega⟩
    rw [collect_finished _ _ _ _ _ hfin]
    refine ⟨_, _, rfl, ?_⟩
    rw [h3]
    rw [h4, Bool.or_eq_true, decide_eq_true_eq, beq_iff_eq] at hfin
    exact .last h2 hfin
  · have hfin' : s'.finished = false := by simpa using hfin
    have h4' := h4
    rw [hfin', Eq.comm, Bool.or_eq_false_iff, decide_eq_false_iff_not] at h4'
    have hlt : e < s.rest.length := by omega
    obtain ⟨out, tail, g1, g2⟩ := ih s'.rest.length (by rw [h3, List.length_drop]; omega) fuel s' needs hfin' w' m' (h5 hfin')
      (by rw [h3, List.length_drop]; omega) rfl
    rw [g1]
    refine ⟨_, _, rfl, ?_⟩
    rw [h3] at g2
    exact .more h2 hlt (by simpa using h4'.2) g2

theorem fieldEnd_unique {aware M data e e'} (h : IsFieldEnd aware M data e) (h' : IsFieldEnd aware M data e') : e = e' := by
  obtain ⟨a, b, c⟩ := h
  obtain ⟨a', b', c'⟩ := h'
  rcases Nat.lt_trichotomy e e' with h | h | h
  · exact absurd (b (by omega)) (c' e h)
  · exact h
  · exact absurd (b' (by omega)) (c e' h)

theorem fieldStep_unique {M w aware data e w' a' e2 w2 a2} (h : FieldStep M w aware data e w' a') (h' : FieldStep M w aware data e2 w2 a2) :
    e = e2 ∧ w' = w2 ∧ a' = a2 := by
  cases h with
  | shown h1 h2 =>
    cases h' with
    | shown g1 g2 => have := fieldEnd_unique h1 g1; subst this; exact ⟨rfl, rfl, rfl⟩
    | search g1 g2 => have := g1 _ h1; omega
  | search h1 h2 =>
    cases h' with
    | shown g1 g2 => have := h1 _ g1; omega
    | search g1 g2 => have := fieldEnd_unique h2 g2; subst this; exact ⟨rfl, rfl, rfl⟩

theorem windowRow_unique {M w aware data fs tail fs' tail'} (h : WindowRow M w aware data fs tail) (h' : WindowRow M w aware data fs' tail') :
    fs = fs' ∧ tail = tail' := by
  induction h generalizing fs' tail' with
  | last h1 h2 =>
    cases h' with
    | last g1 g2 => obtain ⟨rfl, -, -⟩ := fieldStep_unique h1 g1; exact ⟨rfl, rfl⟩
    | more g1 g2 g3 g4 =>
      obtain ⟨rfl, -, -⟩ := fieldStep_unique h1 g1
      rcases h2 with h2 | h2
      · omega
      · exact absurd h2 g3
  | more h1 h2 h3 h4 ih =>
    cases h' with
    | last g1 g2 =>
      obtain ⟨rfl, -, -⟩ := fieldStep_unique h1 g1
      rcases g2 with g2 | g2
      · omega
      · exact absurd g2 h3
    | more g1 g2 g3 g4 =>
      obtain ⟨rfl, rfl, rfl⟩ := fieldStep_unique h1 g1
      obtain ⟨rfl, rfl⟩ := ih g4
      exact ⟨rfl, rfl⟩

/-! ### Rows of well-formed fields -/

theorem raw_head (D : Marks) (hD : D.Sane) (f u : Bytes) (hf : RawField D f) (hu : u = [] ∨ u.head? = some D.sep ∨ u.head? = some D.eol) :
    decide (OpensQuote D (f ++ u)) = decide (OpensQuote D f) := by
  rw [← opens_decide, ← opens_decide]
  cases f with
  | cons c f => rfl
  | nil =>
    have : u.head? ≠ some D.quote := by
      rcases hu with h | h | h
      · simp [h]
      · rw [h]; simpa using hD.sep_quote
      · rw [h]; simpa using hD.eol_quote
    simp [this]

/-- Where a well-formed field ends: at its end, if quotes are respected, or if there is no separator or line end in it. -/
theorem raw_end (D : Marks) (aware : Bool) (f u : Bytes) (hf : RawField D f) (hu : u = [] ∨ u.head? = some D.sep ∨ u.head? = some D.eol)
    (ha : aware = false → Simple D f) : IsFieldEnd aware D (f ++ u) f.length := by
  refine ⟨by simp, ?_, ?_⟩
  · intro hlt
    refine ⟨?_, fun _ => ?_⟩
    · rw [List.getElem?_append_right (by omega), Nat.sub_self, ← List.head?_eq_getElem?]
      rcases hu with h | h
      · subst h; simp at hlt
      · exact h
    · rw [List.take_left']
      · rcases hf with h | h
        · rw [List.count_eq_zero_of_not_mem h.2.1]
        · exact h.2.1
      · rfl
  · intro k hk hend
    obtain ⟨h1, h2⟩ := hend
    rw [List.getElem?_append_left hk] at h1
    rw [List.take_append_of_le_length (by omega)] at h2
    have hmem : D.sep ∈ f ∨ D.eol ∈ f := by
      rcases h1 with h | h
      · exact Or.inl (List.mem_of_getElem? h)
      · exact Or.inr (List.mem_of_getElem? h)
    have hnot : ¬ PlainField D f := fun h => by
      rcases hmem with g | g
      · exact h.1 g
      · exact h.2.2 g
    cases aware with
    | false =>
      have := ha rfl
      rcases hmem with g | g
      · exact this.1 g
      · exact this.2 g
    | true =>
      have h2 := h2 rfl
      obtain ⟨-, -, h3⟩ := hf.resolve_left hnot
      rcases h1 with h | h
      · have := h3 k _ h (Or.inl rfl); omega
      · have := h3 k _ h (Or.inr rfl); omega

theorem raw_opens (D : Marks) (hD : D.Sane) (f : Bytes) (hf : RawField D f) : decide (OpensQuote D f) = false → Simple D f := by
  intro h
  rw [decide_eq_false_iff_not] at h
  rcases hf with g | g
  · exact ⟨g.1, g.2.2⟩
  · exact absurd ⟨hD.quote_nz, g.1⟩ h

theorem fieldEnd_exists (aware : Bool) (D : Marks) (h1 : D.sep ≠ D.quote) (h2 : D.eol ≠ D.quote) (d : Bytes) : ∃ e, IsFieldEnd aware D d e := by
  cases aware with
  | false => exact ⟨_, (isFieldEnd_iff _ D h1 h2 _ _).2 (scanUnquotedScalar_spec D d)⟩
  | true => exact ⟨_, (isFieldEnd_iff _ D h1 h2 _ _).2 ((scanQuotedScalar_spec D false d).congr fun k => (endB_true D d k).symm)⟩

theorem fieldStep_le {M w aware data e w' a'} (h : FieldStep M w aware data e w' a') : e ≤ data.length := by
  cases h with
  | shown h1 _ => exact h1.1
  | search _ h1 => exact h1.1

theorem not_simple_get (D : Marks) (f : Bytes) (h : ∀ (k : Nat) (c : UInt8), f[k]? = some c → c ≠ D.sep ∧ c ≠ D.eol) : Simple D f := by
  constructor
  · intro hm
    obtain ⟨k, hk⟩ := List.getElem?_of_mem hm
    exact (h k _ hk).1 rfl
  · intro hm
    obtain ⟨k, hk⟩ := List.getElem?_of_mem hm
    exact (h k _ hk).2 rfl

/-- The next field is cut off whole exactly when the window shows no end inside it. -/
theorem raw_step (D : Marks) (hD : D.Sane) (w : Nat) (aware : Bool) (f u : Bytes) (hf : RawField D f) (hu : u = [] ∨ u.head? = some D.sep ∨ u.head? = some D.eol)
    (w' : Nat) (aware' : Bool) :
    FieldStep D w aware (f ++ u) f.length w' aware' ↔
      (aware = false → ∀ k c, k < w → f[k]? = some c → c ≠ D.sep ∧ c ≠ D.eol) ∧
      (w', aware') = (if f.length < w then (w - (f.length + 1), aware) else (windowLeft (f ++ u).length f.length, decide (OpensQuote D f))) := by
  constructor
  · intro h
    generalize hn : f.length = n at h
    generalize hd : f ++ u = d at h
    cases h with
    | shown h1 h2 =>
      subst hn hd
      rw [if_pos h2]
      refine ⟨?_, rfl⟩
      intro ha k c _ hc
      have hk : k < f.length := by
        by_contra hge
        rw [List.getElem?_eq_none (by omega)] at hc; simp at hc
      have hnot := h1.2.2 k hk
      rw [ha] at hnot
      dsimp only at hnot
      rw [List.getElem?_append_left hk, hc] at hnot
      constructor
      · intro h; subst h; exact hnot ⟨Or.inl rfl, by simp⟩
      · intro h; subst h; exact hnot ⟨Or.inr rfl, by simp⟩
    | search h1 h2 =>
      subst hn hd
      have hge : ¬ f.length < w := by
        intro hlt
        obtain ⟨e, he⟩ := fieldEnd_exists aware D hD.sep_quote hD.eol_quote (f ++ u)
        have h3 := h1 e he
        have hge : f.length < e := by omega
        apply he.2.2 _ hge
        have : f.length < (f ++ u).length := by have := he.1; omega
        exact ((raw_end D true f u hf hu (by simp)).2.1 this).imp id (fun h _ => h rfl)
      rw [if_neg hge, raw_head D hD f u hf hu]
      refine ⟨?_, rfl⟩
      intro ha k c hk hc
      subst ha
      obtain ⟨e, he⟩ := fieldEnd_exists false D hD.sep_quote hD.eol_quote (f ++ u)
      have h3 := h1 e he
      have hnot := he.2.2 k (by omega)
      dsimp only at hnot
      rw [List.getElem?_append_left (by omega), hc] at hnot
      constructor
      · intro h; subst h; exact hnot ⟨Or.inl rfl, by simp⟩
      · intro h; subst h; exact hnot ⟨Or.inr rfl, by simp⟩
  · rintro ⟨h1, h2⟩
    by_cases hlt : f.length < w
    · rw [if_pos hlt, Prod.mk.injEq] at h2
      obtain ⟨rfl, rfl⟩ := h2
      refine .shown (raw_end D aware' f u hf hu fun ha => not_simple_get D f fun k c hc => h1 ha k c ?_ hc) hlt
      have : k < f.length := by
        by_contra hge
        rw [List.getElem?_eq_none (by omega)] at hc; simp at hc
      omega
    · rw [if_neg hlt, Prod.mk.injEq] at h2
      obtain ⟨rfl, rfl⟩ := h2
      rw [← raw_head D hD f u hf hu]
      refine .search ?_ (raw_end D _ f u hf hu fun ha => raw_opens D hD f hf (by rwa [raw_head D hD f u hf hu] at ha))
      intro e he
      by_contra hge
      have hlt2 : e < f.length := by omega
      cases aware with
      | true =>
        have := fieldEnd_unique he (raw_end D true f u hf hu (by simp))
        omega
      | false =>
        have := (he.2.1 (by simp; omega)).1
        rw [List.getElem?_append_left hlt2] at this
        rcases this with g | g
        · exact (h1 rfl e _ (by omega) g).1 rfl
        · exact (h1 rfl e _ (by omega) g).2 rfl

/-- A row of well-formed fields is cut into these fields exactly when it is clear. -/
theorem windowRow_iff (D : Marks) (hD : D.Sane) (fs : List Bytes) (t : Bytes) (hfs : fs ≠ []) (hraw : ∀ f ∈ fs, RawField D f) (ht : t = [] ∨ t.head? = some D.eol)
    (w : Nat) (aware : Bool) (tail : Bytes) :
    WindowRow D w aware (joinFields D.sep fs ++ t) fs tail ↔ WindowClear D w aware fs t ∧ tail = t.drop 1 := by
  induction fs generalizing w aware tail with
  | nil => exact absurd rfl hfs
  | cons f fs ih =>
    have hf := hraw f (by simp)
    have htake : ∀ (u : Bytes) e, e ≤ (f ++ u).length → (f ++ u).take e = f → e = f.length := by
      intro u e he h
      have := congrArg List.length h
      rw [List.length_take] at this
      omega
    cases fs with
    | nil =>
      have hu : t = [] ∨ t.head? = some D.sep ∨ t.head? = some D.eol := ht.imp id Or.inr
      show WindowRow D w aware (f ++ t) [f] tail ↔ _
      constructor
      · intro h
        generalize hd : f ++ t = d at h
        generalize hl : [f] = l at h
        cases h with
        | last h1 h2 =>
          subst hd
          rw [List.cons.injEq] at hl
          rw [← hl.1]
          have := htake t _ (fieldStep_le h1) hl.1.symm
          subst this
          refine ⟨⟨((raw_step D hD w aware f t hf hu _ _).1 h1).1, ?_⟩, ?_⟩
          · split <;> trivial
          · rw [List.drop_append]; simp
        | more _ _ _ h4 =>
          rw [List.cons.injEq] at hl
          rw [← hl.2] at h4
          cases h4
      · rintro ⟨h, rfl⟩
        have h1 := (raw_step D hD w aware f t hf hu _ _).2 ⟨h.1, rfl⟩
        have := WindowRow.last h1 (by
          rcases ht with h | h
          · left; simp [h]
          · right; rw [List.getElem?_append_right (by omega), Nat.sub_self, ← List.head?_eq_getElem?]; exact h)
        rw [List.take_left' rfl, List.drop_append, List.drop_of_length_le (by omega)] at this
        simpa using this
    | cons g gs =>
      rw [joinFields_cons _ _ _ (by simp), List.append_assoc, List.cons_append]
      have hu : (D.sep :: (joinFields D.sep (g :: gs) ++ t)) = [] ∨ (D.sep :: (joinFields D.sep (g :: gs) ++ t)).head? = some D.sep ∨
        (D.sep :: (joinFields D.sep (g :: gs) ++ t)).head? = some D.eol := Or.inr (Or.inl rfl)
      have ih' := ih (by simp) (fun x hx => hraw x (by simp [List.mem_cons.1 hx]))
      have hcl : WindowClear D w aware (f :: g :: gs) t ↔ (aware = false → ∀ k c, k < w → f[k]? = some c → c ≠ D.sep ∧ c ≠ D.eol) ∧
          ∀ w' aware', (w', aware') = (if f.length < w then (w - (f.length + 1), aware) else
            (windowLeft (f ++ D.sep :: (joinFields D.sep (g :: gs) ++ t)).length f.length, decide (OpensQuote D f))) → WindowClear D w' aware' (g :: gs) t := by
        rw [WindowClear]
        refine and_congr Iff.rfl ?_
        rw [joinFields_cons _ _ _ (by simp), List.append_assoc, List.cons_append]
        split
        · exact ⟨fun h w' a' he => by cases he; exact h, fun h => h _ _ rfl⟩
        · exact ⟨fun h w' a' he => by cases he; exact h, fun h => h _ _ rfl⟩
      have hdrop : (f ++ D.sep :: (joinFields D.sep (g :: gs) ++ t)).drop (f.length + 1) = joinFields D.sep (g :: gs) ++ t := by
        rw [List.drop_append]; simp
      rw [hcl]
      constructor
      · intro h
        generalize hd : (f ++ D.sep :: (joinFields D.sep (g :: gs) ++ t)) = d at h
        generalize hl : f :: g :: gs = l at h
        cases h with
        | last h1 h2 => simp at hl
        | more h1 h2 h3 h4 =>
          rw [List.cons.injEq] at hl
          obtain ⟨hl1, hl2⟩ := hl
          subst hl2
          subst hd
          have := htake _ _ (fieldStep_le h1) hl1.symm
          subst this
          obtain ⟨k1, k2⟩ := (raw_step D hD w aware f _ hf hu _ _).1 h1
          rw [hdrop] at h4
          obtain ⟨k3, k4⟩ := (ih' _ _ _).1 h4
          refine ⟨⟨k1, ?_⟩, k4⟩
          intro w' a' he
          rw [← k2] at he
          cases he
          exact k3
      · rintro ⟨⟨h1, h2⟩, h3⟩
        obtain ⟨⟨w', a'⟩, hp⟩ : ∃ p, p = (if f.length < w then (w - (f.length + 1), aware) else
            (windowLeft (f ++ D.sep :: (joinFields D.sep (g :: gs) ++ t)).length f.length, decide (OpensQuote D f))) := ⟨_, rfl⟩
        have k1 := (raw_step D hD w aware f _ hf hu w' a').2 ⟨h1, hp⟩
        have k2 := (ih' w' a' tail).2 ⟨h2 w' a' hp, h3⟩
        have := WindowRow.more k1 (by simp) (by
          rw [List.getElem?_append_right (by omega), Nat.sub_self]
          simpa using hD.sep_eol) (by rw [hdrop]; exact k2)
        rwa [List.take_left' rfl] at this

end Vroom
