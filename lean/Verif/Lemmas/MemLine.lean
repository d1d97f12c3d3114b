import Verif.Model.MemLine
import Verif.Lemmas.MemRead3
import Verif.Lemmas.SplitLine
import Mathlib.Tactic.SplitIfs
/-
The checked loads of `Model/MemLine` against the byte lists of the other models.
-/
namespace Vroom.Mem
open Vroom

/-- The bytes a returned view shows. -/
def LineView.bytes (v : LineView) (m : Bytes) : Bytes := (m.drop v.off).take v.size

/-- What the list model says about a view. -/
def LineView.field (m : Bytes) (v : LineView) : FieldView := ⟨v.bytes m, v.quoted⟩

theorem piece_cons {m : Bytes} {off n : Nat} (h : off + (n + 1) ≤ m.length) :
    ∃ c, ld m off = some c ∧ (m.drop off).take (n + 1) = c :: (m.drop (off + 1)).take n := by
  have h1 : off < m.length := by omega
  refine ⟨m[off], ?_, ?_⟩
  · unfold ld; rw [List.getElem?_eq_getElem h1]
  · rw [List.drop_eq_getElem_cons h1, List.take_succ_cons]

theorem piece_snoc {m : Bytes} {off n : Nat} (h : off + (n + 1) ≤ m.length) :
    ∃ c, ld m (off + n) = some c ∧ (m.drop off).take (n + 1) = (m.drop off).take n ++ [c] := by
  have h1 : off + n < m.length := by omega
  refine ⟨m[off + n], ?_, ?_⟩
  · unfold ld; rw [List.getElem?_eq_getElem h1]
  · have h2 : n < (m.drop off).length := by simp; omega
    rw [List.take_add_one, List.getElem?_eq_getElem h2]
    simp

theorem trimFront_eq {m : Bytes} (p : UInt8 → Bool) : ∀ (size off : Nat), off + size ≤ m.length →
    ∃ k, k ≤ size ∧ trimFrontM p m off size = some (off + k, size - k) ∧ ((m.drop off).take size).dropWhile p = (m.drop (off + k)).take (size - k) := by
  intro size
  induction size with
  | zero => intro off _; exact ⟨0, Nat.le_refl _, rfl, by simp⟩
  | succ n ih =>
    intro off h
    obtain ⟨c, h1, h2⟩ := piece_cons h
    rw [trimFrontM, h1, Option.bind_some, h2, List.dropWhile_cons]
    by_cases hb : p c = true
    · obtain ⟨k, k1, k2, k3⟩ := ih (off + 1) (by omega)
      refine ⟨k + 1, by omega, ?_, ?_⟩
      · rw [if_pos hb, k2, show off + 1 + k = off + (k + 1) by omega, show n + 1 - (k + 1) = n - k by omega]
      · rw [if_pos hb, k3, show off + 1 + k = off + (k + 1) by omega, show n + 1 - (k + 1) = n - k by omega]
    · refine ⟨0, by omega, ?_, ?_⟩
      · rw [if_neg hb]; rfl
      · rw [if_neg hb]; exact h2.symm

theorem trimBack_eq {m : Bytes} (p : UInt8 → Bool) (off : Nat) : ∀ (size : Nat), off + size ≤ m.length →
    ∃ k, k ≤ size ∧ trimBackM p m off size = some k ∧ (((m.drop off).take size).reverse.dropWhile p).reverse = (m.drop off).take k := by
  intro size
  induction size with
  | zero => intro _; exact ⟨0, Nat.le_refl _, rfl, by simp⟩
  | succ n ih =>
    intro h
    obtain ⟨c, h1, h2⟩ := piece_snoc h
    rw [trimBackM, h1, Option.bind_some, h2, List.reverse_append, List.reverse_singleton, List.singleton_append, List.dropWhile_cons]
    by_cases hb : p c = true
    · obtain ⟨k, k1, k2, k3⟩ := ih (by omega)
      refine ⟨k, by omega, ?_, ?_⟩
      · rw [if_pos hb, k2]
      · rw [if_pos hb, k3]
    · refine ⟨n + 1, by omega, ?_, ?_⟩
      · rw [if_neg hb]
      · rw [if_neg hb, List.reverse_cons, List.reverse_reverse, h2]

theorem piece_length {m : Bytes} {off size : Nat} (h : off + size ≤ m.length) : ((m.drop off).take size).length = size := by
  simp; omega

theorem wrapped_eq {m : Bytes} (q : UInt8) {off size : Nat} (h : off + size ≤ m.length) :
    wrappedM m q off size = some (decide (((m.drop off).take size).length ≥ 2 ∧ ((m.drop off).take size).head? = some q ∧ ((m.drop off).take size).getLast? = some q)) := by
  unfold wrappedM
  rw [piece_length h]
  by_cases hs : size ≥ 2
  · obtain ⟨n, rfl⟩ : ∃ n, size = n + 1 := ⟨size - 1, by omega⟩
    obtain ⟨a, h1, h2⟩ := piece_cons h
    obtain ⟨b, h3, h4⟩ := piece_snoc h
    have hh : ((m.drop off).take (n + 1)).head? = some a := by rw [h2]; rfl
    have hl : ((m.drop off).take (n + 1)).getLast? = some b := by rw [h4]; simp
    rw [if_pos hs, h1, Option.bind_some, show off + (n + 1) - 1 = off + n by omega, h3, hh, hl]
    by_cases ha : a = q
    · rw [if_pos ha]
      simp [hs, ha, Bool.beq_eq_decide_eq]
    · rw [if_neg ha]
      simp [ha]
  · rw [if_neg hs]
    simp [hs]

/-- Post-processing looks only at the field and yields a part of it. -/
theorem postProcess_eq {m : Bytes} (q : UInt8) {off size : Nat} (h : off + size ≤ m.length) :
    ∃ v, postProcessM m q off size = some v ∧ v.field m = postProcess q ((m.drop off).take size) ∧ off ≤ v.off ∧ v.off + v.size ≤ off + size := by
  unfold postProcessM
  rw [wrapped_eq q h, Option.bind_some]
  generalize hw : decide (((m.drop off).take size).length ≥ 2 ∧ ((m.drop off).take size).head? = some q ∧ ((m.drop off).take size).getLast? = some q) = w
  have key : ∀ o s, off ≤ o → o + s ≤ off + size →
      ∃ v, ((trimFrontM isBlank m o s).bind fun r => (trimBackM isBlank m r.1 r.2).map fun n => (⟨r.1, n, w⟩ : LineView)) = some v ∧
        v.field m = ⟨trimBlanks ((m.drop o).take s), w⟩ ∧ off ≤ v.off ∧ v.off + v.size ≤ off + size := by
    intro o s h1 h2
    obtain ⟨k, k1, k2, k3⟩ := trimFront_eq (m := m) isBlank s o (by omega)
    obtain ⟨j, j1, j2, j3⟩ := trimBack_eq (m := m) isBlank (o + k) (s - k) (by omega)
    refine ⟨⟨o + k, j, w⟩, ?_, ?_, ?_, ?_⟩
    · rw [k2, Option.bind_some, j2]; rfl
    · unfold LineView.field LineView.bytes trimBlanks
      rw [k3, j3]
    · dsimp only; omega
    · dsimp only; omega
  cases w with
  | true =>
    simp only [if_true]
    have hw' := of_decide_eq_true hw
    have hlen := piece_length h
    have h2 : size ≥ 2 := by rw [hlen] at hw'; exact hw'.1
    obtain ⟨v, v1, v2, v3, v4⟩ := key (off + 1) (size - 2) (by omega) (by omega)
    refine ⟨v, v1, ?_, v3, v4⟩
    rw [v2, postProcess, if_pos hw']
    congr 2
    rw [List.dropLast_eq_take, List.drop_take, List.drop_drop, List.take_take]
    congr 1
    simp; omega
  | false =>
    simp only [Bool.false_eq_true, if_false]
    have hw' := of_decide_eq_false hw
    obtain ⟨v, v1, v2, v3, v4⟩ := key off size (Nat.le_refl _) (Nat.le_refl _)
    refine ⟨v, v1, ?_, v3, v4⟩
    rw [v2, postProcess, if_neg hw']

/-- The views lie in the first `size` bytes, one behind the other, with at least one byte between them. -/
def InData (size : Nat) (vs : List LineView) : Prop := vs.Pairwise (fun a b => a.off + a.size < b.off) ∧ ∀ v ∈ vs, v.off + v.size ≤ size

/-- The views end before `fs`. -/
def Before (fs : Nat) (vs : List LineView) : Prop := vs.Pairwise (fun a b => a.off + a.size < b.off) ∧ ∀ v ∈ vs, v.off + v.size < fs

theorem before_nil (fs : Nat) : Before fs [] := ⟨List.Pairwise.nil, by intro v hv; cases hv⟩

theorem snoc_pairwise {fs : Nat} {vs : List LineView} {v : LineView} (h : Before fs vs) (h1 : fs ≤ v.off) :
    (vs ++ [v]).Pairwise (fun a b => a.off + a.size < b.off) := by
  rw [List.pairwise_append]
  refine ⟨h.1, List.pairwise_singleton _ _, ?_⟩
  intro a ha b hb
  rw [List.mem_singleton.1 hb]
  have := h.2 a ha
  omega

theorem before_snoc {fs i : Nat} {vs : List LineView} {v : LineView} (h : Before fs vs) (h1 : fs ≤ v.off) (h2 : v.off + v.size ≤ i) : Before (i + 1) (vs ++ [v]) := by
  refine ⟨snoc_pairwise h h1, ?_⟩
  intro x hx
  rcases List.mem_append.1 hx with hx | hx
  · have := h.2 x hx; omega
  · rw [List.mem_singleton.1 hx]; omega

theorem inData_snoc {fs size : Nat} {vs : List LineView} {v : LineView} (h : Before fs vs) (h1 : fs ≤ v.off) (h2 : v.off + v.size ≤ size) : InData size (vs ++ [v]) := by
  refine ⟨snoc_pairwise h h1, ?_⟩
  intro x hx
  rcases List.mem_append.1 hx with hx | hx
  · have := h.2 x hx; omega
  · rw [List.mem_singleton.1 hx]; omega

theorem between_take {m : Bytes} {size a b : Nat} (h : b ≤ size) : between (m.take size) a b = (m.drop a).take (b - a) := by
  unfold between
  rw [List.drop_take, List.take_take]
  congr 1; omega

theorem lastField_eq {m : Bytes} {size : Nat} (hs : size ≤ m.length) (q : UInt8) {fs : Nat} (hf : fs ≤ size) (acc : List LineView) (ha : Before fs acc) :
    ∃ vs, lastFieldM m size q fs acc = some vs ∧ vs.map (LineView.field m) = acc.map (LineView.field m) ++ [postProcess q (dropEolEnd (between (m.take size) fs size))] ∧
      InData size vs := by
  obtain ⟨k, k1, k2, k3⟩ := trimBack_eq (m := m) isEolByte fs (size - fs) (by omega)
  obtain ⟨v, v1, v2, v3, v4⟩ := postProcess_eq (m := m) q (off := fs) (size := k) (by omega)
  refine ⟨acc ++ [v], ?_, ?_, inData_snoc ha v3 (by omega)⟩
  · unfold lastFieldM
    rw [if_pos hf, k2, Option.bind_some, v1]; rfl
  · rw [List.map_append, List.map_singleton, v2, between_take (Nat.le_refl _)]
    unfold dropEolEnd
    rw [k3]

theorem between_snoc {m : Bytes} {size a i : Nat} {c : UInt8} (ha : a ≤ i) (h : (m.take size).drop i = c :: (m.take size).drop (i + 1)) :
    between (m.take size) a i ++ [c] = between (m.take size) a (i + 1) := by
  unfold between
  rw [show i + 1 - a = (i - a) + 1 by omega, List.take_add_one]
  congr 1
  rw [List.getElem?_drop, show a + (i - a) = i by omega]
  have : ((m.take size).drop i).head? = some c := by rw [h]; rfl
  rw [List.head?_drop] at this
  rw [this]; rfl

theorem splitTail_eq {m : Bytes} {size : Nat} (hs : size ≤ m.length) (sep q : UInt8) : ∀ (n : Nat) (inq : Bool) (fs : Nat) (acc : List LineView) (i : Nat),
    fs ≤ i → i ≤ size → size - i ≤ n → Before fs acc →
    ∃ vs, splitTailM m size sep q inq fs acc i = some vs ∧
      vs.map (LineView.field m) = acc.map (LineView.field m) ++ (splitScalarGo sep q inq (between (m.take size) fs i) ((m.take size).drop i)).map (postProcess q) ∧
      InData size vs := by
  intro n
  induction n with
  | zero =>
    intro inq fs acc i h1 h2 h3 ha
    have : i = size := by omega
    subst this
    obtain ⟨vs, v1, v2, v3⟩ := lastField_eq hs q h1 acc ha
    refine ⟨vs, ?_, ?_, v3⟩
    · rw [splitTailM, if_neg (by omega), v1]
    · rw [v2, drop_end (by omega)]; simp [splitScalarGo]
  | succ n ih =>
    intro inq fs acc i h1 h2 h3 ha
    by_cases h : i < size
    · obtain ⟨c, e1, e2⟩ := ld_step hs h
      have hsn := between_snoc h1 e2
      rw [splitTailM, if_pos h, e1, Option.bind_some, e2, splitScalarGo.eq_def]
      dsimp only
      by_cases hq : c = q
      · rw [if_pos hq, if_pos hq, peek_eq hs]
        by_cases h' : i + 1 < size
        · obtain ⟨d, f1, f2⟩ := ld_step hs h'
          have hsn2 := between_snoc (a := fs) (i := i + 1) (by omega) f2
          rw [f2]
          simp only [List.head?_cons, Option.some.injEq]
          by_cases hesc : inq = true ∧ d = q
          · rw [if_pos hesc.1, Option.bind_some, decide_eq_true hesc.2, if_pos rfl, if_pos hesc]
            have hap : between (m.take size) fs i ++ [c, d] = between (m.take size) fs (i + 2) := by
              rw [← hsn2, ← hsn]; simp
            rw [hap]
            exact ih inq fs acc (i + 2) (by omega) (by omega) (by omega) ha
          · rw [if_neg hesc, hsn, ← f2]
            have hb : (if inq = true then some (decide (d = q)) else some false) = some false := by
              cases inq with
              | true => simp only [if_true]; rw [decide_eq_false (fun hd => hesc ⟨rfl, hd⟩)]
              | false => rfl
            rw [hb]
            simp only [Option.bind_some, Bool.false_eq_true, if_false]
            exact ih (!inq) fs acc (i + 1) (by omega) (by omega) (by omega) ha
        · rw [drop_end h', hsn]
          have hb : (if inq = true then some (decide (([] : Bytes).head? = some q)) else some false) = some false := by
            cases inq <;> simp
          rw [hb]
          simp only [Option.bind_some, Bool.false_eq_true, if_false]
          have := ih (!inq) fs acc (i + 1) (by omega) (by omega) (by omega) ha
          rw [drop_end h'] at this
          exact this
      · rw [if_neg hq, if_neg hq]
        cases inq with
        | true =>
          simp only [Bool.true_eq_false, if_false, Bool.not_true, Bool.false_eq_true]
          rw [hsn]
          exact ih true fs acc (i + 1) (by omega) (by omega) (by omega) ha
        | false =>
          simp only [if_true, Bool.not_false]
          by_cases hsep : c = sep
          · rw [if_pos hsep, if_pos hsep]
            obtain ⟨v, v1, v2, v3, v4⟩ := postProcess_eq (m := m) q (off := fs) (size := i - fs) (by omega)
            rw [fieldM, if_pos h1, v1, Option.bind_some]
            obtain ⟨vs, w1, w2, w3⟩ := ih false (i + 1) (acc ++ [v]) (i + 1) (Nat.le_refl _) (by omega) (by omega) (before_snoc ha v3 (by omega))
            refine ⟨vs, w1, ?_, w3⟩
            rw [w2, List.map_append, List.map_singleton, v2, List.map_cons, between_take (by omega : i ≤ size)]
            have : between (m.take size) (i + 1) (i + 1) = [] := by unfold between; simp
            rw [this]
            simp
          · rw [if_neg hsep, if_neg hsep]
            by_cases he : isEolByte c = true
            · rw [if_pos he, if_pos he]
              obtain ⟨vs, v1, v2, v3⟩ := lastField_eq hs q (show fs ≤ size by omega) acc ha
              refine ⟨vs, v1, ?_, v3⟩
              rw [v2, ← e2, List.map_singleton]
              congr 3
              unfold between
              have hcat : ((m.take size).drop fs) = ((m.take size).drop fs).take (i - fs) ++ (m.take size).drop i := by
                conv => lhs; rw [← List.take_append_drop (i - fs) ((m.take size).drop fs)]
                rw [List.drop_drop, show fs + (i - fs) = i by omega]
              rw [← hcat]
              congr 1
              apply List.take_of_length_le
              simp; omega
            · rw [if_neg he, if_neg he, hsn]
              exact ih false fs acc (i + 1) (by omega) (by omega) (by omega) ha
    · have : i = size := by omega
      subst this
      obtain ⟨vs, v1, v2, v3⟩ := lastField_eq hs q h1 acc ha
      refine ⟨vs, ?_, ?_, v3⟩
      · rw [splitTailM, if_neg (by omega), v1]
      · rw [v2, drop_end (by omega)]; simp [splitScalarGo]

theorem ld_take {m : Bytes} {size p : Nat} (hs : size ≤ m.length) (h : p < size) : ∃ c, ld m p = some c ∧ (m.take size)[p]? = some c := by
  refine ⟨m[p]'(by omega), ?_, ?_⟩
  · unfold ld; rw [List.getElem?_eq_getElem (by omega)]
  · rw [List.getElem?_take, if_pos h, List.getElem?_eq_getElem (by omega)]

theorem simdExtract_eq {m : Bytes} {size : Nat} (hs : size ≤ m.length) (q : UInt8) {pos : Nat} (hpos : pos + 64 ≤ size) :
    ∀ (n : Nat) (mask : U64) (fs : Nat) (acc : List LineView) (raw : List Bytes), mask.toNat ≤ n → fs ≤ pos + 64 →
    (∀ k, mask.getLsbD k = true → fs ≤ pos + k) → Before fs acc → acc.map (LineView.field m) = raw.map (postProcess q) →
    ∃ vs fs' b raw', simdExtractM m q pos mask fs acc = some (vs, fs', b) ∧ simdExtract (m.take size) pos mask fs raw = (raw', fs', b) ∧
      vs.map (LineView.field m) = raw'.map (postProcess q) ∧ (b = true → InData size vs) ∧ (b = false → Before fs' vs) ∧ fs' ≤ pos + 64 := by
  intro n
  induction n with
  | zero =>
    intro mask fs acc raw h1 h2 h3 h4 h5
    have h0 : mask = 0#64 := BitVec.eq_of_toNat_eq (by simpa using h1)
    subst h0
    exact ⟨acc, fs, false, raw, by rw [simdExtractM, dif_pos rfl], by rw [simdExtract, dif_pos rfl], h5, (by intro h; cases h), fun _ => h4, h2⟩
  | succ n ih =>
    intro mask fs acc raw h1 h2 h3 h4 h5
    by_cases h0 : mask = 0#64
    · subst h0
      exact ⟨acc, fs, false, raw, by rw [simdExtractM, dif_pos rfl], by rw [simdExtract, dif_pos rfl], h5, (by intro h; cases h), fun _ => h4, h2⟩
    · obtain ⟨t1, t2, t3⟩ := ctz_spec mask h0
      have hfs := h3 _ t2
      obtain ⟨c, c1, c2⟩ := ld_take (p := pos + mask.ctz.toNat) hs (by omega)
      obtain ⟨v, v1, v2, v3, v4⟩ := postProcess_eq (m := m) q (off := fs) (size := pos + mask.ctz.toNat - fs) (by omega)
      rw [simdExtractM, dif_neg h0, simdExtract, dif_neg h0]
      dsimp only
      rw [c1, Option.bind_some, fieldM, if_pos hfs, v1, Option.bind_some, c2]
      simp only [Option.some.injEq]
      have hmap : (acc ++ [v]).map (LineView.field m) = (raw ++ [between (m.take size) fs (pos + mask.ctz.toNat)]).map (postProcess q) := by
        rw [List.map_append, List.map_append, h5, List.map_singleton, List.map_singleton, v2, between_take (by omega)]
      by_cases he : c = LF ∨ c = CR
      · rw [if_pos he, if_pos he]
        exact ⟨_, _, _, _, rfl, rfl, hmap, fun _ => inData_snoc h4 v3 (by omega), (by intro h; cases h), h2⟩
      · rw [if_neg he, if_neg he]
        refine ih _ _ _ _ ?_ (by omega) ?_ (before_snoc h4 v3 (by omega)) hmap
        · have := clearLowest_lt mask h0; omega
        · intro k hk
          have hk64 : k < 64 := BitVec.lt_of_getLsbD hk
          rw [clearLowest_bit mask h0 k hk64] at hk
          simp only [Bool.and_eq_true, decide_eq_true_eq] at hk
          by_cases hlt : k < mask.ctz.toNat
          · rw [t3 k hlt] at hk; cases hk.1
          · omega

theorem splitSimdGo_eq {t : Target} {cpu : Cpu} (ht : t.Is cpu) {m : Bytes} {size : Nat} (hs : size ≤ m.length) (sep q : UInt8) :
    ∀ (n : Nat) (prev : U64) (pos fs : Nat) (acc : List LineView) (raw : List Bytes), size - pos ≤ n → fs ≤ pos → pos ≤ size →
    Before fs acc → acc.map (LineView.field m) = raw.map (postProcess q) →
    ∃ vs, splitSimdGoM t m size sep q prev pos fs acc = some vs ∧
      vs.map (LineView.field m) = (splitSimdGo cpu sep q (m.take size) prev pos fs raw).map (postProcess q) ∧ InData size vs := by
  have hl : (m.take size).length = size := by simp; omega
  have hd : t.lanes ∣ 64 := by rw [← ht.lanes]; exact cpu.dvd
  have h8 : (t.lanes + 7) / 8 ≤ 8 := by have := Nat.le_of_dvd (by omega) hd; omega
  intro n
  induction n with
  | zero =>
    intro prev pos fs acc raw h1 h2 h3 h4 h5
    obtain ⟨vs, v1, v2, v3⟩ := splitTail_eq hs sep q _ (decide (prev ≠ 0#64)) fs acc pos h2 h3 (Nat.le_refl _) h4
    refine ⟨vs, ?_, ?_, v3⟩
    · rw [splitSimdGoM, if_neg (by omega), v1]
    · rw [splitSimdGo, hl, if_neg (by omega), v2, h5, List.map_append]
  | succ n ih =>
    intro prev pos fs acc raw h1 h2 h3 h4 h5
    by_cases hp : pos + 64 ≤ size
    · rw [splitSimdGoM, if_pos hp, if_pos h8, splitSimdGo, hl, if_pos hp]
      rw [blockMask_eq' t hd hs hp, blockMask_eq' t hd hs hp, blockMask_eq' t hd hs hp, blockMask_eq' t hd hs hp]
      simp only [Option.bind_some]
      unfold splitBlockMask
      rw [ht.lanes, ht.pf]
      dsimp only
      generalize hmk : (blockMask t.lanes sep (((m.take size).drop pos).take 64) ||| (blockMask t.lanes LF (((m.take size).drop pos).take 64) |||
        blockMask t.lanes CR (((m.take size).drop pos).take 64))) &&&
        ~~~ (findQuoteMask t.pf.run (blockMask t.lanes q (((m.take size).drop pos).take 64)) prev).1 = mask
      obtain ⟨vs, fs', b, raw', e1, e2, e3, e4, e4', e5⟩ := simdExtract_eq hs q hp _ mask fs acc raw (Nat.le_refl _) (by omega) (fun k _ => by omega) h4 h5
      rw [e1, Option.bind_some, e2]
      cases b with
      | true => exact ⟨vs, rfl, e3, e4 rfl⟩
      | false =>
        simp only [Bool.false_eq_true, if_false]
        exact ih _ (pos + 64) fs' vs raw' (by omega) (by omega) (by omega) (e4' rfl) e3
    · obtain ⟨vs, v1, v2, v3⟩ := splitTail_eq hs sep q _ (decide (prev ≠ 0#64)) fs acc pos h2 h3 (Nat.le_refl _) h4
      refine ⟨vs, ?_, ?_, v3⟩
      · rw [splitSimdGoM, if_neg (by omega), v1]
      · rw [splitSimdGo, hl, if_neg (by omega), v2, h5, List.map_append]

/-- `split_fields` at the memory level is `split_fields` on the bytes of the data. -/
theorem splitFields_eq {t : Target} {cpu : Cpu} (ht : t.Is cpu) {m : Bytes} {size : Nat} (hs : size ≤ m.length) (sep q : UInt8) :
    ∃ vs, splitFieldsM t m size sep q = some vs ∧ vs.map (LineView.field m) = splitFieldsApi cpu sep q (m.take size) ∧ InData size vs := by
  have hl : (m.take size).length = size := by simp; omega
  unfold splitFieldsM splitFieldsApi
  rw [hl]
  by_cases h : size ≥ 64
  · rw [if_pos h, if_pos h, splitSimd, hl, if_neg (by omega)]
    exact splitSimdGo_eq ht hs sep q _ 0#64 0 0 [] [] (Nat.le_refl _) (Nat.le_refl _) (by omega) (before_nil _) rfl
  · rw [if_neg h, if_neg h, splitScalarM, splitScalar, hl]
    by_cases h0 : size = 0
    · rw [if_pos h0, if_pos h0]
      exact ⟨[], rfl, rfl, List.Pairwise.nil, by intro v hv; cases hv⟩
    · rw [if_neg h0, if_neg h0]
      obtain ⟨vs, v1, v2, v3⟩ := splitTail_eq hs sep q _ false 0 [] 0 (Nat.le_refl _) (by omega) (Nat.le_refl _) (before_nil _)
      refine ⟨vs, v1, ?_, v3⟩
      rw [v2, List.drop_zero]
      simp [between]

/-! ### parse_line -/

theorem push_length (cols : Cols) (idx : Nat) (x : Cell) : (Cols.push cols idx x).length = cols.length := by
  unfold Cols.push
  simp

theorem pushM_eq {cols : Cols} {idx : Nat} (x : Cell) (h : idx < cols.length) : pushM cols idx x = some (Cols.push cols idx x) := if_pos h

theorem lineGo_eq {m : Bytes} {size : Nat} (hs : size ≤ m.length) (nc : NullChecker) (sep q : UInt8) (n : Nat) : ∀ (k : Nat) (inq : Bool) (cur : Bytes) (cols : Cols) (idx i : Nat),
    size - i ≤ k → i ≤ size → cols.length = n →
    lineGoM m size nc sep q n inq cur cols idx i = some (lineGo nc sep q n inq cur cols idx ((m.take size).drop i)) ∧
    (lineGo nc sep q n inq cur cols idx ((m.take size).drop i)).1.length = n := by
  intro k
  induction k with
  | zero =>
    intro inq cur cols idx i h1 h2 h3
    rw [lineGoM, if_neg (by omega), drop_end (by omega)]
    simp [lineGo, h3]
  | succ k ih =>
    intro inq cur cols idx i h1 h2 h3
    by_cases h : i < size
    · obtain ⟨c, e1, e2⟩ := ld_step hs h
      by_cases hn : idx < n
      · rw [lineGoM, if_pos ⟨h, hn⟩, e1, Option.bind_some, e2, lineGo.eq_def]
        dsimp only
        rw [if_neg (by omega : ¬ ¬ idx < n), pushM_eq _ (by omega), peek_eq hs]
        have hpl : (Cols.push cols idx (lineCell nc cur)).length = n := by rw [push_length, h3]
        by_cases c1 : inq = false ∧ (c = LF ∨ c = CR)
        · rw [if_pos c1, if_pos c1]
          exact ⟨rfl, hpl⟩
        · rw [if_neg c1, if_neg c1]
          by_cases c2 : c = q
          · rw [if_pos c2, if_pos c2]
            by_cases h' : i + 1 < size
            · obtain ⟨d, f1, f2⟩ := ld_step hs h'
              have g1 := fun inq cur => ih inq cur cols idx (i + 1) (by omega) (by omega) h3
              have g2 := fun inq cur => ih inq cur cols idx (i + 2) (by omega) (by omega) h3
              rw [f2] at g1 ⊢
              simp only [List.head?_cons, Option.some.injEq]
              by_cases hesc : inq = true ∧ d = q
              · rw [if_pos hesc.1, Option.bind_some, decide_eq_true hesc.2, if_pos rfl, if_pos hesc]
                exact g2 _ _
              · rw [if_neg hesc]
                have hb : (if inq = true then some (decide (d = q)) else some false) = some false := by
                  cases inq with
                  | true => simp only [if_true]; rw [decide_eq_false (fun hd => hesc ⟨rfl, hd⟩)]
                  | false => rfl
                rw [hb]
                simp only [Option.bind_some, Bool.false_eq_true, if_false]
                exact g1 _ _
            · have g1 := fun inq cur => ih inq cur cols idx (i + 1) (by omega) (by omega) h3
              rw [drop_end h'] at g1 ⊢
              have hb : (if inq = true then some (decide (([] : Bytes).head? = some q)) else some false) = some false := by
                cases inq <;> simp
              rw [hb]
              simp only [Option.bind_some, Bool.false_eq_true, if_false]
              exact g1 _ _
          · rw [if_neg c2, if_neg c2]
            by_cases c3 : c = sep ∧ inq = false
            · rw [if_pos c3, if_pos c3, Option.bind_some]
              exact ih _ _ _ _ (i + 1) (by omega) (by omega) hpl
            · rw [if_neg c3, if_neg c3]
              by_cases c4 : cur = [] ∧ inq = false ∧ (c = 32 ∨ c = 9)
              · rw [if_pos c4, if_pos c4]
                exact ih _ _ _ _ (i + 1) (by omega) (by omega) h3
              · rw [if_neg c4, if_neg c4]
                exact ih _ _ _ _ (i + 1) (by omega) (by omega) h3
      · rw [lineGoM, if_neg (by omega), e2, lineGo.eq_def]
        dsimp only
        rw [if_pos hn]
        exact ⟨rfl, h3⟩
    · rw [lineGoM, if_neg (by omega), drop_end h]
      simp [lineGo, h3]

theorem fill_eq (n : Nat) : ∀ (k : Nat) (cols : Cols) (idx : Nat), n - idx ≤ k → cols.length = n → fillM n cols idx = some (fillNulls n cols idx, max idx n) := by
  intro k
  induction k with
  | zero =>
    intro cols idx h1 h2
    rw [fillM, if_neg (by omega), fillNulls, if_neg (by omega), Nat.max_eq_left (by omega)]
  | succ k ih =>
    intro cols idx h1 h2
    by_cases h : idx < n
    · have hf : fillNulls n cols idx = fillNulls n (Cols.push cols idx .null) (idx + 1) := by rw [fillNulls, if_pos h]
      rw [fillM, if_pos h, pushM_eq _ (by omega), Option.bind_some, ih _ _ (by omega) (by rw [push_length, h2]), hf]
      rw [Nat.max_eq_right (by omega), Nat.max_eq_right (by omega)]
    · rw [fillM, if_neg h, fillNulls, if_neg h, Nat.max_eq_left (by omega)]

/-- `parse_line` at the memory level is `parse_line` on the bytes of the line. -/
theorem parseLine_eq {m : Bytes} {size : Nat} (hs : size ≤ m.length) (nc : NullChecker) (sep q : UInt8) (cols : Cols) :
    parseLineM m size nc sep q cols = some (parseLine nc sep q (m.take size) cols) := by
  have hl : (m.take size).length = size := by simp; omega
  unfold parseLineM parseLine
  rw [hl]
  by_cases h : size = 0 ∨ cols.length = 0
  · rw [if_pos h, if_pos h]
  · rw [if_neg h, if_neg h]
    obtain ⟨g1, g2⟩ := lineGo_eq hs nc sep q cols.length _ false [] cols 0 0 (Nat.le_refl _) (by omega) rfl
    rw [List.drop_zero] at g1 g2
    rw [g1, Option.bind_some]
    generalize lineGo nc sep q cols.length false [] cols 0 (m.take size) = r at g2
    obtain ⟨cs, idx, cur⟩ := r
    dsimp only at g2 ⊢
    unfold lineFinish
    dsimp only
    by_cases hc : idx < cols.length ∧ cur ≠ []
    · rw [if_pos hc, if_pos hc, pushM_eq _ (by omega)]
      simp only [Option.map_some, Option.bind_some]
      rw [fill_eq _ _ _ _ (Nat.le_refl _) (by rw [push_length, g2])]
    · rw [if_neg hc, if_neg hc]
      simp only [Option.bind_some]
      rw [fill_eq _ _ _ _ (Nat.le_refl _) g2]

/-! ### find_chunks -/

theorem chunkRowCount_eq {t : Target} {cpu : Cpu} (ht : t.Is cpu) {m : Bytes} {e size : Nat} (hs : size ≤ m.length) (he : e ≤ size) (q : UInt8) : ∀ (fuel pos rows : Nat),
    chunkRowCountM t m e q fuel pos rows = chunkRowCount cpu q ((m.take size).take e) fuel pos rows := by
  have htt : (m.take size).take e = m.take e := by rw [List.take_take, Nat.min_eq_left he]
  have hl : (m.take e).length = e := by simp; omega
  rw [htt]
  intro fuel
  induction fuel with
  | zero => intro pos rows; rfl
  | succ fuel ih =>
    intro pos rows
    unfold chunkRowCountM chunkRowCount
    rw [hl]
    by_cases hp : pos < e
    · rw [if_pos hp, if_pos hp, Mem.findRowEnd_eq ht (by omega), Option.bind_some]
      dsimp only
      by_cases hg : findRowEnd cpu q (m.take e) pos > pos
      · rw [if_pos hg, if_pos hg, ih]
      · rw [if_neg hg, if_neg hg]
    · rw [if_neg hp, if_neg hp]

theorem chunkBoundaries_eq {t : Target} {cpu : Cpu} (ht : t.Is cpu) {m : Bytes} {size : Nat} (hs : size ≤ m.length) (q : UInt8) : ∀ (rs : List (Nat × Nat)), (∀ r ∈ rs, r.2 ≤ size) →
    chunkBoundariesM t m size q rs = chunkBoundaries cpu q (m.take size) rs := by
  have hl : (m.take size).length = size := by simp; omega
  intro rs
  induction rs with
  | nil => intro _; rfl
  | cons r rs ih =>
    intro h
    unfold chunkBoundariesM chunkBoundaries chunkBoundary
    rw [chunkRowCount_eq ht hs (h r (by simp)), ih (fun x hx => h x (by simp [hx])), hl]
    cases chunkRowCount cpu q ((m.take size).take r.2) (size + 1) r.1 0 <;> rfl

end Vroom.Mem
