import Verif.Model.MemScan
import Verif.Lemmas.SplitFields
import Mathlib.Tactic.SplitIfs
/-
The checked loads of `Model/MemScan` against the byte lists of the other models.
-/
namespace Vroom.Mem
open Vroom

theorem ld_step {m : Bytes} {size i : Nat} (hs : size ≤ m.length) (h : i < size) :
    ∃ c, ld m i = some c ∧ (m.take size).drop i = c :: (m.take size).drop (i + 1) := by
  have h1 : i < (m.take size).length := by simp; omega
  refine ⟨(m.take size)[i], ?_, List.drop_eq_getElem_cons h1⟩
  unfold ld
  rw [List.getElem?_eq_getElem (by omega : i < m.length), List.getElem_take]

theorem drop_end {m : Bytes} {size i : Nat} (h : ¬ i < size) : (m.take size).drop i = [] := by
  apply List.drop_eq_nil_of_le; simp; omega

theorem peek_eq {m : Bytes} {size : Nat} (hs : size ≤ m.length) (j : Nat) (c : UInt8) :
    peekEq m size j c = some (decide (((m.take size).drop j).head? = some c)) := by
  unfold peekEq
  by_cases h : j < size
  · obtain ⟨d, h1, h2⟩ := ld_step hs h
    rw [if_pos h, h1, h2]
    simp [Bool.beq_eq_decide_eq, Bool.eq_iff_iff]
  · rw [if_neg h, drop_end h]; simp

theorem storeMask_shift {m : Bytes} {N base k : Nat} (c : UInt8) (b : Nat) (hk : k * N + N ≤ 64) :
    storeMaskByte N c ((m.drop (base + k * N)).take N) 0 b = storeMaskByte N c ((m.drop base).take 64) (k * N) b := by
  unfold storeMaskByte
  have : ∀ (acc : U64) (j : Nat), (if 8 * b + j < N ∧ ((m.drop (base + k * N)).take N)[0 + (8 * b + j)]? = some c then acc ||| (1#64 <<< j) else acc) =
      (if 8 * b + j < N ∧ ((m.drop base).take 64)[k * N + (8 * b + j)]? = some c then acc ||| (1#64 <<< j) else acc) := by
    intro acc j
    by_cases hj : 8 * b + j < N
    · have : ((m.drop (base + k * N)).take N)[0 + (8 * b + j)]? = ((m.drop base).take 64)[k * N + (8 * b + j)]? := by
        rw [List.getElem?_take, List.getElem?_take, if_pos (by omega), if_pos (by omega), List.getElem?_drop, List.getElem?_drop]
        congr 1; omega
      rw [this]
    · rw [if_neg (fun h => hj h.1), if_neg (fun h => hj h.1)]
  congr 1
  funext acc j
  exact this acc j

theorem maskBytes_eq {m : Bytes} {N base k : Nat} (c : UInt8) (acc : U64) (hk : k * N + N ≤ 64) :
    maskBytes N c ((m.drop (base + k * N)).take N) (k * N) acc =
      (List.range ((N + 7) / 8)).foldl (fun acc b =>
        if k * N + b * 8 < 64 then acc ||| (storeMaskByte N c ((m.drop base).take 64) (k * N) b <<< (k * N + b * 8)) else acc) acc := by
  unfold maskBytes
  congr 1
  funext acc b
  rw [storeMask_shift c b hk]

theorem blockMaskFrom_eq {m : Bytes} {N base : Nat} (hN : 0 < N) (c : UInt8) {K : Nat} (hK : N * K = 64) (hb : base + 64 ≤ m.length) :
    ∀ (r k : Nat) (acc : U64), k + r = K →
    blockMaskFrom m N hN c base (k * N) acc = some ((List.range' k r).foldl (fun acc k =>
      (List.range ((N + 7) / 8)).foldl (fun acc b =>
        if k * N + b * 8 < 64 then acc ||| (storeMaskByte N c ((m.drop base).take 64) (k * N) b <<< (k * N + b * 8)) else acc) acc) acc) := by
  intro r
  induction r with
  | zero =>
    intro k acc hk
    rw [blockMaskFrom, if_neg]
    · rfl
    · have : k = K := by omega
      rw [this, Nat.mul_comm]; omega
  | succ r ih =>
    intro k acc hk
    have h1 : (k + 1) * N ≤ 64 := by
      rw [← hK, Nat.mul_comm N K]; exact Nat.mul_le_mul_right N (by omega)
    have h2 : k * N + N ≤ 64 := by rw [← Nat.succ_mul]; exact h1
    rw [blockMaskFrom, if_pos (by omega)]
    unfold ldVec
    rw [if_pos (by omega), Option.bind_some, maskBytes_eq c acc h2, ← Nat.succ_mul, ih (k + 1) _ (by omega)]
    rfl

/-- With lanes dividing 64 and 64 bytes in the allocation, the vector loads stay inside and give the mask of the block. -/
theorem blockMask_eq (t : Target) (hd : t.lanes ∣ 64) {m : Bytes} {base : Nat} (hb : base + 64 ≤ m.length) (c : UInt8) :
    blockMaskM t m base c = some (blockMask t.lanes c ((m.drop base).take 64)) := by
  obtain ⟨K, hK⟩ := hd
  have h := blockMaskFrom_eq (m := m) t.pos c hK.symm hb K 0 0#64 (by omega)
  rw [Nat.zero_mul] at h
  unfold blockMaskM blockMask
  rw [h]
  have : 64 / t.lanes = K := by rw [hK, Nat.mul_div_cancel_left _ t.pos]
  rw [this, List.range_eq_range' (n := K)]

theorem block_of_take {m : Bytes} {size off : Nat} (h : off + 64 ≤ size) :
    (m.drop off).take 64 = ((m.take size).drop off).take 64 := by
  rw [List.drop_take, List.take_take, Nat.min_eq_left (by omega)]

theorem blockMask_eq' (t : Target) (hd : t.lanes ∣ 64) {m : Bytes} {size off : Nat} (hs : size ≤ m.length) (h : off + 64 ≤ size) (c : UInt8) :
    blockMaskM t m off c = some (blockMask t.lanes c (((m.take size).drop off).take 64)) := by
  rw [blockMask_eq t hd (by omega), block_of_take h]

/-- One round of a scalar scan: the byte, the rest, and the look at the byte after it. -/
theorem countScalar_eq {m : Bytes} {size : Nat} (hs : size ≤ m.length) (q : UInt8) : ∀ (n rows last : Nat) (inq : Bool) (i : Nat), size - i ≤ n →
    countRowsScalarM m size q rows last inq i = some (countRowsScalarGo q rows last inq i ((m.take size).drop i)) := by
  intro n
  induction n with
  | zero =>
    intro rows last inq i hi
    rw [countRowsScalarM, if_neg (by omega), drop_end (by omega), countRowsScalarGo]
  | succ n ih =>
    intro rows last inq i hi
    by_cases h : i < size
    · obtain ⟨c, h1, h2⟩ := ld_step hs h
      rw [countRowsScalarM, if_pos h, h1, Option.bind_some, h2, countRowsScalarGo]
      simp only [peek_eq hs, List.drop_drop]
      have e1 := fun rows last inq => ih rows last inq (i + 1) (by omega)
      have e2 := fun rows last inq => ih rows last inq (i + 2) (by omega)
      simp only [e1, e2]
      generalize ((m.take size).drop (i + 1)).head? = hd
      cases inq <;> split_ifs <;> simp_all
    · rw [countRowsScalarM, if_neg h, drop_end h, countRowsScalarGo]

theorem analyzeTail_eq {m : Bytes} {size : Nat} (hs : size ≤ m.length) (q : UInt8) : ∀ (n rows last : Nat) (qs : U64) (i : Nat), size - i ≤ n →
    analyzeTailM m size q rows last qs i = some (analyzeTail q rows last qs i ((m.take size).drop i)) := by
  intro n
  induction n with
  | zero =>
    intro rows last qs i hi
    rw [analyzeTailM, if_neg (by omega), drop_end (by omega), analyzeTail]
  | succ n ih =>
    intro rows last qs i hi
    by_cases h : i < size
    · obtain ⟨c, h1, h2⟩ := ld_step hs h
      rw [analyzeTailM, if_pos h, h1, Option.bind_some, h2, analyzeTail]
      simp only [peek_eq hs, List.drop_drop]
      have e1 := fun rows last qs => ih rows last qs (i + 1) (by omega)
      have e2 := fun rows last qs => ih rows last qs (i + 2) (by omega)
      simp only [e1, e2]
      generalize ((m.take size).drop (i + 1)).head? = hd
      split_ifs <;> simp_all
    · rw [analyzeTailM, if_neg h, drop_end h, analyzeTail]

theorem dualTail_eq {m : Bytes} {size : Nat} (hs : size ≤ m.length) (q : UInt8) : ∀ (n : Nat) (s : DualStats) (par : Bool) (i : Nat), size - i ≤ n →
    dualTailM m size q s par i = some (dualTail q s par i ((m.take size).drop i)) := by
  intro n
  induction n with
  | zero =>
    intro s par i hi
    rw [dualTailM, if_neg (by omega), drop_end (by omega), dualTail]
  | succ n ih =>
    intro s par i hi
    by_cases h : i < size
    · obtain ⟨c, h1, h2⟩ := ld_step hs h
      rw [dualTailM, if_pos h, h1, Option.bind_some, h2, dualTail]
      simp only [peek_eq hs]
      have e1 := fun s par => ih s par (i + 1) (by omega)
      simp only [e1]
      generalize ((m.take size).drop (i + 1)).head? = hd
      split_ifs <;> simp_all
    · rw [dualTailM, if_neg h, drop_end h, dualTail]

theorem head_lt {m : Bytes} {size j : Nat} {c : UInt8} (h : ((m.take size).drop j).head? = some c) : j < size := by
  by_cases hj : j < size
  · exact hj
  · rw [drop_end hj] at h; simp at h

theorem rowEndScalar_eq {m : Bytes} {size : Nat} (hs : size ≤ m.length) (q : UInt8) : ∀ (n : Nat) (inq : Bool) (i : Nat), i ≤ size → size - i ≤ n →
    findRowEndScalarM m size q inq i = some (findRowEndGo q inq i ((m.take size).drop i)) := by
  intro n
  induction n with
  | zero =>
    intro inq i hle hi
    rw [findRowEndScalarM, if_neg (by omega), drop_end (by omega), findRowEndGo]
    congr 1; omega
  | succ n ih =>
    intro inq i hle hi
    by_cases h : i < size
    · obtain ⟨c, h1, h2⟩ := ld_step hs h
      rw [findRowEndScalarM, if_pos h, h1, Option.bind_some, h2, findRowEndGo]
      simp only [peek_eq hs, List.drop_drop]
      have e1 := fun inq => ih inq (i + 1) (by omega) (by omega)
      have e2 := fun (hh : ((m.take size).drop (i + 1)).head? = some q) inq => ih inq (i + 2) (by have := head_lt hh; omega) (by omega)
      simp only [e1]
      generalize ((m.take size).drop (i + 1)).head? = hd at e2 ⊢
      cases inq <;> split_ifs <;> simp_all
    · rw [findRowEndScalarM, if_neg h, drop_end h, findRowEndGo]
      congr 1; omega

theorem validEol_eq {m : Bytes} {size : Nat} (hs : size ≤ m.length) (off : Nat) (inside lf cr : U64) :
    validEolM m size off inside lf cr = some (validEol inside lf cr (((m.take size).drop off).drop 64).head?) := by
  unfold validEolM validEol
  simp only [peek_eq hs, List.drop_drop]
  generalize ((m.take size).drop (off + 64)).head? = hd
  split_ifs <;> simp_all

theorem drop_len {m : Bytes} {size off : Nat} (hs : size ≤ m.length) : ((m.take size).drop off).length = size - off := by
  simp; omega

theorem analyzeLoop_eq (t : Target) (cpu : Cpu) (hl : cpu.lanes = t.lanes) (hp : cpu.pf = t.pf) {m : Bytes} {size : Nat} (hs : size ≤ m.length) (q : UInt8) :
    ∀ (n rows last : Nat) (qs : U64) (off : Nat), size - off ≤ n →
    analyzeLoopM t m size q rows last qs off = some (analyzeLoop cpu q rows last qs off ((m.take size).drop off)) := by
  have hd : t.lanes ∣ 64 := hl ▸ cpu.dvd
  intro n
  induction n with
  | zero =>
    intro rows last qs off h
    rw [analyzeLoopM, analyzeLoop, drop_len hs, if_neg (by omega), if_neg (by omega), analyzeTail_eq hs q _ _ _ _ _ (Nat.le_refl _)]
  | succ n ih =>
    intro rows last qs off h
    rw [analyzeLoopM, analyzeLoop, drop_len hs]
    by_cases h64 : off + 64 ≤ size
    · rw [if_pos h64, if_pos (by omega)]
      simp only [blockMask_eq' t hd hs h64, Option.bind_some, validEol_eq hs, hl, hp]
      rw [ih _ _ _ _ (by omega)]
      simp only [List.drop_drop]
    · rw [if_neg h64, if_neg (by omega), analyzeTail_eq hs q _ _ _ _ _ (Nat.le_refl _)]

theorem dualLoop_eq (t : Target) (cpu : Cpu) (hl : cpu.lanes = t.lanes) (hp : cpu.pf = t.pf) {m : Bytes} {size : Nat} (hs : size ≤ m.length) (q : UInt8) :
    ∀ (n : Nat) (s : DualStats) (mask : U64) (off : Nat), size - off ≤ n →
    dualLoopM t m size q s mask off = some (dualLoop cpu q s mask off ((m.take size).drop off)) := by
  have hd : t.lanes ∣ 64 := hl ▸ cpu.dvd
  intro n
  induction n with
  | zero =>
    intro s mask off h
    rw [dualLoopM, dualLoop, drop_len hs, if_neg (by omega), if_neg (by omega), dualTail_eq hs q _ _ _ _ (Nat.le_refl _)]
  | succ n ih =>
    intro s mask off h
    rw [dualLoopM, dualLoop, drop_len hs]
    by_cases h64 : off + 64 ≤ size
    · rw [if_pos h64, if_pos (by omega)]
      simp only [blockMask_eq' t hd hs h64, Option.bind_some, hl, hp, peek_eq hs]
      have hfix : ∀ (P : Prop) [Decidable P] (hd : Option UInt8), (if P then some (decide (hd = some LF)) else some false) = some (decide (P ∧ hd = some LF)) := by
        intro P _ hd; by_cases hP : P <;> simp [hP]
      rw [hfix, Option.bind_some, ih _ _ _ (by omega)]
      simp only [List.drop_drop, decide_eq_true_eq]
    · rw [if_neg h64, if_neg (by omega), dualTail_eq hs q _ _ _ _ (Nat.le_refl _)]

theorem drop_get {m : Bytes} {size off k : Nat} : ((m.take size).drop off)[k]? = ((m.take size).drop (off + k)).head? := by
  rw [List.getElem?_drop, List.head?_drop]

theorem rowEndLoop_eq (t : Target) (cpu : Cpu) (hl : cpu.lanes = t.lanes) (hp : cpu.pf = t.pf) {m : Bytes} {size : Nat} (hs : size ≤ m.length) (q : UInt8) :
    ∀ (n : Nat) (qs : U64) (off : Nat), off ≤ size → size - off ≤ n →
    rowEndLoopM t m size q qs off = some (rowEndLoop cpu q qs off ((m.take size).drop off)) := by
  have hd : t.lanes ∣ 64 := hl ▸ cpu.dvd
  intro n
  induction n with
  | zero =>
    intro qs off hle h
    rw [rowEndLoopM, rowEndLoop, drop_len hs, if_neg (by omega), if_neg (by omega), rowEndScalar_eq hs q _ _ _ hle (Nat.le_refl _)]
  | succ n ih =>
    intro qs off hle h
    rw [rowEndLoopM, rowEndLoop, drop_len hs]
    by_cases h64 : off + 64 ≤ size
    · rw [if_pos h64, if_pos (by omega)]
      simp only [blockMask_eq' t hd hs h64, Option.bind_some, validEol_eq hs, hl, hp]
      generalize validEol _ _ _ _ = eol
      by_cases h0 : eol ≠ 0#64
      · rw [if_pos h0, if_pos h0]
        have hb := (ctz_spec eol h0).1
        obtain ⟨c, h1, h2⟩ := ld_step hs (show off + eol.ctz.toNat < size by omega)
        rw [h1, Option.bind_some, drop_get, drop_get, h2, peek_eq hs, Option.bind_some]
        simp only [List.head?_cons, Option.some.injEq, Nat.add_assoc, decide_eq_true_eq]
        split_ifs <;> rfl
      · rw [if_neg h0, if_neg h0, ih _ _ (by omega) (by omega), List.drop_drop]
    · rw [if_neg h64, if_neg (by omega), rowEndScalar_eq hs q _ _ _ hle (Nat.le_refl _)]

theorem rowEndPrefix_eq (t : Target) (cpu : Cpu) (hl : cpu.lanes = t.lanes) (hp : cpu.pf = t.pf) {m : Bytes} {size : Nat} (hs : size ≤ m.length) (q : UInt8)
    (aligned : Nat) (ha : aligned ≤ size) : ∀ (n : Nat) (inq : Bool) (i : Nat), i ≤ size → size - i ≤ n →
    rowEndPrefixM t m size q aligned inq i = some (rowEndPrefix cpu q aligned inq i ((m.take size).drop i)) := by
  intro n
  induction n with
  | zero =>
    intro inq i hle hi
    rw [rowEndPrefixM, if_neg (show ¬ (i < aligned ∧ i < size) by omega), rowEndPrefix.eq_def, if_neg (show ¬ i < aligned by omega), rowEndLoop_eq t cpu hl hp hs q _ _ _ hle (Nat.le_refl _)]
  | succ n ih =>
    intro inq i hle hi
    by_cases h : i < aligned
    · obtain ⟨c, h1, h2⟩ := ld_step hs (show i < size by omega)
      rw [rowEndPrefixM, if_pos ⟨h, by omega⟩, h1, Option.bind_some, h2, rowEndPrefix.eq_def, if_pos h]
      dsimp only
      simp only [peek_eq hs, List.drop_drop]
      have e1 := fun inq => ih inq (i + 1) (by omega) (by omega)
      have e2 := fun (hh : ((m.take size).drop (i + 1)).head? = some q) inq => ih inq (i + 2) (by have := head_lt hh; omega) (by omega)
      simp only [e1]
      generalize ((m.take size).drop (i + 1)).head? = hd at e2 ⊢
      cases inq <;> split_ifs <;> simp_all
    · rw [rowEndPrefixM, if_neg (fun hh => h hh.1), rowEndPrefix.eq_def, if_neg h, rowEndLoop_eq t cpu hl hp hs q _ _ _ hle (Nat.le_refl _)]

end Vroom.Mem
