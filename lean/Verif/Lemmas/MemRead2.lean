import Verif.Lemmas.MemRead
import Mathlib.Tactic.ByContra
/-
The checked loads of `Model/MemRead` against the byte lists: row loops, chunks, opening.
-/
namespace Vroom.Mem
open Vroom

theorem parseRows_eq {t : Target} {cfg : ReadCfg} (ht : t.Is cfg.cpu) {p : Bytes} {size : Nat} (hs : size ≤ p.length) :
    ∀ (fuel : Nat) (cols : Cols) (rows offset : Nat) (r : Cols × Nat), offset ≤ size →
    parseRows cfg fuel cols rows ((p.take size).drop offset) = some r → parseRowsM t cfg p size fuel cols rows offset = some r := by
  intro fuel
  induction fuel with
  | zero => intro cols rows offset r _ h; simp [parseRows] at h
  | succ fuel ih =>
    intro cols rows offset r hle h
    simp only [parseRows, drop_len hs] at h
    simp only [parseRowsM]
    by_cases h0 : offset < size
    · rw [if_neg (by omega)] at h
      rw [if_pos h0]
      obtain ⟨o, e1, e2, e3⟩ := skipBlank_eq hs _ offset hle (Nat.le_refl _)
      rw [← e3, drop_len hs] at h
      rw [e1, Option.bind_some]
      by_cases h1 : o ≥ size
      · rw [if_pos (by omega)] at h
        rw [if_pos h1, h]
      · rw [if_neg (by omega)] at h
        rw [if_neg h1]
        cases hsp : splitRow cfg.cpu cfg.dial cfg.junk ((p.take size).drop o) with
        | none => rw [hsp] at h; simp at h
        | some x =>
          obtain ⟨fs, tail⟩ := x
          rw [hsp] at h
          dsimp only at h
          unfold splitRow at hsp
          rw [drop_len hs] at hsp
          have habs : ({ rest := (p.take size).drop o } : SF) = (⟨p.drop o, size - o, false, 0#64⟩ : It).abs := by
            show (⟨(p.take size).drop o, false, 0#64⟩ : SF) = ⟨(p.drop o).take (size - o), false, 0#64⟩
            rw [List.drop_take]
          rw [habs] at hsp
          obtain ⟨ws, s', f1, f2, f3, f4, f5, f6⟩ := collect_eq ht cfg.dial _ _ _ _ _
            (show (size - o) ≤ (p.drop o).length by rw [List.length_drop]; omega) hsp
          rw [f1, Option.bind_some, fields_eq _ _ _ _ _ _ f3, Option.bind_some, f2]
          apply ih _ _ _ _ (by omega)
          rw [← h]
          congr 1
          rw [f6, f5]
          dsimp only at f4 ⊢
          rw [List.drop_take, List.drop_drop]
          congr 1
          omega
    · rw [if_pos (by omega)] at h
      rw [if_neg h0, h]

theorem skipToClose_eq {p : Bytes} {size : Nat} (hs : size ≤ p.length) (q : UInt8) : ∀ (n i : Nat), i ≤ size → size - i ≤ n →
    ∃ b j, skipToCloseM p size q i = some (b, j) ∧ j ≤ size ∧ skipToClose q ((p.take size).drop i) = (b, (p.take size).drop j) := by
  intro n
  induction n with
  | zero =>
    intro i h1 h2
    refine ⟨true, i, by rw [skipToCloseM, if_neg (by omega)], h1, ?_⟩
    rw [drop_end (by omega)]; simp [skipToClose]
  | succ n ih =>
    intro i h1 h2
    by_cases h : i < size
    · obtain ⟨c, e1, e2⟩ := ld_step hs h
      rw [skipToCloseM, if_pos h, e1, Option.bind_some, e2, skipToClose.eq_def]
      dsimp only
      by_cases hc : c = q
      · rw [if_pos hc, if_pos hc, peek_eq hs, Option.bind_some]
        simp only [decide_eq_true_eq]
        by_cases h' : i + 1 < size
        · obtain ⟨d, f1, f2⟩ := ld_step hs h'
          rw [f2]
          simp only [List.head?_cons, Option.some.injEq]
          by_cases hd : d = q
          · rw [if_pos hd, if_pos hd]
            exact ih _ (by omega) (by omega)
          · rw [if_neg hd, if_neg hd, ← f2]
            exact ⟨_, _, rfl, by omega, rfl⟩
        · rw [drop_end h']
          simp only [List.head?_nil, reduceCtorEq, if_false]
          exact ⟨_, _, rfl, by omega, by rw [drop_end h']⟩
      · rw [if_neg hc, if_neg hc]
        exact ih _ (by omega) (by omega)
    · refine ⟨true, i, by rw [skipToCloseM, if_neg h], h1, ?_⟩
      rw [drop_end h]; simp [skipToClose]

theorem skipPartialRow_eq {p : Bytes} {size : Nat} (hs : size ≤ p.length) (q : UInt8) : ∀ (n : Nat) (inq : Bool) (i : Nat), i ≤ size → size - i ≤ n →
    ∃ j, skipPartialRowM p size q inq i = some j ∧ j ≤ size ∧ skipPartialRow q inq ((p.take size).drop i) = (p.take size).drop j := by
  intro n
  induction n with
  | zero =>
    intro inq i h1 h2
    refine ⟨i, by rw [skipPartialRowM, if_neg (by omega)], h1, ?_⟩
    rw [drop_end (by omega)]; simp [skipPartialRow]
  | succ n ih =>
    intro inq i h1 h2
    by_cases h : i < size
    · obtain ⟨c, e1, e2⟩ := ld_step hs h
      rw [skipPartialRowM, if_pos h, e1, Option.bind_some, e2, skipPartialRow.eq_def]
      dsimp only
      by_cases hc : c = q
      · rw [if_pos hc, if_pos hc]
        by_cases h' : i + 1 < size
        · obtain ⟨d, f1, f2⟩ := ld_step hs h'
          cases inq with
          | false =>
            rw [if_neg (by simp), Option.bind_some, if_neg (by simp), f2]
            dsimp only
            rw [if_neg (by simp), ← f2]
            exact ih _ _ (by omega) (by omega)
          | true =>
            rw [if_pos rfl, peek_eq hs, Option.bind_some, f2]
            simp only [decide_eq_true_eq, List.head?_cons, Option.some.injEq, true_and]
            by_cases hd : d = q
            · rw [if_pos hd, if_pos hd]
              exact ih _ _ (by omega) (by omega)
            · rw [if_neg hd, if_neg hd, ← f2]
              exact ih _ _ (by omega) (by omega)
        · have hsome : (if inq = true then peekEq p size (i + 1) q else some false) = some false := by
            cases inq
            · rfl
            · rw [if_pos rfl, peek_eq hs, drop_end h']; simp
          rw [hsome, Option.bind_some, if_neg (by simp), drop_end h']
          dsimp only
          exact ⟨i + 1, by rw [skipPartialRowM, if_neg h'], by omega, by rw [drop_end h']⟩
      · rw [if_neg hc, if_neg hc]
        by_cases he : inq = false ∧ (c = LF ∨ c = CR)
        · rw [if_pos he, if_pos he]
          by_cases h' : i + 1 < size
          · obtain ⟨d, f1, f2⟩ := ld_step hs h'
            by_cases hr : c = CR
            · rw [if_pos hr, peek_eq hs, f2]
              simp only [List.head?_cons, Option.map_some, decide_eq_true_eq, Option.some.injEq, hr, true_and]
              by_cases hd : d = LF
              · rw [if_pos hd, if_pos hd]; exact ⟨_, rfl, by omega, rfl⟩
              · rw [if_neg hd, if_neg hd, ← f2]; exact ⟨_, rfl, by omega, rfl⟩
            · rw [if_neg hr, f2]
              dsimp only
              rw [if_neg (fun hh => hr hh.1), ← f2]; exact ⟨_, rfl, by omega, rfl⟩
          · rw [drop_end h']
            dsimp only
            by_cases hr : c = CR
            · rw [if_pos hr, peek_eq hs, drop_end h']
              simp only [List.head?_nil, Option.map_some, reduceCtorEq, decide_false, Bool.false_eq_true, if_false]
              exact ⟨i + 1, rfl, by omega, (drop_end h').symm⟩
            · rw [if_neg hr]; exact ⟨_, rfl, by omega, (drop_end h').symm⟩
        · rw [if_neg he, if_neg he]
          exact ih _ _ (by omega) (by omega)
    · refine ⟨i, by rw [skipPartialRowM, if_neg h], h1, ?_⟩
      rw [drop_end h]; simp [skipPartialRow]

theorem parseChunk_eq {t : Target} {cfg : ReadCfg} (ht : t.Is cfg.cpu) (n : Nat) (inside : Bool) {p : Bytes} {size : Nat} (hs : size ≤ p.length)
    {r : Cols × Nat} (h : parseChunk cfg n inside (p.take size) = some r) : parseChunkM t cfg n inside p size = some r := by
  unfold parseChunk at h
  unfold parseChunkM
  have hl : (p.take size).length = size := by simp; omega
  rw [hl] at h
  dsimp only at h ⊢
  by_cases h0 : size = 0 ∨ n = 0
  · rw [if_pos h0] at h ⊢; exact h
  · rw [if_neg h0] at h ⊢
    cases inside with
    | false =>
      simp only [Bool.false_eq_true, if_false] at h ⊢
      rw [Option.bind_some]
      exact parseRows_eq ht hs _ _ _ 0 _ (by omega) (by simpa using h)
    | true =>
      simp only [if_true] at h ⊢
      obtain ⟨b, j, e1, e2, e3⟩ := skipToClose_eq hs cfg.quote _ 0 (by omega) (Nat.le_refl _)
      obtain ⟨k, f1, f2, f3⟩ := skipPartialRow_eq hs cfg.quote _ b j e2 (Nat.le_refl _)
      rw [e1, Option.bind_some]
      dsimp only
      rw [f1, Option.bind_some]
      rw [List.drop_zero] at e3
      rw [e3] at h
      dsimp only at h
      rw [f3] at h
      exact parseRows_eq ht hs _ _ _ k _ f2 h

theorem readSerial_eq {t : Target} {cfg : ReadCfg} (ht : t.Is cfg.cpu) (n : Nat) {m : Bytes} {size start : Nat} (hs : size ≤ m.length) (hst : start ≤ size)
    {r : ReadResult} (h : readSerial cfg n ((m.take size).drop start) = some r) : readSerialM t cfg n m size start = some r := by
  unfold readSerial at h
  unfold readSerialM
  by_cases h0 : n = 0
  · rw [if_pos h0] at h ⊢; exact h
  · rw [if_neg h0] at h ⊢
    rw [drop_len hs, Option.map_eq_some_iff] at h
    obtain ⟨x, h1, h2⟩ := h
    rw [parseRows_eq ht hs _ _ _ _ _ hst h1, ← h2]; rfl

theorem findRowEnd_eq {t : Target} {cpu : Cpu} (ht : t.Is cpu) {m : Bytes} {size : Nat} (hs : size ≤ m.length) (q : UInt8) (start : Nat) :
    findRowEndM t m size q start = some (findRowEnd cpu q (m.take size) start) := by
  have hl : (m.take size).length = size := by simp; omega
  unfold findRowEndM findRowEnd
  rw [hl]
  by_cases h : size < start ∨ size - start ≥ 64
  · rw [if_pos h, if_pos h]
    unfold findRowEndSimdM findRowEndSimd
    rw [hl]
    by_cases h1 : start ≥ size
    · rw [if_pos h1, if_pos h1]
    · rw [if_neg h1, if_neg h1]
      exact rowEndPrefix_eq t cpu ht.lanes ht.pf hs q _ (Nat.min_le_right _ _) _ false start (by omega) (Nat.le_refl _)
  · rw [if_neg h, if_neg h]
    unfold findRowEndScalar
    rw [hl, if_pos (by omega)]
    exact rowEndScalar_eq hs q _ false start (by omega) (Nat.le_refl _)

theorem unstick_eq (f : Nat → Nat) (size cs : Nat) : ∀ (fuel a b : Nat), unstickM (fun n => some (f n)) size cs fuel a b = unstick f size cs fuel a b := by
  intro fuel
  induction fuel with
  | zero => intro a b; rfl
  | succ fuel ih =>
    intro a b
    simp only [unstickM, unstick, Option.bind_some, ih]

theorem ranges_eq (f : Nat → Nat) (size cs : Nat) : ∀ (fuel a : Nat), chunkRangesGoM (fun n => some (f n)) size cs fuel a = chunkRangesGo f size cs fuel a := by
  intro fuel
  induction fuel with
  | zero => intro a; rfl
  | succ fuel ih =>
    intro a
    simp only [chunkRangesGoM, chunkRangesGo, Option.bind_some, unstick_eq]
    by_cases h : a < size
    · rw [if_pos h, if_pos h]
      generalize (if min (a + cs) size ≥ size then some size else unstick f size cs (size + 1) (min (a + cs) size) (f (min (a + cs) size))) = x
      cases x with
      | none => rfl
      | some e => simp only [Option.bind_some, ih]
    · rw [if_neg h, if_neg h]

theorem analyzeDual_eq {t : Target} {cpu : Cpu} (ht : t.Is cpu) {m : Bytes} {size : Nat} (hs : size ≤ m.length) (q : UInt8) :
    analyzeDualM t m size q = some (analyzeDual cpu q (m.take size)) := by
  have hl : (m.take size).length = size := by simp; omega
  unfold analyzeDualM analyzeDual
  rw [hl]
  by_cases h : size = 0
  · rw [if_pos h, if_pos h]
  · rw [if_neg h, if_neg h]
    have := dualLoop_eq t cpu ht.lanes ht.pf hs q _ {} 0#64 0 (Nat.le_refl _)
    rw [List.drop_zero] at this
    exact this

/-! ### Opening -/


theorem headerGo_eq {p : Bytes} {size : Nat} (hs : size ≤ p.length) (sep q : UInt8) : ∀ (n : Nat) (inq : Bool) (cur : Bytes) (hs' : List Bytes) (i : Nat),
    i ≤ size → size - i ≤ n → headerGoM p size sep q inq cur hs' i = some (headerGo sep q inq cur hs' ((p.take size).drop i)) := by
  intro n
  induction n with
  | zero =>
    intro inq cur hs' i h1 h2
    rw [headerGoM, if_neg (by omega), drop_end (by omega)]
    simp [headerGo]
  | succ n ih =>
    intro inq cur hs' i h1 h2
    by_cases h : i < size
    · obtain ⟨c, e1, e2⟩ := ld_step hs h
      rw [headerGoM, if_pos h, e1, Option.bind_some, e2, headerGo.eq_def]
      dsimp only
      have g1 := fun inq cur hs' => ih inq cur hs' (i + 1) (by omega) (by omega)
      simp only [g1, peek_eq hs]
      by_cases h' : i + 1 < size
      · obtain ⟨d, f1, f2⟩ := ld_step hs h'
        have g2 := fun inq cur hs' => ih inq cur hs' (i + 2) (by omega) (by omega)
        simp only [g2]
        rw [f2]
        simp only [List.head?_cons, Option.some.injEq]
        cases inq <;> split_ifs <;> simp_all
      · have g3 : headerGo sep q inq cur hs' [] = headerGo sep q inq cur hs' [] := rfl
        rw [drop_end h']
        simp only [List.head?_nil]
        cases inq <;> split_ifs <;> simp_all
    · rw [headerGoM, if_neg h, drop_end h]
      simp [headerGo]

theorem countCols_eq {p : Bytes} {size : Nat} (hs : size ≤ p.length) (sep q : UInt8) : ∀ (n : Nat) (inq : Bool) (k i : Nat),
    i ≤ size → size - i ≤ n → countColsM p size sep q inq k i = some (countCols sep q inq k ((p.take size).drop i)) := by
  intro n
  induction n with
  | zero =>
    intro inq k i h1 h2
    rw [countColsM, if_neg (by omega), drop_end (by omega)]
    simp [countCols]
  | succ n ih =>
    intro inq k i h1 h2
    by_cases h : i < size
    · obtain ⟨c, e1, e2⟩ := ld_step hs h
      rw [countColsM, if_pos h, e1, Option.bind_some, e2, countCols.eq_def]
      dsimp only
      have g1 := fun inq k => ih inq k (i + 1) (by omega) (by omega)
      simp only [g1, peek_eq hs]
      by_cases h' : i + 1 < size
      · obtain ⟨d, f1, f2⟩ := ld_step hs h'
        have g2 := fun inq k => ih inq k (i + 2) (by omega) (by omega)
        simp only [g2]
        rw [f2]
        simp only [List.head?_cons, Option.some.injEq]
        cases inq <;> split_ifs <;> simp_all
      · rw [drop_end h']
        simp only [List.head?_nil]
        cases inq <;> split_ifs <;> simp_all [countCols]
    · rw [countColsM, if_neg h, drop_end h]
      simp [countCols]

theorem sampleRow_eq {p : Bytes} {size : Nat} (hs : size ≤ p.length) (sep q : UInt8) : ∀ (n : Nat) (inq : Bool) (cur : Bytes) (hs' : List Bytes) (i : Nat),
    i ≤ size → size - i ≤ n → sampleRowM p size sep q inq cur hs' i = some (sampleRow sep q inq cur hs' ((p.take size).drop i)) := by
  intro n
  induction n with
  | zero =>
    intro inq cur hs' i h1 h2
    rw [sampleRowM, if_neg (by omega), drop_end (by omega)]
    simp [sampleRow]
  | succ n ih =>
    intro inq cur hs' i h1 h2
    by_cases h : i < size
    · obtain ⟨c, e1, e2⟩ := ld_step hs h
      rw [sampleRowM, if_pos h, e1, Option.bind_some, e2, sampleRow.eq_def]
      dsimp only
      have g1 := fun inq cur hs' => ih inq cur hs' (i + 1) (by omega) (by omega)
      simp only [g1, peek_eq hs]
      by_cases h' : i + 1 < size
      · obtain ⟨d, f1, f2⟩ := ld_step hs h'
        have g2 := fun inq cur hs' => ih inq cur hs' (i + 2) (by omega) (by omega)
        simp only [g2]
        rw [f2]
        simp only [List.head?_cons, Option.some.injEq]
        cases inq <;> split_ifs <;> simp_all
      · rw [drop_end h']
        simp only [List.head?_nil]
        cases inq <;> split_ifs <;> simp_all
    · rw [sampleRowM, if_neg h, drop_end h]
      simp [sampleRow]

end Vroom.Mem
