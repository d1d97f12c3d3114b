import Verif.Lemmas.MemDialect
/-
The checked loads of `Model/MemDialect` against the byte lists of the other models: cell types.
-/
namespace Vroom.Mem
open Vroom

theorem trimView_eq (pr : UInt8 → Bool) (v : Bytes) : trimViewM pr v = some (trimBy pr v) := by
  unfold trimViewM trimBy
  obtain ⟨k, k1, k2, k3⟩ := trimFront_eq (m := v) pr v.length 0 (by omega)
  obtain ⟨j, j1, j2, j3⟩ := trimBack_eq (m := v) pr (0 + k) (v.length - k) (by omega)
  rw [List.drop_zero, List.take_length] at k3
  rw [k2, Option.bind_some, j2, Option.bind_some, viewM, if_pos (by dsimp only; omega), k3, j3]

theorem digitRun_eq (v : Bytes) : ∀ (n i : Nat), v.length - i ≤ n → digitRunM v i = some (i + ((v.drop i).takeWhile isDigitC).length) := by
  intro n
  induction n with
  | zero =>
    intro i h
    rw [digitRunM, if_neg (by omega), List.drop_eq_nil_of_le (by omega)]; rfl
  | succ n ih =>
    intro i h
    by_cases hi : i < v.length
    · rw [digitRunM, if_pos hi, ld, List.getElem?_eq_getElem hi, Option.bind_some, List.drop_eq_getElem_cons hi, List.takeWhile_cons]
      by_cases hb : isDigitC v[i] = true
      · rw [if_pos hb, if_pos hb, ih (i + 1) (by omega), List.length_cons]
        congr 1; omega
      · rw [if_neg hb, if_neg hb]; rfl
    · rw [digitRunM, if_neg hi, List.drop_eq_nil_of_le (by omega)]; rfl

theorem digits_rest (v : Bytes) (i : Nat) : (v.drop i).dropWhile isDigitC = v.drop (i + ((v.drop i).takeWhile isDigitC).length) := by
  rw [dropWhile_drop, List.drop_drop]

theorem sign_eq {v : Bytes} (h : v ≠ []) : ∃ s, signM v = some s ∧ skipSign v = v.drop s ∧ s ≤ v.length := by
  cases v with
  | nil => exact absurd rfl h
  | cons c r =>
    refine ⟨_, rfl, ?_, ?_⟩
    · rw [skipSign]; by_cases hb : (c == 43 || c == 45) = true <;> simp [hb]
    · dsimp only; split <;> simp

theorem drop_nil_iff (v : Bytes) (i : Nat) : (v.drop i).isEmpty = decide (v.length ≤ i) := by
  rw [Bool.eq_iff_iff, List.isEmpty_iff, List.drop_eq_nil_iff, decide_eq_true_eq]

theorem takeWhile_le (f : UInt8 → Bool) (l : Bytes) : (l.takeWhile f).length ≤ l.length := by
  induction l with
  | nil => simp
  | cons a l ih => rw [List.takeWhile_cons]; split <;> simp; exact ih

theorem takeWhile_full (f : UInt8 → Bool) (l : Bytes) : (l.takeWhile f).length = l.length ↔ l.all f = true := by
  induction l with
  | nil => simp
  | cons a l ih =>
    rw [List.takeWhile_cons, List.all_cons]
    by_cases h : f a = true
    · rw [if_pos h, h, Bool.true_and, ← ih]; simp
    · rw [if_neg h]; simp [h]

theorem digits_le {v : Bytes} {i : Nat} (h : i ≤ v.length) : i + ((v.drop i).takeWhile isDigitC).length ≤ v.length := by
  have := takeWhile_le isDigitC (v.drop i)
  rw [List.length_drop] at this
  omega

theorem intScan_eq {v : Bytes} (h : v ≠ []) : intScanM v = some (intScan v) := by
  obtain ⟨s, s1, s2, s3⟩ := sign_eq h
  unfold intScanM intScan
  rw [s1, Option.bind_some, s2]
  dsimp only
  by_cases hs : s < v.length
  · rw [if_pos hs, digitRun_eq v _ s (Nat.le_refl _), Option.map_some]
    congr 1
    rw [drop_nil_iff, decide_eq_false (by omega : ¬ v.length ≤ s), Bool.not_false, Bool.true_and, Bool.eq_iff_iff, beq_iff_eq, ← takeWhile_full, List.length_drop]
    omega
  · rw [if_neg hs, drop_nil_iff, decide_eq_true (by omega)]; rfl

theorem char_eq (v : Bytes) (i : Nat) (a b : UInt8) : charM v i a b = some (match v.drop i with | [] => false | c :: _ => c == a || c == b) := by
  unfold charM
  by_cases hi : i < v.length
  · rw [if_pos hi, ld, List.getElem?_eq_getElem hi, List.drop_eq_getElem_cons hi]; rfl
  · rw [if_neg hi, List.drop_eq_nil_of_le (by omega)]

theorem drop_tail {v : Bytes} {i : Nat} {c : UInt8} {r : Bytes} (h : v.drop i = c :: r) : r = v.drop (i + 1) := by
  have : (v.drop i).drop 1 = r := by rw [h]; rfl
  rw [List.drop_drop] at this
  exact this.symm

theorem takeWhile_ne (v : Bytes) (i : Nat) : (!((v.drop i).takeWhile isDigitC).isEmpty) = decide (i < i + ((v.drop i).takeWhile isDigitC).length) := by
  rw [Bool.eq_iff_iff]
  simp [List.isEmpty_iff, List.length_pos_iff]

theorem drop_cons_lt {v : Bytes} {i : Nat} {c : UInt8} {r : Bytes} (h : v.drop i = c :: r) : i < v.length := by
  apply Classical.byContradiction
  intro hn
  rw [List.drop_eq_nil_of_le (by omega)] at h
  cases h

theorem floatScan_eq {v : Bytes} (h : v ≠ []) : floatScanM v = some (floatScan v) := by
  obtain ⟨s, s1, s2, s3⟩ := sign_eq h
  have hi := digits_le s3
  unfold floatScanM floatScan
  dsimp only
  rw [s1, Option.bind_some, s2, digitRun_eq v _ s (Nat.le_refl _), Option.bind_some, digits_rest, takeWhile_ne]
  generalize s + ((v.drop s).takeWhile isDigitC).length = i at hi
  rw [char_eq, Option.bind_some]
  obtain ⟨dot, hdot⟩ : ∃ dot, (match v.drop i with | [] => false | c :: _ => c == 46 || c == 46) = dot := ⟨_, rfl⟩
  rw [hdot]
  have hfrac : ∃ j, (if dot = true then digitRunM v (i + 1) else some i) = some j ∧ fracSplit (v.drop i) = (dot, dot && decide (i + 1 < j), v.drop j) ∧ j ≤ v.length := by
    cases hd : v.drop i with
    | nil =>
      rw [hd] at hdot
      subst hdot
      exact ⟨i, rfl, by rw [hd]; rfl, hi⟩
    | cons c r =>
      rw [hd] at hdot
      have hr := drop_tail hd
      have hlt := drop_cons_lt hd
      by_cases hc : (c == 46) = true
      · have : dot = true := by rw [← hdot]; simp [hc]
        subst this
        refine ⟨_, by rw [if_pos rfl]; exact digitRun_eq v _ (i + 1) (Nat.le_refl _), ?_, digits_le hlt⟩
        simp only [fracSplit]
        rw [if_pos hc, hr, digits_rest, takeWhile_ne]; rfl
      · have : dot = false := by rw [← hdot]; simpa using hc
        subst this
        refine ⟨i, rfl, ?_, hi⟩
        simp only [fracSplit]
        rw [if_neg hc, hd]; rfl
  obtain ⟨j, j1, j2, j3⟩ := hfrac
  rw [j1, Option.bind_some, j2, char_eq, Option.bind_some]
  obtain ⟨ex, hex⟩ : ∃ ex, (match v.drop j with | [] => false | c :: _ => c == 101 || c == 69) = ex := ⟨_, rfl⟩
  rw [hex]
  have hexp : ∃ ok e, (if ex = true then (charM v (j + 1) 43 45).bind fun g => (digitRunM v (if g = true then j + 2 else j + 1)).map
        fun e => (decide ((if g = true then j + 2 else j + 1) < e), e) else some (true, j)) = some (ok, e) ∧
      expPart (v.drop j) = (ex, ok, v.drop e) ∧ e ≤ v.length := by
    cases hd : v.drop j with
    | nil =>
      rw [hd] at hex
      subst hex
      exact ⟨true, j, rfl, by rw [hd]; rfl, j3⟩
    | cons c r =>
      rw [hd] at hex
      have hr := drop_tail hd
      have hlt := drop_cons_lt hd
      by_cases hc : (c == 101 || c == 69) = true
      · have : ex = true := by rw [← hex]; exact hc
        subst this
        rw [if_pos rfl, char_eq, Option.bind_some]
        simp only [expPart]
        rw [if_pos hc, hr]
        obtain ⟨k, hk, hk2, hk3⟩ : ∃ k, (if (match v.drop (j + 1) with | [] => false | c :: _ => c == 43 || c == 45) = true then j + 2 else j + 1) = k ∧
            skipSign (v.drop (j + 1)) = v.drop k ∧ k ≤ v.length := by
          cases hd2 : v.drop (j + 1) with
          | nil => exact ⟨j + 1, rfl, by rw [hd2]; rfl, hlt⟩
          | cons c2 r2 =>
            have hr2 := drop_tail hd2
            have hlt2 := drop_cons_lt hd2
            by_cases hc2 : (c2 == 43 || c2 == 45) = true
            · exact ⟨j + 2, by simp only [hc2, if_true], by simp only [skipSign]; rw [if_pos hc2, hr2], hlt2⟩
            · exact ⟨j + 1, by simp only [hc2]; rfl, by simp only [skipSign]; rw [if_neg hc2, hd2], hlt⟩
        rw [hk, hk2, digitRun_eq v _ k (Nat.le_refl _), takeWhile_ne, digits_rest]
        exact ⟨_, _, rfl, rfl, digits_le hk3⟩
      · have : ex = false := by rw [← hex]; simpa using hc
        subst this
        exact ⟨true, j, rfl, by simp only [expPart]; rw [if_neg hc, hd], j3⟩
  obtain ⟨ok, e, x1, x2, x3⟩ := hexp
  rw [x1, Option.map_some, x2]
  dsimp only
  congr 2
  rw [drop_nil_iff, Bool.eq_iff_iff, beq_iff_eq, decide_eq_true_eq]
  omega

theorem ld_lit {v : Bytes} {i : Nat} {c : UInt8} (h : v[i]? = some c) : ld v i = some c := h

theorem dateScan_eq (v : Bytes) : dateScanM v = some (dateScan v) := by
  unfold dateScanM
  by_cases h10 : v.length = 10
  · match v, h10 with
    | [a0, a1, a2, a3, a4, a5, a6, a7, a8, a9], _ =>
      simp only [List.length_cons, List.length_nil, Nat.zero_add, Nat.reduceAdd, ge_iff_le, Nat.reduceLeDiff, and_self, if_true, dg, List.map_cons, List.map_nil,
        List.cons_append, List.nil_append, chainM, ld, List.getElem?_cons_zero, List.getElem?_cons_succ, Option.bind_some, dateScan]
      have key : ∀ (x y : Option Bool) (a b : Bool), x = some a → y = some b → (x.bind fun ymd => y.map fun dmy => ymd || dmy) = some (a || b) := by
        intro x y a b hx hy; rw [hx, hy]; rfl
      apply key
      · split_ifs <;> simp_all
      · split_ifs <;> simp_all
  · have hd : dateScan v = false := by
      unfold dateScan
      split
      · simp at h10
      · rfl
    rw [hd]
    by_cases h : v.length ≥ 8 ∧ v.length ≤ 10
    · rw [if_pos h, if_neg h10, if_neg h10]; rfl
    · rw [if_neg h]

theorem timeScan_eq (v : Bytes) : timeScanM v = some (timeScan v) := by
  unfold timeScanM
  by_cases h5 : v.length = 5
  · match v, h5 with
    | [a0, a1, a2, a3, a4], _ =>
      simp only [List.length_cons, List.length_nil, Nat.zero_add, Nat.reduceAdd, true_or, if_true, dg, List.map_cons, List.map_nil,
        List.cons_append, List.nil_append, chainM, ld, List.getElem?_cons_zero, List.getElem?_cons_succ, Option.bind_some, timeScan]
      split_ifs <;> simp_all
  · by_cases h8 : v.length = 8
    · match v, h8 with
      | [a0, a1, a2, a3, a4, a5, a6, a7], _ =>
        simp only [List.length_cons, List.length_nil, Nat.zero_add, Nat.reduceAdd, Nat.reduceEqDiff, or_true, if_true, if_false, dg, List.map_cons, List.map_nil,
          List.cons_append, List.nil_append, chainM, ld, List.getElem?_cons_zero, List.getElem?_cons_succ, Option.bind_some, timeScan]
        split_ifs <;> simp_all
    · have ht : timeScan v = false := by
        unfold timeScan
        split
        · simp at h5
        · simp at h8
        · rfl
      rw [if_neg (by omega), ht]

end Vroom.Mem
