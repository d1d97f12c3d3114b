import Verif.Props.Pool
/-
C07, the workers' part: what a worker does with a chunk that starts inside quotes.
-/
namespace Vroom
open Spec

theorem findRowEndGo_off (q : UInt8) (inq : Bool) (off : Nat) (rest : Bytes) :
    findRowEndGo q inq off rest = off + findRowEndGo q inq 0 rest := by
  induction h : rest.length using Nat.strongRecOn generalizing rest inq off with
  | _ n ih =>
  subst h
  cases rest with
  | nil => simp [findRowEndGo]
  | cons c rest =>
    rw [findRowEndGo, findRowEndGo]
    by_cases hc : c = q
    · rw [if_pos hc, if_pos hc]
      by_cases hd : inq ∧ rest.head? = some q
      · rw [if_pos hd, if_pos hd, ih _ (by simp; omega) inq (off + 2) _ rfl, ih _ (by simp; omega) inq (0 + 2) _ rfl]
        omega
      · rw [if_neg hd, if_neg hd, ih _ (by simp) (!inq) (off + 1) _ rfl, ih _ (by simp) (!inq) (0 + 1) _ rfl]
        omega
    · rw [if_neg hc, if_neg hc]
      by_cases hi : inq = false
      · rw [if_pos hi, if_pos hi]
        by_cases h1 : c = LF
        · rw [if_pos h1, if_pos h1]
        · rw [if_neg h1, if_neg h1]
          by_cases h2 : c = CR
          · rw [if_pos h2, if_pos h2]
            by_cases h3 : rest.head? = some LF
            · rw [if_pos h3, if_pos h3]
            · rw [if_neg h3, if_neg h3]
          · rw [if_neg h2, if_neg h2, ih _ (by simp) inq (off + 1) _ rfl, ih _ (by simp) inq (0 + 1) _ rfl]
            omega
      · rw [if_neg hi, if_neg hi, ih _ (by simp) inq (off + 1) _ rfl, ih _ (by simp) inq (0 + 1) _ rfl]
        omega

theorem skipPartialRow_eq (q : UInt8) (hq1 : q ≠ LF) (hq2 : q ≠ CR) (inq : Bool) (rest : Bytes) :
    skipPartialRow q inq rest = rest.drop (findRowEndGo q inq 0 rest) := by
  induction h : rest.length using Nat.strongRecOn generalizing rest inq with
  | _ n ih =>
  subst h
  cases rest with
  | nil => simp [skipPartialRow]
  | cons c rest =>
    rw [findRowEndGo, skipPartialRow.eq_def]
    dsimp only
    by_cases hc : c = q
    · rw [if_pos hc, if_pos hc]
      cases rest with
      | nil => cases inq <;> simp [findRowEndGo]
      | cons d rest' =>
        dsimp only
        by_cases hd : inq = true ∧ d = q
        · rw [if_pos hd, if_pos (by simpa using hd), findRowEndGo_off, ih _ (by simp; omega) _ _ rfl]
          simp [Nat.add_comm 2]
        · rw [if_neg hd, if_neg (by simpa using hd), findRowEndGo_off, ih _ (by simp) _ _ rfl]
          simp [Nat.add_comm 1]
    · rw [if_neg hc, if_neg hc]
      cases inq with
      | true =>
        rw [if_neg (by simp), if_neg (by simp), findRowEndGo_off, ih _ (by simp) _ _ rfl]
        simp [Nat.add_comm 1]
      | false =>
        rw [if_pos rfl]
        by_cases h1 : c = LF
        · rw [if_pos h1, if_pos ⟨rfl, Or.inl h1⟩]
          have : LF ≠ CR := by decide
          cases rest with
          | nil => simp
          | cons d rest' => simp [h1, this]
        · rw [if_neg h1]
          by_cases h2 : c = CR
          · rw [if_pos h2, if_pos ⟨rfl, Or.inr h2⟩]
            cases rest with
            | nil => simp
            | cons d rest' =>
              by_cases h3 : d = LF
              · simp [h2, h3]
              · simp [h2, h3]
          · rw [if_neg h2, if_neg (by simp [h1, h2]), findRowEndGo_off, ih _ (by simp) _ _ rfl]
            simp [Nat.add_comm 1]

theorem skipToClose_eq (q : UInt8) (hq1 : q ≠ LF) (hq2 : q ≠ CR) (rest : Bytes) :
    skipPartialRow q (skipToClose q rest).1 (skipToClose q rest).2 = rest.drop (findRowEndGo q true 0 rest) := by
  induction h : rest.length using Nat.strongRecOn generalizing rest with
  | _ n ih =>
  subst h
  cases rest with
  | nil => simp [skipToClose, skipPartialRow]
  | cons c rest =>
    rw [findRowEndGo, skipToClose.eq_def]
    dsimp only
    by_cases hc : c = q
    · simp only [if_pos hc]
      cases rest with
      | nil => simp [findRowEndGo, skipPartialRow]
      | cons d rest' =>
        by_cases hd : d = q
        · simp only [if_pos hd, true_and, List.head?_cons, Option.some.injEq]
          rw [findRowEndGo_off, ih _ (by simp; omega) _ rfl]
          simp [Nat.add_comm 2]
        · simp only [if_neg hd, true_and, List.head?_cons, Option.some.injEq]
          rw [findRowEndGo_off, skipPartialRow_eq q hq1 hq2]
          simp [Nat.add_comm 1]
    · simp only [if_neg hc]
      rw [if_neg (by simp), findRowEndGo_off, ih _ (by simp) _ rfl]
      simp [Nat.add_comm 1]

/-- C07, chunks that start inside quotes: for every byte content, the worker drops exactly the bytes up to and
including the first row end outside quotes (quotes counted from the inside state), and treats the rest like a chunk
that starts at a row. -/
theorem C07_partial_row_skipped (cfg : ReadCfg) (hq : cfg.quote ≠ 10 ∧ cfg.quote ≠ 13) (n : Nat) (data : List UInt8) :
    ∃ e, ((∃ i, Spec.isRowEnd cfg.quote true data i = true ∧
            (∀ j, j < i → Spec.isRowEnd cfg.quote true data j = false) ∧ e = i + 1) ∨
          ((∀ j, Spec.isRowEnd cfg.quote true data j = false) ∧ e = data.length)) ∧
      parseChunk cfg n true data = parseChunk cfg n false (data.drop e) := by
  refine ⟨findRowEndGo cfg.quote true 0 data, ?_, ?_⟩
  · rw [findRowEndGo_spec cfg.quote hq.1 hq.2, Nat.zero_add]
    unfold firstEnd
    cases h : (Spec.rowEnds cfg.quote true data).head? with
    | none =>
      right
      refine ⟨?_, rfl⟩
      intro j
      rw [List.head?_eq_none_iff] at h
      by_cases hj : j < data.length
      · cases hr : Spec.isRowEnd cfg.quote true data j with
        | false => rfl
        | true =>
          have : j ∈ Spec.rowEnds cfg.quote true data := List.mem_filter.2 ⟨List.mem_range.2 hj, hr⟩
          rw [h] at this; simp at this
      · cases hr : Spec.isRowEnd cfg.quote true data j with
        | false => rfl
        | true => exact absurd (isRowEnd_lt hr) hj
    | some i =>
      left
      obtain ⟨t, ht⟩ := List.head?_eq_some_iff.1 h
      have hmem : i ∈ Spec.rowEnds cfg.quote true data := by rw [ht]; simp
      refine ⟨i, (List.mem_filter.1 hmem).2, ?_, by simp⟩
      intro j hj
      cases hr : Spec.isRowEnd cfg.quote true data j with
      | false => rfl
      | true =>
        exfalso
        have hjm : j ∈ Spec.rowEnds cfg.quote true data := List.mem_filter.2 ⟨List.mem_range.2 (isRowEnd_lt hr), hr⟩
        have hsorted : (Spec.rowEnds cfg.quote true data).Pairwise (· < ·) := List.Pairwise.filter _ List.pairwise_lt_range
        rw [ht] at hjm hsorted
        rcases List.mem_cons.1 hjm with h' | h'
        · omega
        · have := (List.pairwise_cons.1 hsorted).1 j h'; omega
  · unfold parseChunk
    have hskip := skipToClose_eq cfg.quote hq.1 hq.2 data
    simp only [if_true, hskip]
    generalize findRowEndGo cfg.quote true 0 data = e
    by_cases h0 : data.length = 0 ∨ n = 0
    · rw [if_pos h0, if_pos (by rcases h0 with h | h <;> simp [h])]
    · rw [if_neg h0]
      rw [parseRows_enough cfg _ _ _ _ (show (data.drop e).length + 1 ≤ data.length + 1 by simp)]
      by_cases h1 : (data.drop e).length = 0 ∨ n = 0
      · rw [if_pos h1]
        have hd : data.drop e = [] := List.length_eq_zero_iff.1 (by rcases h1 with h | h; exact h; exact absurd (Or.inr h) h0)
        rw [hd]
        simp [parseRows]
      · rw [if_neg h1]
        rfl

/-- Non-vacuity: the chunk `b"" \n c" CR LF d LF` starting inside quotes; the row end inside quotes is not taken. -/
example : parseChunk cfg0 1 true [98, 34, 34, 10, 99, 34, 13, 10, 100, 10] = some ([[.text [100]]], 1) ∧
    Spec.isRowEnd 34 true [98, 34, 34, 10, 99, 34, 13, 10, 100, 10] 7 = true := by decide +kernel

end Vroom
