import Verif.Lemmas.MemDialect3
/-
The memory-level detection computes `detect` of the bytes it was given.
-/
namespace Vroom.Mem
open Vroom

theorem typedCell_eq (v : Bytes) : typedCellM v = some (couldBeInteger v || couldBeFloat v || (inferCellType v != .STRING)) := by
  unfold typedCellM
  rw [couldBeInteger_eq, couldBeFloat_eq, inferCellType_eq]
  cases couldBeInteger v <;> cases couldBeFloat v <;> simp [bne, BEq.beq]

theorem typedCells_eq (cells : List Bytes) : typedCells cells = (cells.filter fun v => couldBeInteger v || couldBeFloat v || (inferCellType v != .STRING)).length := by
  have key : ∀ cells : List Bytes,
      (cells.filter fun v => couldBeInteger v || couldBeFloat v || (inferCellType v != .STRING)).length =
        (cells.filter couldBeInteger).length + (cells.filter (fun f => !couldBeInteger f && couldBeFloat f)).length +
          (cells.filter (fun f => !(couldBeInteger f || couldBeFloat f) && inferCellType f != .STRING)).length ∧
      (cells.filter couldBeInteger).length + (cells.filter (fun f => !couldBeInteger f && couldBeFloat f)).length +
          (cells.filter (fun f => !(couldBeInteger f || couldBeFloat f) && inferCellType f != .STRING)).length ≤ cells.length := by
    intro cells
    induction cells with
    | nil => simp
    | cons c t ih =>
      simp only [Bool.not_or] at ih
      simp only [List.filter_cons, List.length_cons, Bool.not_or]
      cases couldBeInteger c <;> cases couldBeFloat c <;> cases (inferCellType c != .STRING) <;> simp <;> omega
  obtain ⟨h1, h2⟩ := key cells
  rw [h1, typedCells]
  split <;> omega

theorem typeScore_eq (rows : List (List Bytes)) : typeScoreM rows = some (typeScore rows) := by
  unfold typeScoreM typeScore
  dsimp only
  split
  · rfl
  · rw [mapM_eq _ _ _ (fun v _ => typedCell_eq v), Option.map_some, typedCells_eq, List.filter_map]
    simp [Function.comp_def]

theorem escapeSignal_eq (q e : UInt8) {p : Bytes} {len : Nat} (hs : len ≤ p.length) : escapeSignalM q e p len = some (escapeSignal q e (p.take len)) := by
  unfold escapeSignalM escapeSignal
  rw [escapePairs_eq q e hs _ 0 0 0 (Nat.le_refl _), List.drop_zero]
  rfl

theorem scoreDialect_eq (sq : Rat → Rat) (modal : List Nat → Nat) (o : DetectOptions) {p : Bytes} {len : Nat} (hs : len ≤ p.length) (d : Dialect) :
    scoreDialectM sq modal o p len d = some (scoreDialect (detectFns sq modal) o d (p.take len)) := by
  unfold scoreDialectM scoreDialect
  rw [(findRows_eq o d hs).1, Option.bind_some, allFields_eq o d hs, Option.bind_some]
  have hl : (allFields o d (p.take len)).length = (findRows o d (p.take len)).length := by simp [allFields]
  dsimp only
  by_cases h1 : (findRows o d (p.take len)).length < o.minRows
  · rw [if_pos h1, if_pos (.inl (by omega))]
  · rw [if_neg h1]
    by_cases h2 : (allFields o d (p.take len)).map List.length = []
    · rw [if_pos h2, if_pos (.inr h2)]
    · have h3 : ¬ ((allFields o d (p.take len)).length < o.minRows ∨ (allFields o d (p.take len)).map List.length = []) := by
        intro h
        rcases h with h | h
        · omega
        · exact h2 h
      rw [if_neg h2, if_neg h3, typeScore_eq, Option.bind_some]
      unfold boostM
      simp only [escapeSignal_eq _ _ hs, Option.map_some, detectFns]
      split_ifs <;> rfl

theorem headerM_eq (o : DetectOptions) (d : Dialect) {p : Bytes} {len : Nat} (hs : len ≤ p.length) : detectHeaderM o d p len = some (detectHeader o d (p.take len)) := by
  unfold detectHeaderM detectHeader headerOf
  rw [allFields_eq o d hs, Option.bind_some]
  split
  · rename_i h r _ heq
    rw [heq]
    dsimp only
    split
    · rfl
    · rw [mapM_eq _ _ _ (fun v _ => inferCellType_eq v), Option.bind_some, mapM_eq _ _ _ (fun v _ => inferCellType_eq v), Option.map_some]
      have e1 : ∀ l : List Bytes, ((l.zip (l.map inferCellType)).filter (fun x => x.2 == CellType.STRING && !x.1.isEmpty)).length =
          (l.filter (fun f => inferCellType f == .STRING && !f.isEmpty)).length := by
        intro l
        induction l with
        | nil => rfl
        | cons a t ih =>
          simp only [List.map_cons, List.zip_cons_cons, List.filter_cons]
          split <;> simp [ih]
      rw [e1, List.filter_map, List.length_map]
      rfl
  · rename_i h
    split
    · rename_i h' r' t heq
      exact absurd heq (h _ _ _)
    · rfl

theorem lineEnding_eq {p : Bytes} {len : Nat} (hs : len ≤ p.length) : detectLineEndingM p len = some (detectLineEnding (p.take len)) := by
  unfold detectLineEndingM detectLineEnding
  rw [lineEndingGo_eq hs _ _ 0 (Nat.le_refl _), List.drop_zero, Option.map_some]

theorem sampleLen_le (o : DetectOptions) (data : Bytes) : sampleLen o data ≤ data.length := by
  unfold sampleLen
  exact Nat.min_le_left _ _

theorem detect_eq (sq : Rat → Rat) (modal : List Nat → Nat) (sort : List DialectCandidate → List DialectCandidate) (o : DetectOptions) {p : Bytes} {len : Nat} (hs : len ≤ p.length) :
    detectM sq modal sort o p len = some (detect (detectFns sq modal) sort o (p.take len)) := by
  have hl : (p.take len).length = len := by simp; omega
  unfold detectM detect
  by_cases h0 : len = 0
  · subst h0
    rfl
  · have he : ¬ (p.take len).isEmpty = true := by
      intro h; rw [List.isEmpty_iff] at h; rw [h] at hl; exact h0 hl.symm
    rw [if_neg h0, if_neg he]
    obtain ⟨hc, hle⟩ := skipCommentLines_eq o hs
    rw [hc, Option.bind_some, if_pos hle]
    dsimp only
    generalize hcc : skipCommentLines o (p.take len) = c at hle
    have hdata : (p.take len).drop c.1 = (p.drop c.1).take (len - c.1) := by rw [List.drop_take]
    have hq : len - c.1 ≤ (p.drop c.1).length := by rw [List.length_drop]; omega
    have hdl : ((p.drop c.1).take (len - c.1)).length = len - c.1 := by rw [List.length_take]; omega
    by_cases h1 : len - c.1 = 0
    · rw [if_pos h1, if_pos (by rw [hdata, h1]; rfl)]
    · rw [if_neg h1, if_neg (by rw [hdata, List.isEmpty_iff]; intro h; rw [h] at hdl; exact h1 hdl.symm), hdata, sampleLen_eq o hq, Option.bind_some]
      have hn := sampleLen_le o ((p.drop c.1).take (len - c.1))
      generalize sampleLen o ((p.drop c.1).take (len - c.1)) = n at hn
      rw [hdl] at hn
      have hq2 : n ≤ (p.drop c.1).length := by omega
      rw [List.take_take, Nat.min_eq_left hn, lineEnding_eq hq2, Option.bind_some,
        mapM_eq _ _ _ (fun d _ => scoreDialect_eq sq modal o hq2 d), Option.bind_some]
      rw [scoredCandidates]
      generalize sort _ = cands
      cases cands with
      | nil => rfl
      | cons best others =>
        dsimp only
        split
        · rw [headerM_eq o _ hq2, Option.bind_some, (findRows_eq o _ hq2).1, Option.map_some]
          rfl
        · rfl

end Vroom.Mem
