import Verif.Model.Reader
import Verif.Lemmas.SplitFields
/- Lemmas about the CSV reader. -/
namespace Vroom
open Spec

/-! ### Null checker -/

/-- Pieces of a comma-separated list as the constructor sees them. -/
theorem build_empty (nc : NullChecker) (rest : Bytes) (h : nc.emptyIsNull = true) :
    (NullChecker.build nc rest).emptyIsNull = true := by
  induction hn : rest.length using Nat.strongRecOn generalizing nc rest with
  | _ n ih =>
  subst hn
  rw [NullChecker.build]
  split
  · exact h
  · next hne =>
    dsimp only
    apply ih (rest.drop (findComma rest + 1)).length (by simp; omega) _ _ _ rfl
    split <;> simp [h]

theorem nc_isNull_nil (cfg : ReadCfg) : cfg.nc.isNull [] = true := by
  unfold ReadCfg.nc NullChecker.mk' NullChecker.isNull
  rw [if_pos rfl]
  exact build_empty _ _ rfl

/-! ### Rows to columns -/

/-- The cell of column `j` for a row of raw fields. -/
def cellAt (nc : NullChecker) (q : UInt8) (fs : List (Bytes × Bool)) (j : Nat) : Cell :=
  match fs[j]? with
  | none => .null
  | some f => cellOf nc q f.1 f.2

theorem push_length (cols : Cols) (i : Nat) (c : Cell) : (Cols.push cols i c).length = cols.length := by
  simp [Cols.push]

theorem push_get (cols : Cols) (i : Nat) (c : Cell) (j : Nat) :
    (Cols.push cols i c)[j]? = (cols[j]?).map (fun col => if i = j then col ++ [c] else col) := by
  unfold Cols.push
  rw [List.getElem?_modify]
  by_cases h : i = j
  · subst h
    simp only [if_true]; rfl
  · simp only [h, if_false]; cases cols[j]? <;> rfl

theorem fieldFold_spec (nc : NullChecker) (q : UInt8) (fs : List (Bytes × Bool)) (cols : Cols) (idx : Nat) :
    (fs.foldl (fieldStep nc q cols.length) (cols, idx)).2 = idx + fs.length ∧
    (fs.foldl (fieldStep nc q cols.length) (cols, idx)).1.length = cols.length ∧
    ∀ j, (fs.foldl (fieldStep nc q cols.length) (cols, idx)).1[j]? =
      (cols[j]?).map (fun col => if idx ≤ j ∧ j < idx + fs.length then col ++ [cellAt nc q fs (j - idx)] else col) := by
  induction fs generalizing cols idx with
  | nil =>
    refine ⟨rfl, rfl, ?_⟩
    intro j
    have : ¬ (idx ≤ j ∧ j < idx + ([] : List (Bytes × Bool)).length) := by simp
    simp only [this, if_false, List.foldl_nil]
    cases cols[j]? <;> rfl
  | cons f fs ih =>
    rw [List.foldl_cons]
    unfold fieldStep
    dsimp only
    by_cases h : idx ≥ cols.length
    · rw [if_pos h]
      obtain ⟨h1, h2, h3⟩ := ih cols (idx + 1)
      unfold fieldStep at h1 h2 h3
      refine ⟨by rw [h1]; simp; omega, h2, ?_⟩
      intro j
      rw [h3 j]
      by_cases hj : j < cols.length
      · have e1 : ¬ (idx + 1 ≤ j ∧ j < idx + 1 + fs.length) := by omega
        have e2 : ¬ (idx ≤ j ∧ j < idx + (f :: fs).length) := by omega
        simp only [e1, e2, if_false]
      · rw [List.getElem?_eq_none (by omega)]; rfl
    · rw [if_neg h]
      have hl := push_length cols idx (cellOf nc q f.1 f.2)
      obtain ⟨h1, h2, h3⟩ := ih (Cols.push cols idx (cellOf nc q f.1 f.2)) (idx + 1)
      unfold fieldStep at h1 h2 h3
      rw [hl] at h1 h2 h3
      refine ⟨by rw [h1]; simp; omega, h2, ?_⟩
      intro j
      rw [h3 j, push_get, Option.map_map]
      congr 1
      funext col
      simp only [Function.comp]
      by_cases hj : idx = j
      · subst hj
        have e1 : ¬ (idx + 1 ≤ idx ∧ idx < idx + 1 + fs.length) := by omega
        have e2 : (idx ≤ idx ∧ idx < idx + (f :: fs).length) := by simp
        simp only [e1, e2, if_false, if_true, Nat.sub_self]
        rfl
      · simp only [hj, if_false]
        by_cases hr : idx + 1 ≤ j ∧ j < idx + 1 + fs.length
        · have e2 : (idx ≤ j ∧ j < idx + (f :: fs).length) := by simp; omega
          rw [if_pos hr, if_pos e2]
          have : j - idx = (j - (idx + 1)) + 1 := by omega
          rw [this]
          rfl
        · have e2 : ¬ (idx ≤ j ∧ j < idx + (f :: fs).length) := by simp; omega
          rw [if_neg hr, if_neg e2]

theorem fillNulls_spec (n : Nat) (cols : Cols) (idx : Nat) :
    (fillNulls n cols idx).length = cols.length ∧
    ∀ j, (fillNulls n cols idx)[j]? = (cols[j]?).map (fun col => if idx ≤ j ∧ j < n then col ++ [.null] else col) := by
  induction hk : n - idx generalizing cols idx with
  | zero =>
    rw [fillNulls, if_neg (by omega)]
    refine ⟨rfl, ?_⟩
    intro j
    have : ¬ (idx ≤ j ∧ j < n) := by omega
    simp only [this, if_false]; cases cols[j]? <;> rfl
  | succ k ih =>
    rw [fillNulls, if_pos (by omega)]
    obtain ⟨h1, h2⟩ := ih (Cols.push cols idx .null) (idx + 1) (by omega)
    refine ⟨by rw [h1, push_length], ?_⟩
    intro j
    rw [h2 j, push_get, Option.map_map]
    congr 1
    funext col
    simp only [Function.comp]
    by_cases hj : idx = j
    · subst hj
      have e1 : ¬ (idx + 1 ≤ idx ∧ idx < n) := by omega
      have e2 : idx ≤ idx ∧ idx < n := by omega
      rw [if_neg e1, if_pos e2, if_pos rfl]
    · have : (idx + 1 ≤ j ∧ j < n) ↔ (idx ≤ j ∧ j < n) := by omega
      simp only [hj, if_false, this]

theorem addRow_spec (nc : NullChecker) (q : UInt8) (cols : Cols) (fs : List (Bytes × Bool)) :
    addRow nc q cols.length cols fs = cols.mapIdx (fun j col => col ++ [cellAt nc q fs j]) := by
  obtain ⟨h1, h2, h3⟩ := fieldFold_spec nc q fs cols 0
  unfold addRow
  dsimp only
  obtain ⟨g1, g2⟩ := fillNulls_spec cols.length (fs.foldl (fieldStep nc q cols.length) (cols, 0)).1
    (fs.foldl (fieldStep nc q cols.length) (cols, 0)).2
  apply List.ext_getElem?
  intro j
  rw [g2 j, h3 j, h1, List.getElem?_mapIdx, Option.map_map]
  by_cases hj : j < cols.length
  · rw [List.getElem?_eq_getElem hj]
    simp only [Option.map_some, Function.comp, Nat.zero_add, Nat.zero_le, true_and, Nat.sub_zero, hj, and_true]
    by_cases hf : j < fs.length
    · rw [if_pos hf, if_neg (by omega)]
    · rw [if_neg hf, if_pos (by omega)]
      unfold cellAt
      rw [List.getElem?_eq_none (by omega)]
  · rw [List.getElem?_eq_none (by omega)]; rfl

/-- The raw rows the row loop visits. -/
def rawRows (cfg : ReadCfg) : Nat → Bytes → Option (List (List (Bytes × Bool)))
  | 0, _ => none
  | fuel + 1, rest =>
    if (skipBlank rest).length = 0 then some []
    else
      match splitRow cfg.cpu cfg.dial cfg.junk (skipBlank rest) with
      | none => none
      | some (fs, tail) => (rawRows cfg fuel tail).map (fs :: ·)

theorem parseRows_spec (cfg : ReadCfg) (fuel : Nat) (cols : Cols) (rows : Nat) (rest : Bytes) :
    parseRows cfg fuel cols rows rest =
      (rawRows cfg fuel rest).map (fun rs =>
        (cols.mapIdx (fun j col => col ++ rs.map (fun fs => cellAt cfg.nc cfg.quote fs j)), rows + rs.length)) := by
  induction fuel generalizing cols rows rest with
  | zero => rfl
  | succ fuel ih =>
    have hid : cols.mapIdx (fun _ col => col) = cols := by
      apply List.ext_getElem?
      intro j
      rw [List.getElem?_mapIdx]; cases cols[j]? <;> rfl
    unfold parseRows rawRows
    by_cases h0 : rest.length = 0
    · have : rest = [] := List.length_eq_zero_iff.1 h0
      subst this
      have : skipBlank [] = [] := by rw [skipBlank]
      simp [this, hid]
    · rw [if_neg h0]
      dsimp only
      by_cases h1 : (skipBlank rest).length = 0
      · simp [h1, hid]
      · rw [if_neg h1, if_neg h1]
        cases splitRow cfg.cpu cfg.dial cfg.junk (skipBlank rest) with
        | none => rfl
        | some r =>
          obtain ⟨fs, tail⟩ := r
          dsimp only
          rw [ih, addRow_spec, Option.map_map]
          congr 1
          funext rs
          simp only [Function.comp, Prod.mk.injEq, List.length_cons]
          refine ⟨?_, by omega⟩
          apply List.ext_getElem?
          intro j
          simp only [List.getElem?_mapIdx]
          cases cols[j]? <;> simp

theorem skipBlank_length (d : Bytes) : (skipBlank d).length ≤ d.length := by
  fun_induction skipBlank d <;> simp_all <;> omega

/-- Every row loop ends normally, for every content. -/
theorem rawRows_total (cfg : ReadCfg) (fuel : Nat) (rest : Bytes) (h : rest.length + 1 ≤ fuel) :
    ∃ rs, rawRows cfg fuel rest = some rs := by
  induction hn : rest.length using Nat.strongRecOn generalizing rest fuel with
  | _ n ih =>
  subst hn
  obtain ⟨fuel, rfl⟩ : ∃ k, fuel = k + 1 := ⟨fuel - 1, by omega⟩
  unfold rawRows
  by_cases h1 : (skipBlank rest).length = 0
  · exact ⟨[], by rw [if_pos h1]⟩
  · rw [if_neg h1]
    have hsb := skipBlank_length rest
    unfold splitRow
    obtain ⟨fs, tail, g1, g2, g3, _⟩ := collect_total cfg.cpu cfg.dial ((skipBlank rest).length + 2)
      { rest := skipBlank rest } cfg.junk false rfl (CacheOK.zero _ _) (by simp)
    rw [g1]
    dsimp only
    have hlt : tail.length < rest.length := by
      rcases g3 with g3 | ⟨g3, g4⟩
      · have := congrArg List.length g3
        simp at this; omega
      · subst g4; simp; omega
    obtain ⟨rs, hrs⟩ := ih tail.length hlt fuel tail (by omega) rfl
    exact ⟨fs :: rs, by rw [hrs]; rfl⟩

theorem rawRows_congr (cfg : ReadCfg) (fuel : Nat) (a b : Bytes) (h : skipBlank a = skipBlank b) :
    rawRows cfg fuel a = rawRows cfg fuel b := by
  cases fuel with
  | zero => rfl
  | succ fuel => unfold rawRows; rw [h]

theorem rawRows_mono (cfg : ReadCfg) (fuel k : Nat) (a : Bytes) (rs) (h : rawRows cfg fuel a = some rs) :
    rawRows cfg (fuel + k) a = some rs := by
  induction fuel generalizing a rs with
  | zero => simp [rawRows] at h
  | succ fuel ih =>
    rw [show fuel + 1 + k = (fuel + k) + 1 by omega]
    unfold rawRows at h ⊢
    split
    · next h0 => rw [if_pos h0] at h; exact h
    · next h0 =>
      rw [if_neg h0] at h
      cases hs : splitRow cfg.cpu cfg.dial cfg.junk (skipBlank a) with
      | none => rw [hs] at h; simp at h
      | some r =>
        obtain ⟨fs, tail⟩ := r
        rw [hs] at h
        dsimp only at h ⊢
        cases hr : rawRows cfg fuel tail with
        | none => rw [hr] at h; simp at h
        | some rs' => rw [ih tail rs' hr]; rw [hr] at h; exact h

end Vroom
