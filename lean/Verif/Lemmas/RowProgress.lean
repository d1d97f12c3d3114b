import Verif.Lemmas.SplitFields
import Mathlib.Tactic.SplitIfs
/-
Where the row-end search may end, for any quote character: past its start and inside the data.
-/
namespace Vroom

theorem rowEndGo_le (q : UInt8) : ∀ (n : Nat) (inq : Bool) (off : Nat) (rest : Bytes), rest.length ≤ n → findRowEndGo q inq off rest ≤ off + rest.length := by
  intro n
  induction n with
  | zero => intro inq off rest h; have : rest = [] := by simpa using h
            subst this; simp [findRowEndGo]
  | succ n ih =>
    intro inq off rest h
    cases rest with
    | nil => simp [findRowEndGo]
    | cons c rest =>
      rw [findRowEndGo.eq_def]
      dsimp only
      simp only [List.length_cons] at h ⊢
      have e1 := fun b => ih b (off + 1) rest (by omega)
      have e2 := fun b => ih b (off + 2) (rest.drop 1) (by simp; omega)
      simp only [List.length_drop] at e2
      have hh : ∀ x : UInt8, rest.head? = some x → 1 ≤ rest.length := by
        intro x hx; cases rest <;> simp at hx ⊢
      split_ifs with h1 h2 h3 h4 h5 h6
      · have := hh _ h2.2; have := e2 inq; omega
      · have := e1 (!inq); omega
      · omega
      · have := hh _ h6; omega
      · omega
      · have := e1 inq; omega
      · have := e1 inq; omega

theorem rowEndLoop_le (cpu : Cpu) (q : UInt8) : ∀ (n : Nat) (qs : U64) (off : Nat) (rest : Bytes), rest.length ≤ n → rowEndLoop cpu q qs off rest ≤ off + rest.length := by
  intro n
  induction n with
  | zero =>
    intro qs off rest h
    rw [rowEndLoop, if_neg (by omega)]
    exact rowEndGo_le q _ _ _ _ (Nat.le_refl _)
  | succ n ih =>
    intro qs off rest h
    rw [rowEndLoop]
    by_cases h64 : rest.length ≥ 64
    · rw [if_pos h64]
      dsimp only
      generalize validEol _ _ _ _ = eol
      by_cases h0 : eol ≠ 0#64
      · rw [if_pos h0]
        have hb := (ctz_spec eol h0).1
        split_ifs with h1 h2
        · omega
        · have : eol.ctz.toNat + 1 < rest.length := by
            by_contra hc
            rw [List.getElem?_eq_none (l := rest) (by omega)] at h2
            simp at h2
          omega
        · omega
      · rw [if_neg h0]
        have := ih (findQuoteMask cpu.pf.run (blockMask cpu.lanes q (rest.take 64)) qs).2 (off + 64) (rest.drop 64) (by simp; omega)
        simp only [List.length_drop] at this
        omega
    · rw [if_neg h64]
      exact rowEndGo_le q _ _ _ _ (Nat.le_refl _)

theorem rowEndPrefix_le (cpu : Cpu) (q : UInt8) (al : Nat) : ∀ (n : Nat) (inq : Bool) (off : Nat) (rest : Bytes), rest.length ≤ n → rowEndPrefix cpu q al inq off rest ≤ off + rest.length := by
  intro n
  induction n with
  | zero =>
    intro inq off rest h
    have : rest = [] := by simpa using h
    subst this
    rw [rowEndPrefix.eq_def]
    dsimp only
    split_ifs <;> exact rowEndLoop_le cpu q _ _ _ _ (Nat.le_refl _)
  | succ n ih =>
    intro inq off rest h
    rw [rowEndPrefix.eq_def]
    by_cases ha : off < al
    · rw [if_pos ha]
      cases rest with
      | nil => exact rowEndLoop_le cpu q _ _ _ _ (Nat.le_refl _)
      | cons c rest =>
        dsimp only
        simp only [List.length_cons] at h ⊢
        have e1 := fun b => ih b (off + 1) rest (by omega)
        have e2 := fun b => ih b (off + 2) (rest.drop 1) (by simp; omega)
        simp only [List.length_drop] at e2
        have hh : ∀ x : UInt8, rest.head? = some x → 1 ≤ rest.length := by
          intro x hx; cases rest <;> simp at hx ⊢
        split_ifs with h1 h2 h3 h4 h5 h6
        · have := hh _ h2.2; have := e2 inq; omega
        · have := e1 (!inq); omega
        · omega
        · have := hh _ h6; omega
        · omega
        · have := e1 inq; omega
        · have := e1 inq; omega
    · rw [if_neg ha]
      exact rowEndLoop_le cpu q _ _ _ _ (Nat.le_refl _)

theorem findRowEnd_le (cpu : Cpu) (q : UInt8) (data : Bytes) (start : Nat) : findRowEnd cpu q data start ≤ data.length := by
  unfold findRowEnd findRowEndSimd findRowEndScalar
  dsimp only
  split_ifs with h1 h2 h3
  · exact Nat.le_refl _
  · have := rowEndPrefix_le cpu q (min (((start + 63) / 64) * 64) data.length) _ false start (data.drop start) (Nat.le_refl _)
    simp only [List.length_drop] at this
    omega
  · have := rowEndGo_le q _ false start (data.drop start) (Nat.le_refl _)
    simp only [List.length_drop] at this
    omega
  · exact Nat.le_refl _

/-- The scan ends at or behind its start, and behind it if there is a byte left. -/
theorem rowEndGo_gt (q : UInt8) : ∀ (n : Nat) (inq : Bool) (off : Nat) (rest : Bytes), rest.length ≤ n →
    off + min 1 rest.length ≤ findRowEndGo q inq off rest := by
  intro n
  induction n with
  | zero => intro inq off rest h; have : rest = [] := by simpa using h
            subst this; simp [findRowEndGo]
  | succ n ih =>
    intro inq off rest h
    cases rest with
    | nil => simp [findRowEndGo]
    | cons c rest =>
      rw [findRowEndGo.eq_def]
      dsimp only
      simp only [List.length_cons] at h ⊢
      have e1 := fun b => ih b (off + 1) rest (by omega)
      have e2 := fun b => ih b (off + 2) (rest.drop 1) (by simp; omega)
      split_ifs with h1 h2 h3 h4 h5 h6
      · have := e2 inq; omega
      · have := e1 (!inq); omega
      · omega
      · omega
      · omega
      · have := e1 inq; omega
      · have := e1 inq; omega

theorem rowEndLoop_gt (cpu : Cpu) (q : UInt8) : ∀ (n : Nat) (qs : U64) (off : Nat) (rest : Bytes), rest.length ≤ n →
    off + min 1 rest.length ≤ rowEndLoop cpu q qs off rest := by
  intro n
  induction n with
  | zero =>
    intro qs off rest h
    rw [rowEndLoop, if_neg (by omega)]
    exact rowEndGo_gt q _ _ _ _ (Nat.le_refl _)
  | succ n ih =>
    intro qs off rest h
    rw [rowEndLoop]
    by_cases h64 : rest.length ≥ 64
    · rw [if_pos h64]
      dsimp only
      generalize validEol _ _ _ _ = eol
      by_cases h0 : eol ≠ 0#64
      · rw [if_pos h0]
        split_ifs with h1 h2 <;> omega
      · rw [if_neg h0]
        have := ih (findQuoteMask cpu.pf.run (blockMask cpu.lanes q (rest.take 64)) qs).2 (off + 64) (rest.drop 64) (by simp; omega)
        omega
    · rw [if_neg h64]
      exact rowEndGo_gt q _ _ _ _ (Nat.le_refl _)

theorem rowEndPrefix_gt (cpu : Cpu) (q : UInt8) (al : Nat) : ∀ (n : Nat) (inq : Bool) (off : Nat) (rest : Bytes), rest.length ≤ n →
    off + min 1 rest.length ≤ rowEndPrefix cpu q al inq off rest := by
  intro n
  induction n with
  | zero =>
    intro inq off rest h
    have : rest = [] := by simpa using h
    subst this
    rw [rowEndPrefix.eq_def]
    dsimp only
    split_ifs <;> exact rowEndLoop_gt cpu q _ _ _ _ (Nat.le_refl _)
  | succ n ih =>
    intro inq off rest h
    rw [rowEndPrefix.eq_def]
    by_cases ha : off < al
    · rw [if_pos ha]
      cases rest with
      | nil => exact rowEndLoop_gt cpu q _ _ _ _ (Nat.le_refl _)
      | cons c rest =>
        dsimp only
        simp only [List.length_cons] at h ⊢
        have e1 := fun b => ih b (off + 1) rest (by omega)
        have e2 := fun b => ih b (off + 2) (rest.drop 1) (by simp; omega)
        split_ifs with h1 h2 h3 h4 h5 h6
        · have := e2 inq; omega
        · have := e1 (!inq); omega
        · omega
        · omega
        · omega
        · have := e1 inq; omega
        · have := e1 inq; omega
    · rw [if_neg ha]
      exact rowEndLoop_gt cpu q _ _ _ _ (Nat.le_refl _)

theorem findRowEnd_gt (cpu : Cpu) (q : UInt8) (data : Bytes) (start : Nat) (hs : start < data.length) : start < findRowEnd cpu q data start := by
  unfold findRowEnd findRowEndSimd findRowEndScalar
  dsimp only
  split_ifs with h1 h2 h3
  · omega
  · have := rowEndPrefix_gt cpu q (min (((start + 63) / 64) * 64) data.length) _ false start (data.drop start) (Nat.le_refl _)
    simp only [List.length_drop] at this
    omega
  · have := rowEndGo_gt q _ false start (data.drop start) (Nat.le_refl _)
    simp only [List.length_drop] at this
    omega
  · omega

end Vroom
