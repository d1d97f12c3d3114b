import Verif.Props.WindowRow
/- A clear file stays clear when it is cut into groups of rows: the windows of a row only get shorter at the end of its group. -/
namespace Vroom
open Spec

theorem windowLeft_short (n e : Nat) (h : n ≤ 64) : windowLeft n e = 0 := by
  unfold windowLeft; rw [if_neg (by omega)]

/-- With at most 64 bytes left there are no windows. -/
theorem clear_short (M : Marks) (fs : List (List UInt8)) (t : List UInt8) (a : Bool) (h : (joinFields M.sep fs ++ t).length ≤ 64) : WindowClear M 0 a fs t := by
  induction fs generalizing a with
  | nil => trivial
  | cons f fs ih =>
    refine ⟨fun _ k c hk => absurd hk (by omega), ?_⟩
    rw [if_neg (by omega), windowLeft_short _ _ h]
    cases fs with
    | nil => trivial
    | cons g gs =>
      apply ih
      simp only [joinFields, List.length_append, List.length_cons] at h ⊢
      omega

/-- With less text after it, a clear row stays clear. -/
theorem clear_shorter (M : Marks) (fs : List (List UInt8)) (t t' : List UInt8) (ht : t'.length ≤ t.length) (w : Nat) (a : Bool) (h : WindowClear M w a fs t) :
    WindowClear M w a fs t' := by
  induction fs generalizing w a with
  | nil => trivial
  | cons f fs ih =>
    obtain ⟨h1, h2⟩ := h
    refine ⟨h1, ?_⟩
    split
    · next hlt => rw [if_pos hlt] at h2; exact ih _ _ h2
    · next hlt =>
      rw [if_neg hlt] at h2
      cases fs with
      | nil => trivial
      | cons g gs =>
        simp only [joinFields, List.length_append, List.length_cons] at h2 ⊢
        by_cases hw : (f.length + ((joinFields M.sep (g :: gs)).length + 1) + t'.length) - 64 * (f.length / 64) > 64
        · rw [show windowLeft (f.length + ((joinFields M.sep (g :: gs)).length + 1) + t'.length) f.length =
            windowLeft (f.length + ((joinFields M.sep (g :: gs)).length + 1) + t.length) f.length by
              unfold windowLeft; rw [if_pos hw, if_pos (by omega)]]
          exact ih _ _ h2
        · rw [show windowLeft (f.length + ((joinFields M.sep (g :: gs)).length + 1) + t'.length) f.length = 0 by
              unfold windowLeft; rw [if_neg hw]]
          apply clear_short
          simp only [List.length_append]
          omega

theorem fileClear_right (M : Marks) (A B : List WRow) (h : FileClear M (A ++ B)) : FileClear M B := by
  induction A with
  | nil => exact h
  | cons r A ih => exact ih h.2

/-- The rows before a cut, with the line end after them. -/
theorem fileClear_left (M : Marks) (A B : List WRow) (hA : A ≠ []) (hB : B ≠ []) (h : FileClear M (A ++ B)) : FileClear M (A ++ [emptyRow]) := by
  induction A with
  | nil => exact absurd rfl hA
  | cons r A ih =>
    obtain ⟨h1, h2⟩ := h
    refine ⟨fun hb => clear_shorter M _ _ _ ?_ _ _ (h1 hb), ?_⟩
    · have hBne : A ++ B ≠ [] := by simp [hB]
      have hEne : A ++ [emptyRow] ≠ [] := by simp
      rw [List.append_eq] at *
      rw [if_neg hEne, List.append_eq, if_neg hBne]
      simp only [List.length_append, List.length_cons]
      by_cases hA' : A = []
      · subst hA'
        simp [renderFile, joinFields, emptyRow, WRow.render, WField.render]
      · rw [renderFile_snoc M A hA', renderFile_append M A B hA' hB]
        simp only [List.length_append, List.length_cons, List.length_nil]
        omega
    · by_cases hA' : A = []
      · subst hA'
        exact ⟨fun hb => absurd hb (by decide), trivial⟩
      · exact ih hA' h2

/-- Groups of rows of a clear file are cut into their fields. -/
theorem groupsWhole_clear (cfg : ReadCfg) (hM : ReadSane cfg.dial) (gs : List (List WRow)) (hg : ∀ g ∈ gs, g ≠ []) (hne : ∀ g ∈ gs, ∀ r ∈ g, r.fields ≠ [])
    (hwf : ∀ g ∈ gs, ∀ r ∈ g, ∀ f ∈ r.fields, f.WF cfg.dial) (h : FileClear cfg.dial gs.flatten) : GroupsWhole cfg gs := by
  induction gs with
  | nil => trivial
  | cons g gs ih =>
    cases gs with
    | nil =>
      rw [List.flatten_cons, List.flatten_nil, List.append_nil] at h
      exact (cutsWhole_iff cfg hM g (hne g (by simp)) (hwf g (by simp))).2 h
    | cons g' gs =>
      have hB : (g' :: gs).flatten ≠ [] := by
        intro he
        rw [List.flatten_cons, List.append_eq_nil_iff] at he
        exact hg g' (by simp) he.1
      rw [List.flatten_cons] at h
      refine ⟨(cutsWhole_iff cfg hM _ ?_ ?_).2 (fileClear_left cfg.dial g _ (hg g (by simp)) hB h),
        ih (fun x hx => hg x (by simp [List.mem_cons.1 hx])) (fun x hx => hne x (by simp [List.mem_cons.1 hx]))
          (fun x hx => hwf x (by simp [List.mem_cons.1 hx])) (fileClear_right cfg.dial g _ h)⟩
      · intro r hr
        rcases List.mem_append.1 hr with h | h
        · exact hne g (by simp) r h
        · rw [List.mem_singleton.1 h]; exact (emptyRow_wf cfg.dial).ne
      · intro r hr
        rcases List.mem_append.1 hr with h | h
        · exact hwf g (by simp) r h
        · rw [List.mem_singleton.1 h]; exact (emptyRow_wf _).wf

/-- Rows written without a line end or separator in quotes after an unquoted field are clear. -/
theorem fileClear_tame (cfg : ReadCfg) (hM : ReadSane cfg.dial) (rows : List WRow) (hwf : ∀ r ∈ rows, r.WF cfg.dial) : FileClear cfg.dial rows :=
  (cutsWhole_iff cfg hM rows (fun r hr => (hwf r hr).ne) (fun r hr => (hwf r hr).wf)).1 (cutsWhole_tame cfg hM rows hwf)

end Vroom
