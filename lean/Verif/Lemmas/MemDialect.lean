import Verif.Model.MemDialect
import Verif.Lemmas.MemLine
import Mathlib.Tactic.SplitIfs
/-
The checked loads of `Model/MemDialect` against the byte lists of the other models: rows and fields.
-/
namespace Vroom.Mem
open Vroom

theorem dropWhile_drop (f : UInt8 → Bool) (l : Bytes) : l.dropWhile f = l.drop (l.takeWhile f).length := by
  induction l with
  | nil => rfl
  | cons a l ih =>
    by_cases h : f a = true
    · simp [List.dropWhile_cons, List.takeWhile_cons, h, ih]
    · simp [List.dropWhile_cons, List.takeWhile_cons, h]

theorem blankRun_eq {p : Bytes} {len : Nat} (hs : len ≤ p.length) : ∀ (n i : Nat), len - i ≤ n → blankRunM p len i = some (i + blanks ((p.take len).drop i)) := by
  intro n
  induction n with
  | zero =>
    intro i h
    rw [blankRunM, if_neg (by omega), drop_end (by omega)]; rfl
  | succ n ih =>
    intro i h
    by_cases hi : i < len
    · obtain ⟨c, e1, e2⟩ := ld_step hs hi
      rw [blankRunM, if_pos hi, e1, Option.bind_some, e2]
      unfold blanks
      rw [List.takeWhile_cons]
      by_cases hb : (c == 32 || c == 9) = true
      · rw [if_pos hb, if_pos hb, ih (i + 1) (by omega), List.length_cons]
        unfold blanks
        congr 1; omega
      · rw [if_neg hb, if_neg hb]; rfl
    · rw [blankRunM, if_neg hi, drop_end hi]; rfl

theorem isComment_eq (o : DetectOptions) {p : Bytes} {len : Nat} (hs : len ≤ p.length) : isCommentM o p len = some (isCommentLine o (p.take len)) := by
  have hl : (p.take len).length = len := by simp; omega
  unfold isCommentM isCommentLine
  have he : (p.take len).isEmpty = (len == 0) := by
    cases h : (p.take len) with
    | nil => rw [h] at hl; simp at hl; simp [← hl]
    | cons a t => rw [h] at hl; simp at hl; simp [← hl]
  rw [he]
  by_cases hc : (o.commentChars.isEmpty || len == 0) = true
  · rw [if_pos hc, if_pos hc]
  · rw [if_neg hc, if_neg hc, blankRun_eq hs _ 0 (Nat.le_refl _), Option.bind_some, List.drop_zero, Nat.zero_add, dropWhile_drop]
    change _ = some (match (p.take len).drop (blanks (p.take len)) with | [] => false | c :: _ => o.commentChars.contains c)
    by_cases hi : blanks (p.take len) < len
    · obtain ⟨c, e1, e2⟩ := ld_step hs hi
      rw [if_neg (by omega), e1, e2]; rfl
    · rw [if_pos (by omega), drop_end hi]

theorem pushRow_eq (o : DetectOptions) {p : Bytes} {len : Nat} (hs : len ≤ p.length) (rows : List (Nat × Nat)) {s e : Nat} (he : e ≤ len) :
    pushRowM o p rows s e = some (pushRow o (p.take len) rows s e) := by
  unfold pushRowM pushRow
  by_cases h : s < e
  · rw [if_pos h, if_pos h, isComment_eq o (by rw [List.length_drop]; omega), List.drop_take, List.take_take, Nat.min_eq_left (by omega)]
    rfl
  · rw [if_neg h, if_neg h]

theorem rowEnd_eq {p : Bytes} {rs i : Nat} {prev : UInt8} (h : 0 < i → ld p (i - 1) = some prev) :
    rowEndM p rs i = some (if (decide (i > rs) && prev == 13) = true then i - 1 else i) := by
  unfold rowEndM
  by_cases hi : i > rs
  · rw [if_pos hi, h (by omega)]
    by_cases hp : prev = 13 <;> simp [hi, hp]
  · rw [if_neg hi]; simp [hi]

theorem findRowsGo_eq (o : DetectOptions) (d : Dialect) {p : Bytes} {len : Nat} (hs : len ≤ p.length) : ∀ (n i : Nat) (prev : UInt8) (inQ : Bool) (rs : Nat) (rows : List (Nat × Nat)),
    len - i ≤ n → i ≤ len → (0 < i → ld p (i - 1) = some prev) →
    findRowsGoM o d p len i inQ rs rows = some (findRowsLoop o d (p.take len) ((p.take len).drop i) i prev inQ rs rows) := by
  intro n
  induction n with
  | zero =>
    intro i prev inQ rs rows h1 h2 h3
    rw [findRowsGoM, if_neg (by omega), drop_end (by omega)]
    simp only [findRowsLoop]
  | succ n ih =>
    intro i prev inQ rs rows h1 h2 h3
    by_cases hi : i < len
    · obtain ⟨c, e1, e2⟩ := ld_step hs hi
      have hre := rowEnd_eq (rs := rs) h3
      have hele : (if (decide (i > rs) && prev == 13) = true then i - 1 else i) ≤ len := by split <;> omega
      rw [findRowsGoM, if_pos hi, e1, Option.bind_some, e2]
      unfold nextIsM
      rw [peek_eq hs, peek_eq hs, hre, Option.bind_some, pushRow_eq o hs rows hele, pushRow_eq o hs rows (show i ≤ len by omega)]
      by_cases hj : i + 1 < len
      · obtain ⟨c', f1, f2⟩ := ld_step hs hj
        have g1 := fun inQ rs rows => ih (i + 1) c inQ rs rows (by omega) (by omega) (fun _ => e1)
        have g2 := fun inQ rs rows => ih (i + 2) c' inQ rs rows (by omega) (by omega) (fun _ => f1)
        rw [f2] at g1 ⊢
        rw [findRowsLoop]
        simp only [g1, g2, List.head?_cons, Option.some.injEq, hj, and_true]
        by_cases c1 : d.escapes c = true
        · rw [if_pos c1, if_pos c1]
        · rw [if_neg c1, if_neg c1]
          by_cases c2 : d.quotes c = true
          · rw [if_pos c2, if_pos c2]
            by_cases c3 : d.doubleQuote = true
            · rw [if_pos c3, c3, Option.bind_some]
              by_cases c4 : c' = d.quote
              · simp [c4]
              · simp [c4]
            · rw [if_neg c3]
              simp [c3]
          · rw [if_neg c2, if_neg c2]
            cases inQ with
            | true => simp
            | false =>
              simp only [if_true, Bool.not_false, Option.bind_some]
              by_cases c5 : c = 10
              · subst c5
                simp only [if_true, beq_self_eq_true]
                generalize pushRow o (p.take len) rows rs (if (decide (i > rs) && prev == 13) = true then i - 1 else i) = rows'
                by_cases c6 : rows'.length ≥ o.maxRows
                · rw [if_pos c6, if_pos c6]
                · rw [if_neg c6, if_neg c6]
              · have c5' : ¬ (c == 10) = true := by simpa using c5
                rw [if_neg c5, if_neg c5']
                by_cases c7 : c = 13
                · subst c7
                  by_cases c8 : c' = 10
                  · simp [c8]
                  · have c8' : (((13 : UInt8) == 13) && (c' != 10)) = true := by simp [c8]
                    rw [if_pos rfl, decide_eq_false c8, if_pos c8']
                    simp only [Bool.false_eq_true, if_false]
                    generalize pushRow o (p.take len) rows rs i = rows'
                    by_cases c6 : rows'.length ≥ o.maxRows
                    · rw [if_pos c6, if_pos c6]
                    · rw [if_neg c6, if_neg c6]
                · rw [if_neg c7]
                  simp [c7]
      · have g1 := fun inQ rs rows => ih (i + 1) c inQ rs rows (by omega) (by omega) (fun _ => e1)
        rw [drop_end hj] at g1 ⊢
        rw [findRowsLoop]
        simp only [g1, List.head?_nil, hj, and_false, if_false, findRowsLoop]
        by_cases c2 : d.quotes c = true
        · rw [if_pos c2, if_pos c2]
          simp
        · rw [if_neg c2, if_neg c2]
          cases inQ with
          | true => simp
          | false =>
            simp only [if_true, Bool.not_false, Option.bind_some]
            by_cases c5 : c = 10
            · subst c5
              simp
            · have c5' : ¬ (c == 10) = true := by simpa using c5
              rw [if_neg c5, if_neg c5']
              by_cases c7 : c = 13
              · subst c7
                simp
              · simp [c7]
    · rw [findRowsGoM, if_neg hi, drop_end hi]
      simp only [findRowsLoop]

/-- Rows found end at or before the end, and start before they end. -/
def RowsIn (len : Nat) (rows : List (Nat × Nat)) : Prop := ∀ r ∈ rows, r.1 < r.2 ∧ r.2 ≤ len

theorem pushRow_in {o : DetectOptions} {buf : Bytes} {rows : List (Nat × Nat)} {s e len : Nat} (h : RowsIn len rows) (he : e ≤ len) : RowsIn len (pushRow o buf rows s e) := by
  unfold pushRow
  by_cases h1 : s < e
  · rw [if_pos h1]
    split
    · intro r hr
      rcases List.mem_append.1 hr with hr | hr
      · exact h r hr
      · rw [List.mem_singleton.1 hr]; exact ⟨h1, he⟩
    · exact h
  · rw [if_neg h1]; exact h

theorem endLe (i rs : Nat) (prev : UInt8) : (if (decide (i > rs) && prev == 13) = true then i - 1 else i) ≤ i := by split <;> omega

theorem findRowsLoop_in (o : DetectOptions) (d : Dialect) (buf : Bytes) (len : Nat) : ∀ (rest : Bytes) (i : Nat) (prev : UInt8) (inQ : Bool) (rs : Nat) (rows : List (Nat × Nat)),
    i + rest.length ≤ len → RowsIn len rows → RowsIn len (findRowsLoop o d buf rest i prev inQ rs rows).1 := by
  intro rest i prev inQ rs rows
  fun_induction findRowsLoop o d buf rest i prev inQ rs rows <;> intro h1 h2 <;> simp only [List.length_cons, List.length_nil] at *
  all_goals first
    | exact h2
    | exact pushRow_in h2 (Nat.le_trans (endLe _ _ _) (by omega))
    | exact pushRow_in h2 (by omega)
    | (rename_i ih; exact ih (by omega) h2)
    | (rename_i ih; exact ih (by omega) (pushRow_in h2 (Nat.le_trans (endLe _ _ _) (by omega))))
    | (rename_i ih; exact ih (by omega) (pushRow_in h2 (by omega)))

theorem findRows_eq (o : DetectOptions) (d : Dialect) {p : Bytes} {len : Nat} (hs : len ≤ p.length) :
    findRowsM o d p len = some (findRows o d (p.take len)) ∧ RowsIn len (findRows o d (p.take len)) := by
  have hl : (p.take len).length = len := by simp; omega
  unfold findRowsM findRows
  have hg := findRowsGo_eq o d hs _ 0 0 false 0 [] (Nat.le_refl _) (Nat.zero_le _) (fun h => absurd h (Nat.lt_irrefl _))
  rw [List.drop_zero] at hg
  have hin := findRowsLoop_in o d (p.take len) len (p.take len) 0 0 false 0 [] (by omega) (by intro r hr; cases hr)
  dsimp only
  rw [hl]
  by_cases h0 : len = 0
  · subst h0
    simp [findRowsLoop, RowsIn]
  · rw [if_neg h0, hg, Option.bind_some]
    generalize findRowsLoop o d (p.take len) (p.take len) 0 0 false 0 [] = r at hin
    by_cases hc : r.2 < len ∧ r.1.length < o.maxRows
    · have hc' : (decide (r.2 < len) && decide (r.1.length < o.maxRows)) = true := by simp [hc.1, hc.2]
      rw [if_pos hc, if_pos hc', isComment_eq o (by rw [List.length_drop]; omega), ← List.drop_take]
      refine ⟨rfl, ?_⟩
      split
      · intro x hx
        rcases List.mem_append.1 hx with hx | hx
        · exact hin x hx
        · rw [List.mem_singleton.1 hx]; exact ⟨hc.1, Nat.le_refl _⟩
      · exact hin
    · have hc' : ¬ (decide (r.2 < len) && decide (r.1.length < o.maxRows)) = true := by simpa using hc
      rw [if_neg hc, if_neg hc']
      exact ⟨rfl, hin⟩

/-- The bytes of a field. -/
def cut (p : Bytes) (v : Nat × Nat) : Bytes := (p.drop v.1).take v.2

theorem extractGo_eq (d : Dialect) {p : Bytes} {len : Nat} (hs : len ≤ p.length) : ∀ (n : Nat) (inQ : Bool) (fs : Nat) (acc : List (Nat × Nat)) (i : Nat),
    len - i ≤ n → fs ≤ i → i ≤ len → (∀ v ∈ acc, v.1 + v.2 ≤ len) →
    ∃ vs, extractGoM d p len inQ fs acc i = some vs ∧ (∀ v ∈ vs, v.1 + v.2 ≤ len) ∧
      vs.map (cut p) = acc.map (cut p) ++ extractLoop d ((p.take len).drop i) inQ (between (p.take len) fs i) := by
  intro n
  induction n with
  | zero =>
    intro inQ fs acc i h1 h2 h3 h4
    have : i = len := by omega
    subst this
    refine ⟨acc ++ [(fs, i - fs)], ?_, ?_, ?_⟩
    · rw [extractGoM, if_neg (by omega), if_pos h2]
    · intro v hv
      rcases List.mem_append.1 hv with hv | hv
      · exact h4 v hv
      · rw [List.mem_singleton.1 hv]; dsimp only; omega
    · rw [drop_end (by omega), List.map_append, List.map_singleton, extractLoop, between_take (Nat.le_refl _)]; rfl
  | succ n ih =>
    intro inQ fs acc i h1 h2 h3 h4
    by_cases hi : i < len
    · obtain ⟨c, e1, e2⟩ := ld_step hs hi
      have hsn := between_snoc h2 e2
      have hsnoc : ∀ v ∈ acc ++ [(fs, i - fs)], v.1 + v.2 ≤ len := by
        intro v hv
        rcases List.mem_append.1 hv with hv | hv
        · exact h4 v hv
        · rw [List.mem_singleton.1 hv]; dsimp only; omega
      have hnil : between (p.take len) (i + 1) (i + 1) = [] := by unfold between; simp
      have hcut : cut p (fs, i - fs) = between (p.take len) fs i := (between_take (by omega)).symm
      rw [extractGoM, if_pos hi, e1, Option.bind_some, e2]
      unfold nextIsM
      rw [peek_eq hs]
      by_cases hj : i + 1 < len
      · obtain ⟨c', f1, f2⟩ := ld_step hs hj
        have hsn2 := between_snoc (a := fs) (i := i + 1) (by omega) f2
        have hap : between (p.take len) fs i ++ [c, c'] = between (p.take len) fs (i + 2) := by rw [← hsn2, ← hsn]; simp
        have g1 := fun inQ => ih inQ fs acc (i + 1) (by omega) (by omega) (by omega) h4
        have g2 := fun inQ => ih inQ fs acc (i + 2) (by omega) (by omega) (by omega) h4
        have g3 := fun inQ => ih inQ (i + 1) (acc ++ [(fs, i - fs)]) (i + 1) (by omega) (by omega) (by omega) hsnoc
        rw [f2] at g1 g3 ⊢
        rw [extractLoop]
        simp only [List.head?_cons, Option.some.injEq, hj, and_true, hap, hsn]
        by_cases c1 : d.escapes c = true
        · rw [if_pos c1, if_pos c1]
          exact g2 _
        · rw [if_neg c1, if_neg c1]
          by_cases c2 : d.quotes c = true
          · rw [if_pos c2, if_pos c2]
            by_cases c4 : (d.doubleQuote && c' == d.quote) = true
            · rw [if_pos c4]
              simp only [Bool.and_eq_true, beq_iff_eq] at c4
              rw [if_pos c4.1, Option.bind_some, decide_eq_true c4.2, if_pos rfl]
              exact g2 _
            · rw [if_neg c4]
              have hb : (if d.doubleQuote = true then some (decide (c' = d.quote)) else some false) = some false := by
                by_cases c5 : d.doubleQuote = true
                · rw [if_pos c5, decide_eq_false]
                  intro hc; exact c4 (by simp [c5, hc])
                · rw [if_neg c5]
              rw [hb]
              simp only [Option.bind_some, Bool.false_eq_true, if_false]
              exact g1 _
          · rw [if_neg c2, if_neg c2]
            by_cases c3 : inQ = false ∧ c = d.delimiter
            · have c3' : (!inQ && c == d.delimiter) = true := by simp [c3.1, c3.2]
              rw [if_pos c3, if_pos c3', if_pos h2]
              obtain ⟨vs, v1, v2, v3⟩ := g3 inQ
              refine ⟨vs, v1, v2, ?_⟩
              rw [v3, List.map_append, List.map_singleton, hcut, hnil]
              simp
            · have c3' : ¬ (!inQ && c == d.delimiter) = true := by simpa using c3
              rw [if_neg c3, if_neg c3']
              exact g1 _
      · have g1 := fun inQ => ih inQ fs acc (i + 1) (by omega) (by omega) (by omega) h4
        have g3 := fun inQ => ih inQ (i + 1) (acc ++ [(fs, i - fs)]) (i + 1) (by omega) (by omega) (by omega) hsnoc
        rw [drop_end hj] at g1 g3 ⊢
        simp only [extractLoop] at g1 g3 ⊢
        simp only [hj, and_false, if_false, hsn]
        by_cases c2 : d.quotes c = true
        · rw [if_pos c2, if_pos c2]
          have hb : (if d.doubleQuote = true then some (decide (([] : Bytes).head? = some d.quote)) else some false) = some false := by
            by_cases c5 : d.doubleQuote = true <;> simp [c5]
          rw [hb]
          simp only [Option.bind_some, Bool.false_eq_true, if_false]
          exact g1 _
        · rw [if_neg c2, if_neg c2]
          by_cases c3 : inQ = false ∧ c = d.delimiter
          · have c3' : (!inQ && c == d.delimiter) = true := by simp [c3.1, c3.2]
            rw [if_pos c3, if_pos c3', if_pos h2]
            obtain ⟨vs, v1, v2, v3⟩ := g3 inQ
            refine ⟨vs, v1, v2, ?_⟩
            rw [v3, List.map_append, List.map_singleton, hcut, hnil]
            simp
          · have c3' : ¬ (!inQ && c == d.delimiter) = true := by simpa using c3
            rw [if_neg c3, if_neg c3']
            exact g1 _
    · have : i = len := by omega
      subst this
      refine ⟨acc ++ [(fs, i - fs)], ?_, ?_, ?_⟩
      · rw [extractGoM, if_neg (by omega), if_pos h2]
      · intro v hv
        rcases List.mem_append.1 hv with hv | hv
        · exact h4 v hv
        · rw [List.mem_singleton.1 hv]; dsimp only; omega
      · rw [drop_end (by omega), List.map_append, List.map_singleton, extractLoop, between_take (Nat.le_refl _)]; rfl

theorem stripQuotes_eq (d : Dialect) {p : Bytes} {len : Nat} (hs : len ≤ p.length) {v : Nat × Nat} (hv : v.1 + v.2 ≤ len) :
    ∃ w, stripQuotesM d p v = some w ∧ w.1 + w.2 ≤ len ∧ cut p w = stripQuotes d (cut p v) := by
  obtain ⟨a, n⟩ := v
  dsimp only at hv
  unfold stripQuotesM stripQuotes cut
  dsimp only
  have hl := piece_length (m := p) (off := a) (size := n) (by omega)
  rw [hl]
  by_cases h : n ≥ 2 ∧ d.quote ≠ 0
  · obtain ⟨k, rfl⟩ : ∃ k, n = k + 1 := ⟨n - 1, by omega⟩
    obtain ⟨x, x1, x2⟩ := piece_cons (m := p) (off := a) (n := k) (by omega)
    obtain ⟨y, y1, y2⟩ := piece_snoc (m := p) (off := a) (n := k) (by omega)
    have hh : ((p.drop a).take (k + 1)).head? = some x := by rw [x2]; rfl
    have hla : ((p.drop a).take (k + 1)).getLast? = some y := by rw [y2]; simp
    rw [if_pos h, x1, Option.bind_some, show a + (k + 1) - 1 = a + k by omega, y1, hh, hla]
    by_cases hx : x = d.quote
    · rw [if_pos hx]
      by_cases hy : y = d.quote
      · refine ⟨(a + 1, k + 1 - 2), by simp [hy], by dsimp only; omega, ?_⟩
        rw [if_pos (by simp [hx, hy, h.1, h.2])]
        rw [List.dropLast_eq_take, List.drop_take, List.drop_drop, List.take_take]
        congr 1
        simp; omega
      · refine ⟨(a, k + 1), by simp [hy], by dsimp only; omega, ?_⟩
        rw [if_neg (by simp [hy])]
    · rw [if_neg hx]
      exact ⟨(a, k + 1), rfl, by dsimp only; omega, by rw [if_neg (by simp [hx])]⟩
  · rw [if_neg h]
    refine ⟨(a, n), rfl, hv, ?_⟩
    rw [if_neg]
    intro hc
    simp only [Bool.and_eq_true, decide_eq_true_eq, bne_iff_ne] at hc
    exact h ⟨hc.1.1.1, hc.1.1.2⟩

theorem extractFields_eq (d : Dialect) {p : Bytes} {len : Nat} (hs : len ≤ p.length) :
    ∃ vs, extractFieldsM d p len = some vs ∧ (∀ v ∈ vs, v.1 + v.2 ≤ len) ∧ vs.map (cut p) = extractFields d (p.take len) := by
  have hl : (p.take len).length = len := by simp; omega
  unfold extractFieldsM extractFields
  by_cases h0 : len = 0
  · subst h0; exact ⟨[], by simp, by simp, by simp⟩
  · rw [if_neg h0]
    have hne : ¬ (p.take len).isEmpty = true := by
      intro h; rw [List.isEmpty_iff] at h; rw [h] at hl; simp at hl; omega
    rw [if_neg hne]
    obtain ⟨vs, v1, v2, v3⟩ := extractGo_eq d hs _ false 0 [] 0 (Nat.le_refl _) (Nat.le_refl _) (Nat.zero_le _) (by simp)
    rw [v1, Option.bind_some]
    rw [List.drop_zero, List.map_nil, List.nil_append, show between (p.take len) 0 0 = [] by unfold between; simp] at v3
    rw [← v3]
    clear v1 v3
    induction vs with
    | nil => exact ⟨[], rfl, by simp, rfl⟩
    | cons v vs ih =>
      obtain ⟨ws, w1, w2, w3⟩ := ih (fun x hx => v2 x (by simp [hx]))
      obtain ⟨w, u1, u2, u3⟩ := stripQuotes_eq d hs (v2 v (by simp))
      refine ⟨w :: ws, ?_, ?_, ?_⟩
      · rw [List.mapM_cons, u1, w1]; rfl
      · intro x hx
        rcases List.mem_cons.1 hx with rfl | hx
        · exact u2
        · exact w2 x hx
      · rw [List.map_cons, u3, w3]; rfl

theorem views_eq {p : Bytes} {len : Nat} (hs : len ≤ p.length) (vs : List (Nat × Nat)) (h : ∀ v ∈ vs, v.1 + v.2 ≤ len) : vs.mapM (viewM p) = some (vs.map (cut p)) :=
  mapM_eq _ _ vs (fun v hv => by unfold viewM; rw [if_pos (by have := h v hv; omega)]; rfl)

/-- Rows and fields at the memory level. -/
theorem allFields_eq (o : DetectOptions) (d : Dialect) {p : Bytes} {len : Nat} (hs : len ≤ p.length) : allFieldsM o d p len = some (allFields o d (p.take len)) := by
  obtain ⟨h1, h2⟩ := findRows_eq o d hs
  unfold allFieldsM allFields
  rw [h1, Option.bind_some]
  apply mapM_eq
  intro r hr
  have hr' := h2 r hr
  have hle : r.2 - r.1 ≤ (p.drop r.1).length := by rw [List.length_drop]; omega
  obtain ⟨vs, v1, v2, v3⟩ := extractFields_eq d hle
  rw [if_pos (by omega), v1, Option.bind_some, views_eq hle vs v2, v3, List.drop_take, List.take_take, Nat.min_eq_left (by omega)]

end Vroom.Mem
