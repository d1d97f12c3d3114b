import Verif.Lemmas.ClearGroups
/- A chunk that ends inside quotes: its last row is cut inside a quoted field, and the cell of that field is not the value written. -/
namespace Vroom
open Spec

theorem escape_split (q : UInt8) (v : Bytes) (i : Nat) (c : UInt8) (h : (escape q v)[i]? = some c) (hc : c ≠ q) :
    ∃ p s, v = p ++ c :: s ∧ (escape q v).take (i + 1) = escape q p ++ [c] := by
  induction v generalizing i with
  | nil => simp [escape] at h
  | cons d r ih =>
    unfold escape at h ⊢
    split at h
    · next hd =>
      rw [if_pos hd]
      match i, h with
      | 0, h => simp at h; exact absurd h.symm hc
      | 1, h => simp at h; exact absurd h.symm hc
      | i + 2, h =>
        simp only [List.getElem?_cons_succ] at h
        obtain ⟨p, s, h1, h2⟩ := ih i h
        refine ⟨d :: p, s, by rw [h1]; rfl, ?_⟩
        rw [List.take_succ_cons, List.take_succ_cons, h2]; simp only [escape, if_pos hd]; rfl
    · next hd =>
      rw [if_neg hd]
      match i, h with
      | 0, h =>
        simp at h
        exact ⟨[], r, by rw [h]; rfl, by simp [escape, h]⟩
      | i + 1, h =>
        simp only [List.getElem?_cons_succ] at h
        obtain ⟨p, s, h1, h2⟩ := ih i h
        refine ⟨d :: p, s, by rw [h1]; rfl, ?_⟩
        rw [List.take_succ_cons, h2]; simp only [escape, if_neg hd]; rfl

/-- A line-end byte inside the fields of a row is inside a quoted field. -/
theorem inside_field (M : Marks) (hM : ReadSane M) (fs : List WField) (hwf : ∀ f ∈ fs, f.WF M) (k : Nat) (c : UInt8) (hc : c = 10 ∨ c = 13)
    (h : (joinFields M.sep (fs.map (·.render M.quote)))[k]? = some c) :
    ∃ fs1 v fs2 p s, fs = fs1 ++ .quoted v :: fs2 ∧ v = p ++ c :: s ∧
      (joinFields M.sep (fs.map (·.render M.quote))).take (k + 1) = joinFields M.sep (fs1.map (·.render M.quote) ++ [M.quote :: escape M.quote p ++ [c]]) := by
  have hcq : c ≠ M.quote := by
    rcases hc with rfl | rfl
    · rw [← hM.eol_lf]; exact hM.eol_quote
    · exact hM.quote_cr.symm
  have hcs : c ≠ M.sep := by
    rcases hc with rfl | rfl
    · rw [← hM.eol_lf]; exact hM.sep_eol.symm
    · exact hM.sep_cr.symm
  induction fs generalizing k with
  | nil => simp [joinFields] at h
  | cons f fs ih =>
    have first : (f.render M.quote)[k]? = some c → ∃ v p s, f = .quoted v ∧ v = p ++ c :: s ∧ (f.render M.quote).take (k + 1) = M.quote :: escape M.quote p ++ [c] := by
      intro hk
      cases f with
      | plain s =>
        exfalso
        have hm := List.mem_of_getElem? hk
        have := hwf (.plain s) (by simp)
        rcases hc with rfl | rfl
        · rw [← hM.eol_lf] at hm; exact this.2.2.1 hm
        · exact this.2.2.2 hm
      | quoted v =>
        rw [WField.render, List.cons_append] at hk ⊢
        cases k with
        | zero => simp at hk; exact absurd hk.symm hcq
        | succ k =>
          rw [List.getElem?_cons_succ] at hk
          have hlt : k < (escape M.quote v).length := by
            by_contra hge
            rw [List.getElem?_append_right (by omega)] at hk
            cases hj : k - (escape M.quote v).length with
            | zero => rw [hj] at hk; simp at hk; exact hcq hk.symm
            | succ j => rw [hj] at hk; simp at hk
          rw [List.getElem?_append_left hlt] at hk
          obtain ⟨p, s, h1, h2⟩ := escape_split _ _ _ _ hk hcq
          refine ⟨v, p, s, rfl, h1, ?_⟩
          rw [List.take_succ_cons, List.take_append_of_le_length (by omega), h2]; rfl
    cases fs with
    | nil =>
      simp only [List.map_cons, List.map_nil, joinFields] at h ⊢
      obtain ⟨v, p, s, rfl, h2, h3⟩ := first h
      exact ⟨[], v, [], p, s, rfl, h2, by rw [h3]; rfl⟩
    | cons g gs =>
      simp only [List.map_cons] at h ⊢
      rw [joinFields_cons _ _ _ (by simp)] at h ⊢
      by_cases hlt : k < (f.render M.quote).length
      · rw [List.getElem?_append_left hlt] at h
        obtain ⟨v, p, s, rfl, h2, h3⟩ := first h
        refine ⟨[], v, g :: gs, p, s, rfl, h2, ?_⟩
        rw [List.take_append_of_le_length (by omega), h3]; rfl
      · rw [List.getElem?_append_right (by omega)] at h
        obtain ⟨m, rfl⟩ : ∃ m, k = (f.render M.quote).length + m := ⟨k - (f.render M.quote).length, by omega⟩
        rw [Nat.add_sub_cancel_left] at h
        cases m with
        | zero => simp at h; exact absurd h.symm hcs
        | succ m =>
          rw [List.getElem?_cons_succ] at h
          obtain ⟨fs1, v, fs2, p, s, h1, h2, h3⟩ := ih (fun x hx => hwf x (by simp [List.mem_cons.1 hx])) m h
          refine ⟨f :: fs1, v, fs2, p, s, by rw [h1]; rfl, h2, ?_⟩
          rw [List.take_append, List.take_of_length_le (by omega), show (f.render M.quote).length + (m + 1) + 1 - (f.render M.quote).length = (m + 1) + 1 by omega,
            List.take_succ_cons]
          rw [List.map_cons] at h3
          rw [h3]
          show _ = joinFields M.sep (f.render M.quote :: (fs1.map (·.render M.quote) ++ [M.quote :: escape M.quote p ++ [c]]))
          rw [joinFields_cons _ _ _ (by simp)]

/-- The fields before a cut inside a field stay clear. -/
theorem clear_prefix (M : Marks) (fs1 : List Bytes) (X Z : Bytes) (gs : List Bytes) (t : Bytes) (w : Nat) (a : Bool) (h : WindowClear M w a (fs1 ++ (X ++ Z) :: gs) t) :
    WindowClear M w a (fs1 ++ [X]) [] := by
  induction fs1 generalizing w a with
  | nil =>
    refine ⟨fun ha k c hk hc => h.1 ha k c hk ?_, by split <;> trivial⟩
    have hlt := (List.getElem?_eq_some_iff.1 hc).1
    rw [List.getElem?_append_left hlt]; exact hc
  | cons f fs ih =>
    obtain ⟨h1, h2⟩ := h
    refine ⟨h1, ?_⟩
    split
    · next hlt => rw [if_pos hlt] at h2; exact ih _ _ h2
    · next hlt =>
      rw [if_neg hlt] at h2
      have e1 : (joinFields M.sep (f :: (fs ++ [X])) ++ ([] : Bytes)).length = f.length + ((joinFields M.sep (fs ++ [X])).length + 1) := by
        rw [joinFields_cons _ _ _ (by simp)]; simp
      have e2 : (joinFields M.sep (f :: (fs ++ (X ++ Z) :: gs)) ++ t).length = f.length + ((joinFields M.sep (fs ++ (X ++ Z) :: gs)).length + 1) + t.length := by
        rw [joinFields_cons _ _ _ (by simp)]; simp; omega
      have hle : (joinFields M.sep (fs ++ [X])).length ≤ (joinFields M.sep (fs ++ (X ++ Z) :: gs)).length := by
        clear * -
        induction fs with
        | nil =>
          cases gs with
          | nil => simp [joinFields]
          | cons g gs => simp [joinFields]
        | cons g fs ih => rw [List.cons_append, List.cons_append, joinFields_cons _ _ _ (by simp), joinFields_cons _ _ _ (by simp)]; simp; omega
      rw [List.append_eq] at *
      rw [e2] at h2
      rw [e1]
      by_cases hw : (f.length + ((joinFields M.sep (fs ++ [X])).length + 1)) - 64 * (f.length / 64) > 64
      · rw [show windowLeft (f.length + ((joinFields M.sep (fs ++ [X])).length + 1)) f.length =
          windowLeft (f.length + ((joinFields M.sep (fs ++ (X ++ Z) :: gs)).length + 1) + t.length) f.length by
            unfold windowLeft; rw [if_pos hw, if_pos (by omega)]]
        exact ih _ _ h2
      · rw [show windowLeft (f.length + ((joinFields M.sep (fs ++ [X])).length + 1)) f.length = 0 by unfold windowLeft; rw [if_neg hw]]
        apply clear_short
        simp only [List.length_append, List.length_nil]
        omega

/-- An open field at the end of the data: a quote first, and every separator and line end inside quotes. -/
structure OpenField (D : Marks) (X : Bytes) : Prop where
  head : X.head? = some D.quote
  inside : ∀ (k : Nat) (c : UInt8), X[k]? = some c → c = D.sep ∨ c = D.eol → (X.take k).count D.quote % 2 = 1

/-- A row whose last field is cut. -/
theorem windowRow_open (D : Marks) (hD : D.Sane) (fs : List Bytes) (X : Bytes) (hX : OpenField D X) (hraw : ∀ f ∈ fs, RawField D f) (w : Nat) (aware : Bool)
    (h : WindowClear D w aware (fs ++ [X]) []) : WindowRow D w aware (joinFields D.sep (fs ++ [X])) (fs ++ [X]) [] := by
  induction fs generalizing w aware with
  | nil =>
    show WindowRow D w aware X [X] []
    have htrue : IsFieldEnd true D X X.length := by
      refine ⟨Nat.le_refl _, fun h => absurd h (by omega), ?_⟩
      intro k hk hend
      obtain ⟨h1, h2⟩ := hend
      have hx : ∃ c, X[k]? = some c ∧ (c = D.sep ∨ c = D.eol) := by
        rcases h1 with h1 | h1
        · exact ⟨_, h1, .inl rfl⟩
        · exact ⟨_, h1, .inr rfl⟩
      obtain ⟨c, c1, c2⟩ := hx
      have := hX.inside k c c1 c2
      have := h2 rfl
      omega
    have hopen : decide (OpensQuote D X) = true := by rw [decide_eq_true_eq]; exact ⟨hD.quote_nz, hX.head⟩
    have fin : ∀ w' a', FieldStep D w aware X X.length w' a' → WindowRow D w aware X [X] [] := by
      intro w' a' hs
      have := WindowRow.last hs (.inl rfl)
      rw [List.take_length, List.drop_of_length_le (by omega)] at this
      exact this
    have hsearch : (∀ e, IsFieldEnd aware D X e → w ≤ e) → WindowRow D w aware X [X] [] := by
      intro hs
      refine fin _ _ (.search hs ?_)
      rw [hopen]; exact htrue
    obtain ⟨e, he⟩ := fieldEnd_exists aware D hD.sep_quote hD.eol_quote X
    by_cases hlt : e < w
    · cases aware with
      | true =>
        have := fieldEnd_unique he htrue
        subst this
        exact fin _ _ (.shown he hlt)
      | false =>
        by_cases hel : e = X.length
        · subst hel; exact fin _ _ (.shown he hlt)
        · have := (he.2.1 (by have := he.1; omega)).1
          rcases this with g | g
          · exact absurd rfl (h.1 rfl e _ hlt g).1
          · exact absurd rfl (h.1 rfl e _ hlt g).2
    · refine hsearch fun e' he' => ?_
      have := fieldEnd_unique he he'
      omega
  | cons f fs ih =>
    obtain ⟨h1, h2⟩ := h
    rw [List.append_eq] at h2
    have hj : joinFields D.sep (f :: (fs ++ [X])) = f ++ D.sep :: joinFields D.sep (fs ++ [X]) := joinFields_cons _ _ _ (by simp)
    rw [List.append_nil] at h2
    show WindowRow D w aware (joinFields D.sep (f :: (fs ++ [X]))) (f :: (fs ++ [X])) []
    rw [hj] at h2 ⊢
    have hstep := fun w' a' => raw_step D hD w aware f (D.sep :: joinFields D.sep (fs ++ [X])) (hraw f (by simp)) (.inr (.inl rfl)) w' a'
    have hdrop : (f ++ D.sep :: joinFields D.sep (fs ++ [X])).drop (f.length + 1) = joinFields D.sep (fs ++ [X]) := by rw [List.drop_append]; simp
    have go : ∀ w' a', FieldStep D w aware (f ++ D.sep :: joinFields D.sep (fs ++ [X])) f.length w' a' → WindowClear D w' a' (fs ++ [X]) [] →
        WindowRow D w aware (f ++ D.sep :: joinFields D.sep (fs ++ [X])) (f :: (fs ++ [X])) [] := by
      intro w' a' hs hc
      have := WindowRow.more hs (by simp) (by rw [List.getElem?_append_right (by omega), Nat.sub_self]; simpa using hD.sep_eol)
        (hdrop ▸ ih (fun x hx => hraw x (by simp [hx])) w' a' hc)
      rwa [List.take_left' rfl] at this
    split at h2
    · next hlt => exact go _ _ ((hstep _ _).2 ⟨h1, by rw [if_pos hlt]⟩) h2
    · next hlt => exact go _ _ ((hstep _ _).2 ⟨h1, by rw [if_neg hlt]⟩) h2

theorem unescapeGo_count (q c : UInt8) (hc : c ≠ q) (l : Bytes) : (unescapeGo q l).count c = l.count c := by
  fun_induction unescapeGo q l with
  | case1 => rfl
  | case2 => rfl
  | case3 a b rest h ih => rw [h.1, h.2, List.count_cons_of_ne hc.symm, ih, List.count_cons_of_ne hc.symm, List.count_cons_of_ne hc.symm]
  | case4 a b rest h ih => rw [List.count_cons, ih, List.count_cons (a := c) (b := a)]

theorem unescapeQuotes_count (q c : UInt8) (hc : c ≠ q) (l : Bytes) : (unescapeQuotes l q).count c = l.count c := by
  unfold unescapeQuotes
  split
  · rfl
  · exact unescapeGo_count q c hc l

theorem escape_count_other (q c : UInt8) (hc : c ≠ q) (l : Bytes) : (escape q l).count c = l.count c := by
  induction l with
  | nil => rfl
  | cons d r ih =>
    unfold escape
    split
    · next h => rw [h, List.count_cons_of_ne hc.symm, List.count_cons_of_ne hc.symm, List.count_cons_of_ne hc.symm, ih]
    · rw [List.count_cons, List.count_cons (a := c) (b := d), ih]

theorem unescape_open (q : UInt8) (hq : q ≠ 10) (p s : Bytes) : unescapeGo q (q :: escape q p ++ [10]) ≠ p ++ 10 :: s := by
  induction p with
  | nil =>
    intro h
    simp only [escape, List.cons_append, List.nil_append, unescapeGo] at h
    rw [if_neg (by rintro ⟨-, h⟩; exact hq h.symm)] at h
    simp only [List.cons.injEq] at h
    exact hq h.1
  | cons a p ih =>
    intro h
    unfold escape at h
    split at h
    · next ha =>
      subst ha
      simp only [List.cons_append, unescapeGo, and_self, if_true] at h
      exact ih (by simpa using h)
    · next ha =>
      simp only [List.cons_append, unescapeGo] at h
      rw [if_neg (by rintro ⟨-, h⟩; exact ha h)] at h
      simp only [List.cons.injEq] at h
      exact ha h.1.symm

/-- The cell of an open field is not the value written. -/
theorem open_cell (nc : NullChecker) (q : UInt8) (h10 : q ≠ 10) (h13 : q ≠ 13) (p s : Bytes) (c : UInt8) (hc : c = 10 ∨ c = 13) :
    (cellOf nc q (q :: escape q p ++ [c]) true).toOption ≠ some (p ++ c :: s) := by
  unfold cellOf
  dsimp only
  have hlast : (q :: escape q p ++ [c]).getLast? = some c := by rw [List.getLast?_append]; simp
  rcases hc with rfl | rfl
  · have hstrip : stripCR (q :: escape q p ++ [10]) = q :: escape q p ++ [10] := by unfold stripCR; rw [hlast, if_neg (by decide)]
    rw [hstrip, hlast]
    split
    · simp [Cell.toOption]
    · rw [if_pos rfl, if_neg (by rintro ⟨-, -, h⟩; rw [Option.some.injEq] at h; exact h10 h.symm)]
      unfold unescapeQuotes
      rw [if_neg (by simp)]
      intro h
      simp only [Cell.toOption, Option.some.injEq] at h
      exact unescape_open q h10 p s h
  · have hstrip : stripCR (q :: escape q p ++ [13]) = q :: escape q p := by
      unfold stripCR; rw [hlast, if_pos rfl]; exact List.dropLast_concat ..
    rw [hstrip]
    split
    · simp [Cell.toOption]
    · rw [if_pos rfl]
      intro h
      simp only [Cell.toOption, Option.some.injEq] at h
      have := congrArg (List.count 13) h
      rw [unescapeQuotes_count q 13 h13.symm, List.count_append, List.count_cons_self] at this
      have hle : (if (q :: escape q p).length ≥ 2 ∧ (q :: escape q p).head? = some q ∧ (q :: escape q p).getLast? = some q then
          ((q :: escape q p).drop 1).take ((q :: escape q p).length - 2) else q :: escape q p).count 13 ≤ p.count 13 := by
        rw [← escape_count_other q 13 h13.symm p]
        split
        · exact List.Sublist.count_le _ (List.take_sublist ..)
        · rw [List.count_cons_of_ne h13]; exact Nat.le_refl _
      omega

theorem escape_append (q : UInt8) (a b : Bytes) : escape q (a ++ b) = escape q a ++ escape q b := by
  induction a with
  | nil => rfl
  | cons d r ih =>
    simp only [List.cons_append, escape]
    split <;> simp [ih]

theorem openField_cut (D : Marks) (hD : D.Sane) (p : Bytes) (c : UInt8) : OpenField D (D.quote :: escape D.quote p ++ [c]) := by
  refine ⟨rfl, ?_⟩
  intro k c' hk hc'
  have hq : c' ≠ D.quote := by
    rcases hc' with rfl | rfl
    · exact hD.sep_quote
    · exact hD.eol_quote
  rw [List.cons_append] at hk ⊢
  cases k with
  | zero => simp at hk; exact absurd hk.symm hq
  | succ k =>
    rw [List.getElem?_cons_succ] at hk
    rw [List.take_succ_cons, List.count_cons_self]
    by_cases hlt : k < (escape D.quote p).length
    · rw [List.getElem?_append_left hlt] at hk
      rw [List.take_append_of_le_length (by omega)]
      have := escape_parity _ _ _ _ hk hq
      omega
    · have hk1 : k < (escape D.quote p ++ [c]).length := (List.getElem?_eq_some_iff.1 hk).1
      have : k = (escape D.quote p).length := by simp at hk1; omega
      subst this
      rw [List.take_left' rfl, escape_count]
      omega

/-- Rows read from a file cut inside quotes: some column is not the one written, whatever follows. -/
theorem inside_rows (cfg : ReadCfg) (hM : ReadSane cfg.dial) (hnull : ∀ v ∈ commaPieces cfg.nullValues, v.head? ≠ some cfg.quote) (n : Nat) (rows : List WRow)
    (hne : ∀ r ∈ rows, r.fields ≠ [] ∧ r.fields.length ≤ n) (hwf : ∀ r ∈ rows, ∀ f ∈ r.fields, f.WF cfg.dial) (hclear : FileClear cfg.dial rows)
    (b : Nat) (c : UInt8) (hc : c = 10 ∨ c = 13) (hb : (renderFile cfg.dial rows)[b]? = some c)
    (ho : ((renderFile cfg.dial rows).take b).count cfg.quote % 2 = 1) (fuel : Nat) (rs)
    (h : rawRows cfg fuel ((renderFile cfg.dial rows).take (b + 1)) = some rs) :
    ∃ j < n, ∀ rest, rs.map (fun fs => (cellAt cfg.nc cfg.quote fs j).toOption) ++ rest ≠
      (rows.filter (fun r => !r.blank)).map (fun r => r.valueAt cfg.quote (commaPieces cfg.nullValues) j) := by
  have hq10 : cfg.quote ≠ 10 := by have := hM.eol_quote; rw [hM.eol_lf] at this; exact this.symm
  have hq13 : cfg.quote ≠ 13 := hM.quote_cr
  have hcq : c ≠ cfg.quote := by rcases hc with rfl | rfl <;> [exact hq10.symm; exact hq13.symm]
  induction rows generalizing b fuel rs with
  | nil => simp [renderFile, joinFields] at hb
  | cons r rows ih =>
    have hr := hwf r (by simp)
    have hrn := (hne r (by simp))
    have hrender : renderFile cfg.dial (r :: rows) = r.render cfg.dial ++ (if rows = [] then [] else cfg.dial.eol :: renderFile cfg.dial rows) := by
      cases rows with
      | nil => simp [renderFile, joinFields]
      | cons a l => simp [renderFile, joinFields]
    by_cases hlt : b < (r.render cfg.dial).length
    · -- the cut is in this row
      have hk := hb
      rw [hrender, List.getElem?_append_left hlt] at hk
      rw [hrender, List.take_append_of_le_length (by omega)] at ho
      rw [hrender, List.take_append_of_le_length (by omega)] at h
      have hj : b < (joinFields cfg.dial.sep (r.fields.map (·.render cfg.dial.quote))).length := by
        by_contra hge
        have he := (closed_join cfg.dial hM r.fields hr).1
        have hlen : (r.render cfg.dial).length ≤ (joinFields cfg.dial.sep (r.fields.map (·.render cfg.dial.quote))).length + 1 := by
          unfold WRow.render
          rw [List.length_append]
          cases r.crlf <;> simp
        rw [show b = (joinFields cfg.dial.sep (r.fields.map (·.render cfg.dial.quote))).length by omega] at ho
        unfold WRow.render at ho
        rw [List.take_left' rfl] at ho
        have : cfg.dial.quote = cfg.quote := rfl
        rw [this] at he ho
        omega
      have hnb : r.blank = false := by
        cases hbl : r.blank with
        | false => rfl
        | true =>
          exfalso
          have : r.fields = [.plain []] := by simpa [WRow.blank] using hbl
          rw [this] at hj
          simp [joinFields, WField.render] at hj
      have hk2 := hk
      unfold WRow.render at hk2
      rw [List.getElem?_append_left hj] at hk2
      obtain ⟨fs1, v, fs2, p, s, e1, e2, e3⟩ := inside_field cfg.dial hM r.fields hr b c hc hk2
      have htake : (r.render cfg.dial).take (b + 1) =
          joinFields cfg.dial.sep (fs1.map (·.render cfg.dial.quote) ++ [cfg.dial.quote :: escape cfg.dial.quote p ++ [c]]) := by
        unfold WRow.render
        rw [List.take_append_of_le_length (by omega), e3]
      obtain ⟨a, d, hcd, hc1, hc2⟩ := row_head cfg.dial hM r hrn.1 hr hnb []
      rw [List.append_nil] at hcd
      have hskip : skipBlank ((r.render cfg.dial).take (b + 1)) = (r.render cfg.dial).take (b + 1) := by
        rw [hcd, List.take_succ_cons]; exact skipBlank_cons _ _ hc1 hc2
      cases fuel with
      | zero => simp [rawRows] at h
      | succ fuel =>
        unfold rawRows at h
        rw [hskip, if_neg (by rw [hcd, List.take_succ_cons]; simp)] at h
        have hw : WindowClear cfg.dial 0 false (fs1.map (·.render cfg.dial.quote) ++ [cfg.dial.quote :: escape cfg.dial.quote p ++ [c]]) [] := by
          have := hclear.1 hnb
          rw [e1, List.map_append, List.map_cons] at this
          have hv : (WField.quoted v).render cfg.dial.quote = (cfg.dial.quote :: escape cfg.dial.quote p ++ [c]) ++ (escape cfg.dial.quote s ++ [cfg.dial.quote]) := by
            rw [WField.render, e2, escape_append]
            have : escape cfg.dial.quote (c :: s) = c :: escape cfg.dial.quote s := by
              simp only [escape]; exact if_neg hcq
            rw [this]; simp
          rw [hv] at this
          exact clear_prefix _ _ _ _ _ _ _ _ this
        have hwr := windowRow_open cfg.dial hM.toSane _ _ (openField_cut cfg.dial hM.toSane p c) (by
          intro f hf
          obtain ⟨g, hg, rfl⟩ := List.mem_map.1 hf
          have := rawText_raw cfg.dial hM false g (hr g (by rw [e1]; simp [hg]))
          simpa [rawText] using this) 0 false hw
        rw [← htake] at hwr
        obtain ⟨out, o1, o2⟩ := (C12_exact cfg.cpu cfg.dial hM.sep_quote hM.eol_quote cfg.junk _ _ _).2 hwr
        have o3 := splitRow_flags cfg hM _ _ _ o1
        rw [o1] at h
        dsimp only at h
        cases hrs : rawRows cfg fuel [] with
        | none => rw [hrs] at h; simp at h
        | some rs' =>
          rw [hrs] at h
          simp only [Option.map_some, Option.some.injEq] at h
          subst h
          refine ⟨fs1.length, ?_, ?_⟩
          · have := hrn.2
            rw [e1] at this
            simp at this; omega
          · intro rest heq
            rw [List.filter_cons_of_pos (by simp [hnb]), List.map_cons, List.map_cons, List.cons_append, List.cons.injEq] at heq
            have key := heq.1
            have hout := congrArg (fun l => l[fs1.length]?) o2
            simp only [List.getElem?_map] at hout
            rw [List.getElem?_append_right (by simp)] at hout
            simp only [List.length_map, Nat.sub_self, List.getElem?_cons_zero] at hout
            cases hof : out[fs1.length]? with
            | none => rw [hof] at hout; simp at hout
            | some fn =>
              rw [hof] at hout
              simp only [Option.map_some, Option.some.injEq] at hout
              have hflag := o3 fn (List.mem_of_getElem? hof) (by rw [hout]; simp)
              rw [hout] at hflag
              have hflag' : fn.2 = true := by rw [hflag]; exact beq_self_eq_true _
              unfold cellAt WRow.valueAt at key
              rw [hof, e1, List.getElem?_append_right (by omega), Nat.sub_self, List.getElem?_cons_zero] at key
              dsimp only at key
              rw [hout, hflag'] at key
              have hv : (WField.quoted v).value cfg.quote (commaPieces cfg.nullValues) = some v := by
                simp only [WField.value]
                rw [if_neg]
                intro h
                exact hnull _ h rfl
              rw [hv, e2] at key
              exact open_cell cfg.nc cfg.quote hq10 hq13 p s c hc key
    · cases rows with
      | nil =>
        rw [hrender, if_pos rfl, List.append_nil, List.getElem?_eq_none (by omega)] at hb
        simp at hb
      | cons x l =>
        obtain ⟨m, rfl⟩ : ∃ m, b = (r.render cfg.dial).length + m := ⟨b - (r.render cfg.dial).length, by omega⟩
        rw [renderFile_cons2] at hb ho h
        rw [List.getElem?_append_right (by omega), Nat.add_sub_cancel_left] at hb
        cases m with
        | zero =>
          exfalso
          rw [Nat.add_zero, List.take_left' rfl] at ho
          have := row_even cfg.dial hM r hr
          have hqq : cfg.dial.quote = cfg.quote := rfl
          rw [hqq] at this
          omega
        | succ m =>
          rw [List.getElem?_cons_succ] at hb
          have ho' := ho
          have hct := count_take_row cfg.dial hM r hr (renderFile cfg.dial (x :: l)) m
          have hqq : cfg.dial.quote = cfg.quote := rfl
          rw [hqq] at hct
          rw [hct] at ho'
          have htk : (r.render cfg.dial ++ cfg.dial.eol :: renderFile cfg.dial (x :: l)).take ((r.render cfg.dial).length + (m + 1) + 1) =
              r.render cfg.dial ++ cfg.dial.eol :: (renderFile cfg.dial (x :: l)).take (m + 1) := by
            rw [List.take_append, List.take_of_length_le (by omega), show (r.render cfg.dial).length + (m + 1) + 1 - (r.render cfg.dial).length = (m + 1) + 1 by omega,
              List.take_succ_cons]
          rw [htk] at h
          have ihx := ih (fun y hy => hne y (by simp [List.mem_cons.1 hy])) (fun y hy => hwf y (by simp [List.mem_cons.1 hy])) hclear.2 m hb ho'
          cases hbl : r.blank with
          | true =>
            have hskip : skipBlank (r.render cfg.dial ++ cfg.dial.eol :: (renderFile cfg.dial (x :: l)).take (m + 1)) = skipBlank ((renderFile cfg.dial (x :: l)).take (m + 1)) := by
              rw [hM.eol_lf]
              rcases blank_render cfg.dial r hbl with hbr | hbr <;> rw [hbr]
              · exact skipBlank_lf _
              · exact skipBlank_crlf _
            rw [rawRows_congr cfg _ _ _ hskip] at h
            obtain ⟨j, j1, j2⟩ := ihx fuel rs h
            refine ⟨j, j1, fun rest => ?_⟩
            rw [List.filter_cons_of_neg (by simp [hbl])]
            exact j2 rest
          | false =>
            obtain ⟨a, d, hcd, hc1, hc2⟩ := row_head cfg.dial hM r hrn.1 hr hbl (cfg.dial.eol :: (renderFile cfg.dial (x :: l)).take (m + 1))
            cases fuel with
            | zero => simp [rawRows] at h
            | succ fuel =>
              unfold rawRows at h
              rw [show skipBlank (r.render cfg.dial ++ cfg.dial.eol :: (renderFile cfg.dial (x :: l)).take (m + 1)) =
                r.render cfg.dial ++ cfg.dial.eol :: (renderFile cfg.dial (x :: l)).take (m + 1) by rw [hcd]; exact skipBlank_cons _ _ hc1 hc2,
                if_neg (by rw [hcd]; simp)] at h
              have hraw : ∀ f ∈ rawTexts cfg.dial r.crlf r.fields, RawField cfg.dial f := by
                intro f hf
                obtain ⟨g, hg, cr, rfl⟩ := mem_rawTexts _ _ _ _ hf
                exact rawText_raw _ hM cr g (hr g hg)
              have hcl := (clear_rawTexts _ hM.sep_cr (by rw [hM.eol_lf]; decide) _ _ _ _ _).2 (hclear.1 hbl)
              rw [if_neg (by simp)] at hcl
              have hcl2 := clear_shorter _ _ _ (cfg.dial.eol :: (renderFile cfg.dial (x :: l)).take (m + 1)) (by simp; omega) _ _ hcl
              obtain ⟨out, o1, o2⟩ := (C12_iff cfg.cpu cfg.dial hM.toSane cfg.junk _ _ (rawTexts_ne _ _ _ hrn.1) hraw (.inr rfl)).2 hcl2
              rw [rawTexts_join _ _ _ hrn.1] at o1
              have hrr : r.render cfg.dial = joinFields cfg.dial.sep (r.fields.map (·.render cfg.dial.quote)) ++ (if r.crlf then [13] else []) := rfl
              rw [← hrr] at o1
              have o3 := splitRow_flags cfg hM _ _ _ o1
              rw [o1] at h
              dsimp only at h
              rw [List.drop_succ_cons, List.drop_zero] at h
              cases hrs : rawRows cfg fuel ((renderFile cfg.dial (x :: l)).take (m + 1)) with
              | none => rw [hrs] at h; simp at h
              | some rs' =>
                rw [hrs] at h
                simp only [Option.map_some, Option.some.injEq] at h
                subst h
                obtain ⟨j, j1, j2⟩ := ihx fuel rs' hrs
                refine ⟨j, j1, fun rest heq => ?_⟩
                rw [List.filter_cons_of_pos (by simp [hbl]), List.map_cons, List.map_cons, List.cons_append, List.cons.injEq] at heq
                exact j2 rest heq.2

/-- A chunk that starts outside quotes holds the cells of the rows its bytes are cut into. -/
theorem parseChunk_raw (cfg : ReadCfg) (n : Nat) (hn : n ≠ 0) (data : Bytes) (hd : data ≠ []) (res) (h : parseChunk cfg n false data = some res) :
    ∃ rs, rawRows cfg (data.length + 1) data = some rs ∧ ∀ j < n, (res.1.getD j []).map Cell.toOption = rs.map (fun fs => (cellAt cfg.nc cfg.quote fs j).toOption) := by
  unfold parseChunk at h
  dsimp only at h
  rw [if_neg (by rintro (h | h); exact hd (List.length_eq_zero_iff.1 h); exact hn h), if_neg (by simp), parseRows_spec] at h
  cases hrs : rawRows cfg (data.length + 1) data with
  | none => rw [hrs] at h; simp at h
  | some rs =>
    rw [hrs] at h
    simp only [Option.map_some, Option.some.injEq] at h
    subst h
    refine ⟨rs, rfl, fun j hj => ?_⟩
    simp only [List.getD_eq_getElem?_getD, List.getElem?_mapIdx, List.getElem?_replicate, hj, if_true, Option.map_some, Option.getD_some, List.nil_append, List.map_map]
    rfl

theorem tiles_lower (n : Nat) (rs : List (Nat × Nat)) (a : Nat) (h : Spec.Tiles a n rs) : ∀ x ∈ rs, a ≤ x.1 := by
  induction rs generalizing a with
  | nil => intro x hx; simp at hx
  | cons y rs ih =>
    intro x hx
    obtain ⟨t1, t2, t3, t4⟩ := h
    rcases List.mem_cons.1 hx with h | h
    · subst h; omega
    · have := ih y.2 t4 x h; omega

/-- If the chunks give the columns written, no chunk starts inside quotes. -/
theorem inside_ranges (cfg : ReadCfg) (hM : ReadSane cfg.dial) (hnull : ∀ v ∈ commaPieces cfg.nullValues, v.head? ≠ some cfg.quote) (n : Nat) (hn : n ≠ 0)
    (file : Bytes) (start : Nat) (rows : List WRow) (hne : ∀ r ∈ rows, r.fields ≠ [] ∧ r.fields.length ≤ n) (hwf : ∀ r ∈ rows, ∀ f ∈ r.fields, f.WF cfg.dial)
    (hclear : FileClear cfg.dial rows) (hdata : file.drop start = renderFile cfg.dial rows) (rs : List (Nat × Nat)) (htiles : Spec.Tiles start file.length rs)
    (hends : ∀ r ∈ rs, r.2 = file.length ∨ ∃ t, r.2 = findRowEnd cfg.cpu cfg.quote file t) (ps)
    (hps : ((rs.map (slice file)).zip (Spec.chunkStates cfg.quote false (rs.map (slice file)))).mapM (fun p => parseChunk cfg n p.2 p.1) = some ps)
    (hcols : ∀ j < n, (ps.map (fun p => (p.1.getD j []).map Cell.toOption)).flatten =
      (rows.filter (fun r => !r.blank)).map (fun r => r.valueAt cfg.quote (commaPieces cfg.nullValues) j)) :
    ∀ r ∈ rs, OutsideAt cfg.quote file start r.1 := by
  have hq10 : cfg.quote ≠ 10 := by have := hM.eol_quote; rw [hM.eol_lf] at this; exact this.symm
  have hq13 : cfg.quote ≠ 13 := hM.quote_cr
  have hqq : cfg.dial.quote = cfg.quote := rfl
  induction rs generalizing start rows ps with
  | nil => intro r hr; simp at hr
  | cons r rs ih =>
    obtain ⟨h1, h2, h3, h4⟩ := htiles
    subst h1
    have hself : OutsideAt cfg.quote file r.1 r.1 := by unfold OutsideAt; simp
    cases rs with
    | nil =>
      intro x hx
      rw [List.mem_singleton.1 hx]
      exact hself
    | cons r' rs' =>
      have hr' : r'.1 = r.2 := h4.1
      have hlt2 : r.2 < file.length := by
        obtain ⟨g1, g2, g3, _⟩ := h4
        omega
      obtain ⟨t, ht⟩ := (hends r (by simp)).resolve_left (by omega)
      have hspec := C03_find_row_end cfg.cpu cfg.quote ⟨hq10, hq13⟩ file t
      rw [← ht] at hspec
      obtain ⟨c, hc, hbyte⟩ : ∃ c, (c = 10 ∨ c = 13) ∧ file[r.2 - 1]? = some c := by
        rcases hspec with ⟨i, g1, _, g3⟩ | ⟨_, g2⟩
        · unfold isRowEnd at g1
          rw [Bool.and_eq_true, Bool.or_eq_true, Bool.and_eq_true] at g1
          obtain ⟨_, g1⟩ := g1
          rw [List.getElem?_drop, List.getElem?_drop] at g1
          rw [g3, Nat.add_sub_cancel]
          rcases g1 with g1 | ⟨g1, -⟩
          · exact ⟨10, .inl rfl, eq_of_beq g1⟩
          · exact ⟨13, .inr rfl, eq_of_beq g1⟩
        · omega
      have hb : (renderFile cfg.dial rows)[r.2 - r.1 - 1]? = some c := by
        rw [← hdata, List.getElem?_drop, show r.1 + (r.2 - r.1 - 1) = r.2 - 1 by omega]; exact hbyte
      have hslice : slice file r = (renderFile cfg.dial rows).take (r.2 - r.1 - 1 + 1) := by
        unfold slice; rw [hdata, show r.2 - r.1 - 1 + 1 = r.2 - r.1 by omega]
      have hsne : slice file r ≠ [] := by
        intro h0
        have := congrArg List.length h0
        have hl := (List.getElem?_eq_some_iff.1 hb).1
        rw [hslice, List.length_take] at this
        simp only [List.length_nil] at this; omega
      rw [List.map_cons, Spec.chunkStates, List.zip_cons_cons, List.mapM_cons] at hps
      cases hp : parseChunk cfg n false (slice file r) with
      | none => simp [hp] at hps
      | some p0 =>
        simp only [hp, Option.bind_eq_bind, Option.bind_some] at hps
        cases hrest : ((((r' :: rs').map (slice file)).zip (Spec.chunkStates cfg.quote (Spec.insideAt cfg.quote false (slice file r) (slice file r).length) ((r' :: rs').map (slice file))))).mapM
            (fun p => parseChunk cfg n p.2 p.1) with
        | none => rw [hrest] at hps; simp at hps
        | some ps' =>
          rw [hrest] at hps
          simp only [Option.bind_some, Option.pure_def, Option.some.injEq] at hps
          subst hps
          obtain ⟨raw, w1, w2⟩ := parseChunk_raw cfg n hn _ hsne _ hp
          by_cases ho : ((renderFile cfg.dial rows).take (r.2 - r.1 - 1)).count cfg.quote % 2 = 1
          · exfalso
            rw [hslice] at w1
            obtain ⟨j, j1, j2⟩ := inside_rows cfg hM hnull n rows hne hwf hclear _ c hc hb ho _ raw w1
            have := hcols j j1
            rw [List.map_cons, List.flatten_cons, w2 j j1] at this
            exact j2 _ this
          · have he : ((renderFile cfg.dial rows).take (r.2 - r.1 - 1)).count cfg.quote % 2 = 0 := by omega
            have hcq : c ≠ cfg.quote := by rcases hc with rfl | rfl; exact hq10.symm; exact hq13.symm
            have hout : OutsideAt cfg.quote file r.1 r.2 := by
              unfold OutsideAt
              rw [hdata, show r.2 - r.1 = (r.2 - r.1 - 1) + 1 by omega, List.take_add_one, hb]
              simpa [List.count_append, hcq] using he
            have hlf : c = 10 := by
              rcases outside_rowEnd cfg hM file r.1 rows hwf hdata t r.2 (by omega) ht hout with e | ⟨-, e⟩
              · omega
              · rw [hbyte] at e; simpa using e
            subst hlf
            obtain ⟨A, B, e1, e2, e3, e4, e5⟩ := outside_cut cfg.dial hM rows hwf _ hb he
            have hdrop : file.drop r.2 = renderFile cfg.dial B := by
              rw [← e5, ← hdata, List.drop_drop]; congr 1; omega
            subst e1
            have hAne : ∀ x ∈ A ++ [emptyRow], x.fields ≠ [] := by
              intro x hx
              rcases List.mem_append.1 hx with h | h
              · exact (hne x (by simp [h])).1
              · rw [List.mem_singleton.1 h]; exact (emptyRow_wf cfg.dial).ne
            have hAwf : ∀ x ∈ A ++ [emptyRow], ∀ f ∈ x.fields, f.WF cfg.dial := by
              intro x hx
              rcases List.mem_append.1 hx with h | h
              · exact hwf x (by simp [h])
              · rw [List.mem_singleton.1 h]; exact (emptyRow_wf _).wf
            have hAc : CutsWhole cfg (A ++ [emptyRow]) := (cutsWhole_iff cfg hM _ hAne hAwf).2 (fileClear_left _ _ _ e2 e3 hclear)
            obtain ⟨raw', v1, v2⟩ := rawRows_file_of cfg hM _ hAne hAwf hAc _ (Nat.le_refl _)
            rw [renderFile_snoc _ _ e2, ← e4, ← hslice, w1, Option.some.injEq] at v1
            subst v1
            have hfil : (A ++ [emptyRow]).filter (fun r => !r.blank) = A.filter (fun r => !r.blank) := by
              rw [List.filter_append]; simp [emptyRow, WRow.blank]
            have hst : Spec.insideAt cfg.quote false (slice file r) (slice file r).length = false := by
              rw [insideAt_eq, List.take_length]
              have : (slice file r).count cfg.quote % 2 = 0 := hout
              simp [oddB, this]
            rw [hst] at hrest
            have hih := ih r.2 B (fun x hx => hne x (by simp [hx])) (fun x hx => hwf x (by simp [hx])) (fileClear_right _ _ _ hclear) hdrop h4
              (fun x hx => hends x (by simp [List.mem_cons.1 hx])) ps' hrest (by
                intro j hj
                have := hcols j hj
                rw [List.map_cons, List.flatten_cons, w2 j hj, v2 j, hfil, List.filter_append, List.map_append] at this
                exact List.append_cancel_left this)
            intro x hx
            rcases List.mem_cons.1 hx with h | h
            · subst h; exact hself
            · have h5 := hih x h
              have h6 := tiles_lower _ _ _ h4 x h
              unfold OutsideAt at h5 hout ⊢
              rw [show x.1 - r.1 = (r.2 - r.1) + (x.1 - r.2) by omega, List.take_add, List.drop_drop, show r.1 + (r.2 - r.1) = r.2 by omega, List.count_append]
              omega

end Vroom
