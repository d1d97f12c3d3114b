import Verif.Model.Open
import Verif.Spec.Open
import Verif.Lemmas.ReaderPar
/- Header parsing and the end of the header row. -/
namespace Vroom
open Spec

theorem trimRight_eq (s : Bytes) : trimRight s = trimEnd s := rfl

/-- One bare field. -/
theorem headerGo_plain (sep q : UInt8) (s : Bytes) (h1 : sep ∉ s) (h2 : q ∉ s) (h3 : (10 : UInt8) ∉ s) (h4 : (13 : UInt8) ∉ s)
    (hs : List Bytes) (rest : Bytes) : ∀ cur,
    headerGo sep q false cur hs (s ++ rest) = headerGo sep q false (if cur = [] then trimStart s else cur ++ s) hs rest := by
  induction s with
  | nil => intro cur; by_cases h : cur = [] <;> simp [h, trimStart]
  | cons c s ih =>
    intro cur
    simp only [List.mem_cons, not_or] at h1 h2 h3 h4
    have ih := ih h1.2 h2.2 h3.2 h4.2
    rw [List.cons_append, headerGo.eq_def]
    dsimp only
    rw [if_neg (by rintro ⟨-, h | h⟩; exact h3.1 h.symm; exact h4.1 h.symm), if_neg (Ne.symm h2.1),
      if_neg (by rintro ⟨h, -⟩; exact h1.1 h.symm)]
    by_cases hc : cur = []
    · subst hc
      by_cases hb : c = 32 ∨ c = 9
      · rw [if_pos ⟨rfl, rfl, hb⟩, ih, if_pos rfl, if_pos rfl]
        congr 1
        unfold trimStart
        rw [List.dropWhile_cons_of_pos]
        rcases hb with h | h <;> simp [blank, h]
      · rw [if_neg (by rintro ⟨-, -, h⟩; exact hb h), ih, if_neg (by simp), if_pos rfl]
        congr 1
        unfold trimStart
        rw [List.dropWhile_cons_of_neg]
        · rfl
        · simpa [blank] using hb
    · rw [if_neg (by rintro ⟨h, -⟩; exact hc h), ih, if_neg (by simp), if_neg hc]
      simp

/-- Inside quotes. -/
theorem headerGo_quoted (sep q : UInt8) (b : Bytes) (hs : List Bytes) (rest : Bytes) (hr : rest.head? ≠ some q) : ∀ cur,
    headerGo sep q true cur hs (escape q b ++ q :: rest) = headerGo sep q false (cur ++ b) hs rest := by
  induction b with
  | nil =>
    intro cur
    rw [escape, List.nil_append, headerGo.eq_def]
    dsimp only
    rw [if_neg (by simp), if_pos rfl]
    cases rest with
    | nil => simp
    | cons d r =>
      dsimp only
      rw [if_neg (by rintro ⟨-, h⟩; exact hr (by rw [h]; rfl))]
      simp
  | cons c b ih =>
    intro cur
    by_cases hc : c = q
    · subst hc
      rw [escape, if_pos rfl, List.cons_append, List.cons_append, headerGo.eq_def]
      dsimp only
      rw [if_neg (by simp), if_pos rfl, if_pos ⟨rfl, rfl⟩, ih]
      simp
    · rw [escape, if_neg hc, List.cons_append, headerGo.eq_def]
      dsimp only
      rw [if_neg (by simp), if_neg hc, if_neg (by simp), if_neg (by simp), ih]
      simp

/-- One written field, from the start of a field. -/
theorem headerGo_field (M : Marks) (hM : ReadSane M) (f : WField) (hf : f.WF M) (hs : List Bytes) (rest : Bytes)
    (hr : rest.head? ≠ some M.quote) :
    headerGo M.sep M.quote false [] hs (f.render M.quote ++ rest) = headerGo M.sep M.quote false f.columnText hs rest := by
  cases f with
  | plain s =>
    obtain ⟨h1, h2, h3, h4⟩ := hf
    rw [hM.eol_lf] at h3
    rw [WField.render, headerGo_plain _ _ s h1 h2 h3 h4, if_pos rfl]; rfl
  | quoted b =>
    have hq10 : M.quote ≠ 10 := by rw [← hM.eol_lf]; exact hM.eol_quote.symm
    have hne : ¬ (false = false ∧ (M.quote = LF ∨ M.quote = CR)) := by
      rintro ⟨-, h | h⟩
      · exact hq10 h
      · exact hM.quote_cr h
    rw [WField.render, List.cons_append, List.cons_append, headerGo.eq_def]
    dsimp only
    rw [if_neg hne, if_pos rfl]
    have key := headerGo_quoted M.sep M.quote b hs rest hr []
    simp only [List.nil_append] at key
    have e : escape M.quote b ++ [M.quote] ++ rest = escape M.quote b ++ M.quote :: rest := by simp
    rw [e]
    cases hx : escape M.quote b ++ M.quote :: rest with
    | nil => simp at hx
    | cons d r =>
      dsimp only
      rw [if_neg (by simp), ← hx]
      exact key

theorem columnName_eq (f : WField) : trimRight f.columnText = f.columnName := by
  cases f <;> rfl

/-- A whole written row followed by a line end. -/
theorem headerGo_row (M : Marks) (hM : ReadSane M) (fs : List WField) (hne : fs ≠ []) (hf : ∀ f ∈ fs, f.WF M) (e : UInt8)
    (he : e = 10 ∨ e = 13) (rest : Bytes) : ∀ hs,
    headerGo M.sep M.quote false [] hs (joinFields M.sep (fs.map (·.render M.quote)) ++ e :: rest) = hs ++ fs.map (·.columnName) := by
  have heq : e ≠ M.quote := by
    rcases he with h | h <;> subst h
    · rw [← hM.eol_lf]; exact hM.eol_quote
    · exact hM.quote_cr.symm
  induction fs with
  | nil => exact absurd rfl hne
  | cons f fs ih =>
    intro hs
    cases fs with
    | nil =>
      simp only [List.map_cons, List.map_nil, joinFields]
      rw [headerGo_field M hM f (hf f (by simp)) hs _ (by simpa using heq), headerGo.eq_def]
      dsimp only
      rw [if_pos ⟨rfl, he⟩, columnName_eq]
    | cons g gs =>
      have e1 : joinFields M.sep ((f :: g :: gs).map (·.render M.quote)) ++ e :: rest
          = f.render M.quote ++ M.sep :: (joinFields M.sep ((g :: gs).map (·.render M.quote)) ++ e :: rest) := by
        simp [joinFields]
      rw [e1, headerGo_field M hM f (hf f (by simp)) hs _ (by simpa using hM.sep_quote), headerGo.eq_def]
      dsimp only
      rw [if_neg (by
          rintro ⟨-, h | h⟩
          · exact hM.sep_eol (by rw [hM.eol_lf]; exact h)
          · exact hM.sep_cr h), if_neg hM.sep_quote, if_pos ⟨rfl, rfl⟩, columnName_eq,
        ih (by simp) (fun x hx => hf x (List.mem_cons_of_mem _ hx))]
      simp

/-- A whole written row at the end of the data. -/
theorem headerGo_last (M : Marks) (hM : ReadSane M) (fs : List WField) (f : WField) (hf : ∀ g ∈ fs ++ [f], g.WF M) : ∀ hs,
    headerGo M.sep M.quote false [] hs (joinFields M.sep ((fs ++ [f]).map (·.render M.quote)))
      = if f.columnText ≠ [] ∨ hs ++ fs.map (·.columnName) = [] then hs ++ (fs ++ [f]).map (·.columnName)
        else hs ++ fs.map (·.columnName) := by
  induction fs with
  | nil =>
    intro hs
    have := headerGo_field M hM f (hf f (by simp)) hs [] (by simp)
    rw [List.append_nil] at this
    simp only [List.nil_append, List.map_cons, List.map_nil, joinFields, List.append_nil]
    rw [this, headerGo.eq_def]
    dsimp only
    rw [columnName_eq]
  | cons g gs ih =>
    intro hs
    have e1 : joinFields M.sep ((g :: gs ++ [f]).map (·.render M.quote))
        = g.render M.quote ++ M.sep :: (joinFields M.sep ((gs ++ [f]).map (·.render M.quote))) := by
      cases gs <;> simp [joinFields]
    rw [e1, headerGo_field M hM g (hf g (by simp)) hs _ (by simpa using hM.sep_quote), headerGo.eq_def]
    dsimp only
    rw [if_neg (by
        rintro ⟨-, h | h⟩
        · exact hM.sep_eol (by rw [hM.eol_lf]; exact h)
        · exact hM.sep_cr h), if_neg hM.sep_quote, if_pos ⟨rfl, rfl⟩, columnName_eq,
      ih (fun x hx => hf x (List.mem_cons_of_mem _ hx))]
    simp

/-! ### Where the header row ends -/

theorem closed_row (M : Marks) (hM : ReadSane M) (r : WRow) (h : ∀ f ∈ r.fields, f.WF M) :
    Closed M.quote (joinFields M.sep (r.fields.map (·.render M.quote))) := closed_join M hM r.fields h

theorem closed_no_end {q : UInt8} {d : Bytes} (h : Closed q d) (t : Bytes) (j : Nat) (hj : j < d.length) :
    isRowEnd q false (d ++ t) j = false := by
  unfold isRowEnd insideAt
  rw [List.take_append_of_le_length (by omega), List.getElem?_append_left hj]
  by_cases hc : d[j]? = some 10 ∨ d[j]? = some 13
  · have : (d.take j).count q % 2 = 1 := by
      rcases hc with hc | hc
      · exact h.2 j 10 hc (.inl rfl)
      · exact h.2 j 13 hc (.inr rfl)
    simp [this]
  · rw [not_or] at hc
    simp [hc.1, hc.2]

/-- The header row ends right after its line end. -/
theorem findRowEnd_row (cpu : Cpu) (M : Marks) (hM : ReadSane M) (r : WRow) (h : ∀ f ∈ r.fields, f.WF M) (t : Bytes) :
    findRowEnd cpu M.quote (r.render M ++ 10 :: t) 0 = (r.render M).length + 1 := by
  have hq : M.quote ≠ 10 ∧ M.quote ≠ 13 := ⟨by rw [← hM.eol_lf]; exact hM.eol_quote.symm, hM.quote_cr⟩
  have hcl := closed_row M hM r h
  obtain ⟨d, hd⟩ : ∃ d, d = joinFields M.sep (r.fields.map (·.render M.quote)) := ⟨_, rfl⟩
  rw [← hd] at hcl
  have hlen : isRowEnd M.quote false (r.render M ++ 10 :: t) (r.render M).length = true := by
    unfold isRowEnd insideAt
    rw [List.take_left' rfl, row_even M hM r h]
    simp
  have hbefore : ∀ j, j < (r.render M).length → isRowEnd M.quote false (r.render M ++ 10 :: t) j = false := by
    intro j hj
    unfold WRow.render at hj ⊢
    rw [← hd] at hj ⊢
    rw [List.append_assoc]
    by_cases hjd : j < d.length
    · exact closed_no_end hcl _ j hjd
    · cases hcr : r.crlf with
      | false => simp [hcr] at hj; omega
      | true =>
        have : j = d.length := by simp [hcr] at hj; omega
        subst this
        unfold isRowEnd
        simp
  rcases C03_find_row_end cpu M.quote hq (r.render M ++ 10 :: t) 0 with ⟨i, h1, h2, h3⟩ | ⟨h1, -⟩
  · rw [List.drop_zero] at h1 h2
    have : i = (r.render M).length := by
      rcases Nat.lt_trichotomy i (r.render M).length with hl | hl | hl
      · rw [hbefore i hl] at h1; simp at h1
      · exact hl
      · rw [h2 _ hl] at hlen; simp at hlen
    omega
  · rw [List.drop_zero] at h1
    rw [h1] at hlen; simp at hlen

/-- A file that is one row without line end. -/
theorem findRowEnd_only (cpu : Cpu) (M : Marks) (hM : ReadSane M) (fs : List WField) (h : ∀ f ∈ fs, f.WF M) :
    findRowEnd cpu M.quote (joinFields M.sep (fs.map (·.render M.quote))) 0 = (joinFields M.sep (fs.map (·.render M.quote))).length := by
  have hq : M.quote ≠ 10 ∧ M.quote ≠ 13 := ⟨by rw [← hM.eol_lf]; exact hM.eol_quote.symm, hM.quote_cr⟩
  have hcl := closed_join M hM fs h
  rcases C03_find_row_end cpu M.quote hq (joinFields M.sep (fs.map (·.render M.quote))) 0 with ⟨i, h1, -, -⟩ | ⟨-, h1⟩
  · have hi := isRowEnd_lt h1
    rw [List.drop_zero] at h1 hi
    have := closed_no_end hcl [] i hi
    rw [List.append_nil, h1] at this
    simp at this
  · exact h1

end Vroom

namespace Vroom
open Spec

/-! ### Counting the columns of the first row -/

theorem countCols_plain (sep q : UInt8) (s : Bytes) (h1 : sep ∉ s) (h2 : q ∉ s) (rest : Bytes) (n : Nat) :
    countCols sep q false n (s ++ rest) = countCols sep q false n rest := by
  induction s with
  | nil => rfl
  | cons c s ih =>
    simp only [List.mem_cons, not_or] at h1 h2
    rw [List.cons_append, countCols.eq_def]
    dsimp only
    rw [if_neg (Ne.symm h2.1), if_neg (by rintro ⟨h, -⟩; exact h1.1 h.symm), ih h1.2 h2.2]

theorem countCols_quoted (sep q : UInt8) (b : Bytes) (rest : Bytes) (hr : rest.head? ≠ some q) (n : Nat) :
    countCols sep q true n (escape q b ++ q :: rest) = countCols sep q false n rest := by
  induction b with
  | nil =>
    rw [escape, List.nil_append, countCols.eq_def]
    dsimp only
    rw [if_pos rfl]
    cases rest with
    | nil => rw [countCols.eq_def]
    | cons d r =>
      dsimp only
      rw [if_neg (by rintro ⟨-, h⟩; exact hr (by rw [h]; rfl))]
      simp
  | cons c b ih =>
    by_cases hc : c = q
    · subst hc
      rw [escape, if_pos rfl, List.cons_append, List.cons_append, countCols.eq_def]
      dsimp only
      rw [if_pos rfl, if_pos ⟨rfl, rfl⟩, ih]
    · rw [escape, if_neg hc, List.cons_append, countCols.eq_def]
      dsimp only
      rw [if_neg hc, if_neg (by simp), ih]

theorem countCols_field (M : Marks) (f : WField) (hf : f.WF M) (rest : Bytes)
    (hr : rest.head? ≠ some M.quote) (n : Nat) :
    countCols M.sep M.quote false n (f.render M.quote ++ rest) = countCols M.sep M.quote false n rest := by
  cases f with
  | plain s => exact countCols_plain _ _ s hf.1 hf.2.1 rest n
  | quoted b =>
    rw [WField.render, List.cons_append, List.cons_append, countCols.eq_def]
    dsimp only
    rw [if_pos rfl]
    have key := countCols_quoted M.sep M.quote b rest hr n
    have e : escape M.quote b ++ [M.quote] ++ rest = escape M.quote b ++ M.quote :: rest := by simp
    rw [e]
    cases hx : escape M.quote b ++ M.quote :: rest with
    | nil => simp at hx
    | cons d r =>
      dsimp only
      rw [if_neg (by simp), ← hx]
      exact key

/-- A whole row, followed by nothing but line end bytes. -/
theorem countCols_row (M : Marks) (hM : ReadSane M) (fs : List WField) (hne : fs ≠ []) (hf : ∀ f ∈ fs, f.WF M) (tail : Bytes)
    (ht : ∀ c ∈ tail, c = 10 ∨ c = 13) : ∀ n,
    countCols M.sep M.quote false n (joinFields M.sep (fs.map (·.render M.quote)) ++ tail) + 1 = n + fs.length := by
  have hq : ∀ c ∈ tail, c ≠ M.quote ∧ c ≠ M.sep := by
    intro c hc
    rcases ht c hc with h | h <;> subst h
    · rw [← hM.eol_lf]; exact ⟨hM.eol_quote, hM.sep_eol.symm⟩
    · exact ⟨hM.quote_cr.symm, hM.sep_cr.symm⟩
  have hhead : tail.head? ≠ some M.quote := by
    intro h
    exact (hq _ (List.mem_of_mem_head? h)).1 rfl
  have htail : ∀ n, countCols M.sep M.quote false n tail = n := by
    intro n
    have := countCols_plain M.sep M.quote tail (fun h => (hq _ h).2 rfl) (fun h => (hq _ h).1 rfl) [] n
    rw [List.append_nil] at this
    rw [this, countCols.eq_def]
  induction fs with
  | nil => exact absurd rfl hne
  | cons f fs ih =>
    intro n
    cases fs with
    | nil =>
      simp only [List.map_cons, List.map_nil, joinFields]
      rw [countCols_field M f (hf f (by simp)) _ hhead, htail]; rfl
    | cons g gs =>
      have e1 : joinFields M.sep ((f :: g :: gs).map (·.render M.quote)) ++ tail
          = f.render M.quote ++ M.sep :: (joinFields M.sep ((g :: gs).map (·.render M.quote)) ++ tail) := by
        simp [joinFields]
      rw [e1, countCols_field M f (hf f (by simp)) _ (by simpa using hM.sep_quote), countCols.eq_def]
      dsimp only
      rw [if_neg hM.sep_quote, if_pos ⟨rfl, rfl⟩, ih (by simp) (fun x hx => hf x (List.mem_cons_of_mem _ hx))]
      simp only [List.length_cons]; omega

end Vroom
