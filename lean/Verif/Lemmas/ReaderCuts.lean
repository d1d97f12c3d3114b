import Verif.Lemmas.ReaderPar
/- Chunk boundaries of written files: any boundary outside quotes is the start of a row. -/
namespace Vroom
open Spec

/-- A line-end byte of a written row is inside quotes, or is the CR of its CRLF. -/
theorem row_lineEnd (M : Marks) (hM : ReadSane M) (r : WRow) (h : ∀ f ∈ r.fields, f.WF M) (k : Nat) (c : UInt8)
    (hk : (r.render M)[k]? = some c) (hc : c = 10 ∨ c = 13) :
    ((r.render M).take k).count M.quote % 2 = 1 ∨ (c = 13 ∧ k + 1 = (r.render M).length) := by
  unfold WRow.render at hk ⊢
  by_cases hlt : k < (joinFields M.sep (r.fields.map (·.render M.quote))).length
  · left
    rw [List.getElem?_append_left hlt] at hk
    rw [List.take_append_of_le_length (by omega)]
    exact (closed_join M hM r.fields h).2 k c hk hc
  · right
    rw [List.getElem?_append_right (by omega)] at hk
    cases hcr : r.crlf with
    | false => rw [hcr] at hk; simp at hk
    | true =>
      rw [hcr] at hk
      simp only [if_true] at hk ⊢
      have h0 : k - (joinFields M.sep (r.fields.map (·.render M.quote))).length = 0 := by
        rw [List.getElem?_cons] at hk
        split at hk
        · assumption
        · simp at hk
      rw [h0] at hk
      refine ⟨by simpa using hk.symm, ?_⟩
      rw [List.length_append]
      simp only [List.length_cons, List.length_nil]; omega

theorem renderFile_cons2 (M : Marks) (r a : WRow) (l : List WRow) :
    renderFile M (r :: a :: l) = r.render M ++ M.eol :: renderFile M (a :: l) := by
  simp [renderFile, joinFields]

/-- Parity after the first row. -/
theorem count_take_row (M : Marks) (hM : ReadSane M) (r : WRow) (h : ∀ f ∈ r.fields, f.WF M) (t : Bytes) (m : Nat) :
    ((r.render M ++ M.eol :: t).take ((r.render M).length + (m + 1))).count M.quote % 2 = (t.take m).count M.quote % 2 := by
  rw [List.take_append, List.take_of_length_le (by omega), Nat.add_sub_cancel_left, List.take_succ_cons, List.count_append,
    List.count_cons_of_ne hM.eol_quote]
  have := row_even M hM r h
  omega

/-- In a written file every CR outside quotes is followed by LF or is the last byte. -/
theorem outside_cr (M : Marks) (hM : ReadSane M) (rows : List WRow) (h : ∀ r ∈ rows, ∀ f ∈ r.fields, f.WF M) (k : Nat)
    (hk : (renderFile M rows)[k]? = some 13) (he : ((renderFile M rows).take k).count M.quote % 2 = 0) :
    (renderFile M rows)[k + 1]? = some 10 ∨ k + 1 = (renderFile M rows).length := by
  induction rows generalizing k with
  | nil => simp [renderFile, joinFields] at hk
  | cons r rows ih =>
    have hrow := row_lineEnd M hM r (h r (by simp))
    cases rows with
    | nil =>
      right
      simp only [renderFile, List.map_cons, List.map_nil, joinFields] at hk he ⊢
      rcases hrow k 13 hk (Or.inr rfl) with h' | h'
      · omega
      · exact h'.2
    | cons a l =>
      rw [renderFile_cons2] at hk he ⊢
      by_cases hlt : k < (r.render M).length
      · rw [List.getElem?_append_left hlt] at hk
        rw [List.take_append_of_le_length (by omega)] at he
        left
        rcases hrow k 13 hk (Or.inr rfl) with h' | h'
        · omega
        · rw [h'.2, List.getElem?_append_right (by omega), Nat.sub_self]
          simp [hM.eol_lf]
      · rw [List.getElem?_append_right (by omega)] at hk
        obtain ⟨m, hm⟩ : ∃ m, k = (r.render M).length + m := ⟨k - (r.render M).length, by omega⟩
        subst hm
        rw [Nat.add_sub_cancel_left] at hk
        cases m with
        | zero => simp [hM.eol_lf] at hk
        | succ m =>
          rw [List.getElem?_cons_succ] at hk
          rw [count_take_row M hM r (h r (by simp))] at he
          rcases ih (fun x hx => h x (by simp [List.mem_cons.1 hx])) m hk he with h' | h'
          · left
            rw [List.getElem?_append_right (by omega), show (r.render M).length + (m + 1) + 1 - (r.render M).length = (m + 1) + 1 by omega,
              List.getElem?_cons_succ]
            exact h'
          · right; simp; omega

/-- Cutting a written file after an LF outside quotes splits its rows. -/
theorem outside_cut (M : Marks) (hM : ReadSane M) (rows : List WRow) (h : ∀ r ∈ rows, ∀ f ∈ r.fields, f.WF M) (b : Nat)
    (hb : (renderFile M rows)[b]? = some 10) (he : ((renderFile M rows).take b).count M.quote % 2 = 0) :
    ∃ A B, rows = A ++ B ∧ A ≠ [] ∧ B ≠ [] ∧ (renderFile M rows).take (b + 1) = renderFile M A ++ [M.eol] ∧
      (renderFile M rows).drop (b + 1) = renderFile M B := by
  induction rows generalizing b with
  | nil => simp [renderFile, joinFields] at hb
  | cons r rows ih =>
    have hrow := row_lineEnd M hM r (h r (by simp))
    cases rows with
    | nil =>
      simp only [renderFile, List.map_cons, List.map_nil, joinFields] at hb he
      rcases hrow b 10 hb (Or.inl rfl) with h' | h'
      · omega
      · exact absurd h'.1 (by decide)
    | cons a l =>
      rw [renderFile_cons2] at hb he ⊢
      by_cases hlt : b < (r.render M).length
      · rw [List.getElem?_append_left hlt] at hb
        rw [List.take_append_of_le_length (by omega)] at he
        rcases hrow b 10 hb (Or.inl rfl) with h' | h'
        · omega
        · exact absurd h'.1 (by decide)
      · rw [List.getElem?_append_right (by omega)] at hb
        obtain ⟨m, hm⟩ : ∃ m, b = (r.render M).length + m := ⟨b - (r.render M).length, by omega⟩
        subst hm
        rw [Nat.add_sub_cancel_left] at hb
        cases m with
        | zero =>
          refine ⟨[r], a :: l, rfl, by simp, by simp, ?_, ?_⟩
          · rw [Nat.add_zero, List.take_append, List.take_of_length_le (by omega), Nat.add_sub_cancel_left]
            simp [renderFile, joinFields]
          · rw [Nat.add_zero, List.drop_append, List.drop_of_length_le (by omega), Nat.add_sub_cancel_left]
            simp
        | succ m =>
          rw [List.getElem?_cons_succ] at hb
          rw [count_take_row M hM r (h r (by simp))] at he
          obtain ⟨A, B, h1, h2, h3, h4, h5⟩ := ih (fun x hx => h x (by simp [List.mem_cons.1 hx])) m hb he
          refine ⟨r :: A, B, by rw [h1]; rfl, by simp, h3, ?_, ?_⟩
          · rw [List.take_append, List.take_of_length_le (by omega),
              show (r.render M).length + (m + 1) + 1 - (r.render M).length = (m + 1) + 1 by omega, List.take_succ_cons, h4]
            cases A with
            | nil => exact absurd rfl h2
            | cons x A => simp [renderFile, joinFields]
          · rw [List.drop_append, List.drop_of_length_le (by omega),
              show (r.render M).length + (m + 1) + 1 - (r.render M).length = (m + 1) + 1 by omega, List.drop_succ_cons, h5]
            rfl

/-- Parity of the bytes from `a` up to `b`. -/
def OutsideAt (q : UInt8) (file : Bytes) (a b : Nat) : Prop := ((file.drop a).take (b - a)).count q % 2 = 0

theorem outsideAt_trans (q : UInt8) (file : Bytes) (a b c : Nat) (h1 : a ≤ b) (h2 : b ≤ c) (hab : OutsideAt q file a b)
    (hac : OutsideAt q file a c) : OutsideAt q file b c := by
  unfold OutsideAt at *
  have e : (file.drop a).take (c - a) = (file.drop a).take (b - a) ++ (file.drop b).take (c - b) := by
    rw [show c - a = (b - a) + (c - b) by omega, List.take_add, List.drop_drop, show a + (b - a) = b by omega]
  rw [e, List.count_append] at hac
  omega

/-- Chunk texts are whole-row groups if no boundary is inside quotes. -/
theorem outside_slices (M : Marks) (hM : ReadSane M) (file : Bytes) (start : Nat) (rows : List WRow) (hr : rows ≠ [])
    (hwf : ∀ r ∈ rows, ∀ f ∈ r.fields, f.WF M) (hdata : file.drop start = renderFile M rows) (rs : List (Nat × Nat)) (hrs : rs ≠ [])
    (htiles : Spec.Tiles start file.length rs)
    (hout : ∀ r ∈ rs, OutsideAt M.quote file start r.1)
    (hends : ∀ r ∈ rs, r.2 = file.length ∨ (0 < r.2 ∧ file[r.2 - 1]? = some 10)) :
    ∃ gs, rs.map (slice file) = groupTexts M gs ∧ gs.flatten = rows ∧ (∀ g ∈ gs, g ≠ []) := by
  induction rs generalizing start rows with
  | nil => exact absurd rfl hrs
  | cons r rs ih =>
    obtain ⟨h1, h2, h3, h4⟩ := htiles
    subst h1
    cases rs with
    | nil =>
      have hend : r.2 = file.length := h4
      refine ⟨[rows], ?_, by simp, by simpa using hr⟩
      simp only [List.map_cons, List.map_nil, groupTexts, slice, hdata, List.cons.injEq, and_true]
      apply List.take_of_length_le
      rw [← hdata, List.length_drop, hend]; exact Nat.le_refl _
    | cons r' rs' =>
      have hr' : r'.1 = r.2 := h4.1
      have hne : r.2 ≠ file.length := by
        intro he
        obtain ⟨g1, g2, g3, _⟩ := h4
        omega
      obtain ⟨hpos, hlf⟩ := (hends r (by simp)).resolve_left hne
      have hb : (renderFile M rows)[r.2 - r.1 - 1]? = some 10 := by
        rw [← hdata, List.getElem?_drop, show r.1 + (r.2 - r.1 - 1) = r.2 - 1 by omega]; exact hlf
      have he : ((renderFile M rows).take (r.2 - r.1 - 1)).count M.quote % 2 = 0 := by
        have ho := hout r' (by simp)
        rw [hr'] at ho
        unfold OutsideAt at ho
        rw [hdata, show r.2 - r.1 = (r.2 - r.1 - 1) + 1 by omega, List.take_add_one, hb] at ho
        have : M.quote ≠ 10 := by rw [← hM.eol_lf]; exact hM.eol_quote.symm
        simpa [List.count_append, Ne.symm this] using ho
      obtain ⟨A, B, e1, e2, e3, e4, e5⟩ := outside_cut M hM rows hwf _ hb he
      rw [show r.2 - r.1 - 1 + 1 = r.2 - r.1 by omega] at e4 e5
      have hdrop : file.drop r.2 = renderFile M B := by
        rw [← e5, ← hdata, List.drop_drop]; congr 1; omega
      have htail : ∀ (rs : List (Nat × Nat)) (a : Nat), Spec.Tiles a file.length rs → ∀ x ∈ rs, a ≤ x.1 := by
        intro rs
        induction rs with
        | nil => intro _ _ x hx; simp at hx
        | cons y rs ihy =>
          intro a ht x hx
          obtain ⟨t1, t2, t3, t4⟩ := ht
          rcases List.mem_cons.1 hx with h | h
          · subst h; omega
          · have := ihy y.2 t4 x h; omega
      obtain ⟨gs, g1, g2, g3⟩ := ih r.2 B e3 (fun x hx => hwf x (by rw [e1]; simp [hx])) hdrop (by simp) h4
        (fun x hx => outsideAt_trans _ _ r.1 _ _ (by omega) (htail _ _ h4 x hx)
          (by have := hout r' (by simp); rw [hr'] at this; exact this) (hout x (by simp [List.mem_cons.1 hx])))
        (fun x hx => hends x (by simp [List.mem_cons.1 hx]))
      refine ⟨A :: gs, ?_, by rw [List.flatten_cons, g2, e1], ?_⟩
      · rw [List.map_cons, g1]
        cases gs with
        | nil => simp [groupTexts] at g1
        | cons y gs =>
          rw [groupTexts, ← e4]
          simp only [slice, hdata]
      · intro g hg
        rcases List.mem_cons.1 hg with h | h
        · rw [h]; exact e2
        · exact g3 g h

/-- Row-end positions outside quotes are just after an LF, or at the end. -/
theorem outside_rowEnd (cfg : ReadCfg) (hM : ReadSane cfg.dial) (file : Bytes) (start : Nat) (rows : List WRow)
    (hwf : ∀ r ∈ rows, ∀ f ∈ r.fields, f.WF cfg.dial) (hdata : file.drop start = renderFile cfg.dial rows) (t e : Nat)
    (hst : start < e) (he : e = findRowEnd cfg.cpu cfg.quote file t) (hout : OutsideAt cfg.quote file start e) :
    e = file.length ∨ (0 < e ∧ file[e - 1]? = some 10) := by
  have hq : cfg.quote ≠ 10 ∧ cfg.quote ≠ 13 := by
    constructor
    · have := hM.eol_quote; rw [hM.eol_lf] at this; exact this.symm
    · exact hM.quote_cr
  have hspec := C03_find_row_end cfg.cpu cfg.quote hq file t
  rw [← he] at hspec
  rcases hspec with ⟨i, h1, _, h3⟩ | ⟨_, h2⟩
  · unfold isRowEnd at h1
    rw [Bool.and_eq_true, Bool.or_eq_true, Bool.and_eq_true] at h1
    obtain ⟨_, h1⟩ := h1
    rw [List.getElem?_drop, List.getElem?_drop] at h1
    rcases h1 with h1 | ⟨h1, h1'⟩
    · right
      refine ⟨by omega, ?_⟩
      rw [h3, Nat.add_sub_cancel]; exact eq_of_beq h1
    · left
      have h13 : file[t + i]? = some 13 := eq_of_beq h1
      have hk : (renderFile cfg.dial rows)[t + i - start]? = some 13 := by
        rw [← hdata, List.getElem?_drop, show start + (t + i - start) = t + i by omega]; exact h13
      have hev : ((renderFile cfg.dial rows).take (t + i - start)).count cfg.quote % 2 = 0 := by
        unfold OutsideAt at hout
        rw [hdata, show e - start = (t + i - start) + 1 by omega, List.take_add_one, hk] at hout
        simpa [List.count_append, Ne.symm hq.2] using hout
      rcases outside_cr cfg.dial hM rows hwf _ hk hev with h | h
      · exfalso
        rw [← hdata, List.getElem?_drop, show start + (t + i - start + 1) = t + (i + 1) by omega] at h
        rw [h] at h1'; simp at h1'
      · rw [← hdata, List.length_drop] at h
        have : t + i < file.length := by
          by_contra hge
          rw [List.getElem?_eq_none (by omega)] at h13; simp at h13
        omega
  · exact Or.inl h2

theorem tiles_ends (a n : Nat) (rs : List (Nat × Nat)) (h : Spec.Tiles a n rs) (r : Nat × Nat) (hr : r ∈ rs) :
    a < r.2 ∧ (r.2 = n ∨ ∃ x ∈ rs, x.1 = r.2) := by
  induction rs generalizing a with
  | nil => simp at hr
  | cons y rs ih =>
    obtain ⟨t1, t2, t3, t4⟩ := h
    rcases List.mem_cons.1 hr with h | h
    · subst h
      refine ⟨by omega, ?_⟩
      cases rs with
      | nil => exact Or.inl t4
      | cons z rs => exact Or.inr ⟨z, by simp, t4.1⟩
    · obtain ⟨e1, e2⟩ := ih y.2 t4 h
      refine ⟨by omega, ?_⟩
      rcases e2 with e | ⟨x, hx, e⟩
      · exact Or.inl e
      · exact Or.inr ⟨x, by simp [hx], e⟩

/-- No chunk of the file starts inside quotes (quotes counted from the start of the data). -/
def CutsOutside (cfg : ReadCfg) (file : Bytes) (start chunkSize : Nat) : Prop :=
  ∀ rs, chunkRanges cfg.cpu cfg.quote file start chunkSize = some rs →
    ∀ r ∈ rs, ((file.drop start).take (r.1 - start)).count cfg.quote % 2 = 0

/-- The chunks of `read_all` are whole-row groups if no boundary is inside quotes. -/
theorem cuts_groups (cfg : ReadCfg) (hM : ReadSane cfg.dial) (file : Bytes) (start chunkSize : Nat) (rows : List WRow)
    (hr : rows ≠ []) (hwf : ∀ r ∈ rows, ∀ f ∈ r.fields, f.WF cfg.dial) (hdata : file.drop start = renderFile cfg.dial rows)
    (rs : List (Nat × Nat)) (h1 : chunkRanges cfg.cpu cfg.quote file start chunkSize = some rs)
    (htiles : Spec.Tiles start file.length rs) (hrs : rs ≠ []) (hcut : CutsOutside cfg file start chunkSize) :
    ∃ gs, rs.map (slice file) = groupTexts cfg.dial gs ∧ gs.flatten = rows ∧ (∀ g ∈ gs, g ≠ []) := by
  have hout : ∀ r ∈ rs, OutsideAt cfg.quote file start r.1 := hcut rs h1
  refine outside_slices cfg.dial hM file start rows hr hwf hdata rs hrs htiles hout ?_
  intro r hrm
  obtain ⟨e1, e2⟩ := tiles_ends _ _ _ htiles r hrm
  rcases e2 with e | ⟨x, hx, e⟩
  · exact Or.inl e
  · rcases chunkRangesGo_ends _ _ _ _ _ _ h1 r hrm with h | ⟨t, h⟩
    · exact Or.inl h
    · exact outside_rowEnd cfg hM file start rows hwf hdata t r.2 e1 h (by have := hout x hx; rwa [e] at this)

/-- Files without line ends inside quotes meet the condition, whatever the chunk size. -/
theorem flat_cutsOutside (cfg : ReadCfg) (hM : ReadSane cfg.dial) (file : Bytes) (start chunkSize : Nat) (hs : start ≤ file.length)
    (hc : 0 < chunkSize) (rows : List WRow) (hflat : FlatRows cfg.dial rows) (hdata : file.drop start = renderFile cfg.dial rows) :
    CutsOutside cfg file start chunkSize := by
  have hq : cfg.quote ≠ 10 ∧ cfg.quote ≠ 13 := by
    constructor
    · have := hM.eol_quote; rw [hM.eol_lf] at this; exact this.symm
    · exact hM.quote_cr
  intro rs h1 r hrm
  obtain ⟨rs', h1', htiles⟩ := C06_ranges_tile cfg.cpu cfg.quote file start chunkSize hs hc
  rw [h1, Option.some.injEq] at h1'
  subst h1'
  have hst : r.1 = start ∨ ∃ x ∈ rs, x.2 = r.1 ∧ r.1 < file.length := by
    clear h1
    revert htiles
    generalize start = a
    intro htiles
    induction rs generalizing a with
    | nil => simp at hrm
    | cons y rs ih =>
      obtain ⟨t1, t2, t3, t4⟩ := htiles
      rcases List.mem_cons.1 hrm with h | h
      · subst h; exact Or.inl t1
      · right
        rcases ih h y.2 t4 with e | ⟨x, hx, e⟩
        · refine ⟨y, by simp, e.symm, ?_⟩
          have : ∀ (rs : List (Nat × Nat)) (a : Nat), Spec.Tiles a file.length rs → ∀ x ∈ rs, x.1 < file.length := by
            intro rs
            induction rs with
            | nil => intro _ _ x hx; simp at hx
            | cons z rs ihz =>
              intro a ht x hx
              obtain ⟨u1, u2, u3, u4⟩ := ht
              rcases List.mem_cons.1 hx with h | h
              · subst h; omega
              · exact ihz z.2 u4 x h
          exact this rs y.2 t4 r h
        · exact ⟨x, by simp [hx], e⟩
  rcases hst with h | ⟨x, hx, e, hlt⟩
  · rw [h]; simp
  · have hx2 := tiles_ends _ _ _ htiles x hx
    rcases chunkRangesGo_ends _ _ _ _ _ _ h1 x hx with h | ⟨t, h⟩
    · omega
    · rcases flat_rowEnd cfg hM file start rows hflat hdata t x.2 hx2.1 h with h' | ⟨hp, hlf⟩
      · omega
      · have hb : (renderFile cfg.dial rows)[x.2 - start - 1]? = some 10 := by
          rw [← hdata, List.getElem?_drop, show start + (x.2 - start - 1) = x.2 - 1 by omega]; exact hlf
        obtain ⟨A, B, a1, a2, a3, a4, a5⟩ := flat_cut cfg.dial hM rows hflat _ hb
        rw [← e, hdata, show x.2 - start = x.2 - start - 1 + 1 by omega, a4, List.count_append]
        have h1 := file_even cfg.dial hM A (fun r hr => (hflat r (by rw [a1]; simp [hr])).1.wf)
        have h2 : [cfg.dial.eol].count cfg.quote = 0 := by
          have : cfg.dial.eol ≠ cfg.quote := hM.eol_quote
          simp [this]
        have h3 : cfg.dial.quote = cfg.quote := rfl
        rw [h3] at h1
        omega

end Vroom
