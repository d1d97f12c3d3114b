import Verif.Model.LineParser
import Verif.Lemmas.Open
import Mathlib.Tactic.Tauto
/-
C73: parsing one line into column builders.
-/
namespace Vroom
open Spec

/-! ### The null spellings of the line parser -/

theorem initNullValues_inv (nc : NullChecker) (rest : Bytes) (hmax : ∀ v ∈ nc.vals, v.length ≤ nc.maxLen) :
    (∀ v, v ∈ (initNullValues nc rest).vals ↔ v ∈ nc.vals ∨ (v ≠ [] ∧ v ∈ commaPieces rest)) ∧
    (∀ v ∈ (initNullValues nc rest).vals, v.length ≤ (initNullValues nc rest).maxLen) ∧
    ((initNullValues nc rest).emptyIsNull = true ↔ nc.emptyIsNull = true ∨ [] ∈ commaPieces rest) := by
  induction hn : rest.length using Nat.strongRecOn generalizing nc rest with
  | _ n ih =>
  subst hn
  rw [initNullValues]
  have hsp := commaPieces_split rest
  have key : ∀ nc', (∀ v ∈ nc'.vals, v.length ≤ nc'.maxLen) →
      (∀ v, v ∈ nc'.vals ↔ v ∈ nc.vals ∨ (v ≠ [] ∧ v = rest.take (findComma rest))) →
      (nc'.emptyIsNull = true ↔ nc.emptyIsNull = true ∨ rest.take (findComma rest) = []) →
      ∀ r, r = (if h : findComma rest < rest.length then initNullValues nc' (rest.drop (findComma rest + 1)) else nc') →
      (∀ v, v ∈ r.vals ↔ v ∈ nc.vals ∨ (v ≠ [] ∧ v ∈ commaPieces rest)) ∧ (∀ v ∈ r.vals, v.length ≤ r.maxLen) ∧
      (r.emptyIsNull = true ↔ nc.emptyIsNull = true ∨ [] ∈ commaPieces rest) := by
    intro nc' hm hv he r hr
    by_cases hlt : findComma rest < rest.length
    · rw [dif_pos hlt] at hr
      obtain ⟨h1, h2, h3⟩ := ih (rest.drop (findComma rest + 1)).length (by simp; omega) nc' _ hm rfl
      rw [← hr] at h1 h2 h3
      rw [if_pos hlt] at hsp
      refine ⟨?_, h2, ?_⟩
      · intro v
        rw [h1, hv, hsp, List.mem_cons]
        tauto
      · rw [h3, he, hsp, List.mem_cons]
        constructor
        · rintro ((h | h) | h)
          · exact .inl h
          · exact .inr (.inl h.symm)
          · exact .inr (.inr h)
        · rintro (h | h | h)
          · exact .inl (.inl h)
          · exact .inl (.inr h.symm)
          · exact .inr h
    · rw [dif_neg hlt] at hr
      subst hr
      rw [if_neg hlt] at hsp
      refine ⟨?_, hm, ?_⟩
      · intro v; rw [hv, hsp, List.mem_singleton]
      · rw [he, hsp, List.mem_singleton]
        constructor
        · rintro (h | h)
          · exact .inl h
          · exact .inr h.symm
        · rintro (h | h)
          · exact .inl h
          · exact .inr h.symm
  by_cases hv : rest.take (findComma rest) = []
  · rw [if_pos hv]
    refine key { nc with emptyIsNull := true } hmax ?_ ?_ _ rfl
    · intro v
      constructor
      · exact fun h => .inl h
      · rintro (h | ⟨h1, h2⟩)
        · exact h
        · exact absurd (h2.trans hv) h1
    · simp [hv]
  · rw [if_neg hv]
    refine key { nc with vals := nc.vals ++ [rest.take (findComma rest)], maxLen := max nc.maxLen (rest.take (findComma rest)).length } ?_ ?_ ?_ _ rfl
    · intro v h
      rcases List.mem_append.1 h with h | h
      · have := hmax v h; simp only; omega
      · rw [List.mem_singleton.1 h]; simp only; omega
    · intro v
      simp only [List.mem_append, List.mem_singleton]
      constructor
      · rintro (h | h)
        · exact .inl h
        · exact .inr ⟨h ▸ hv, h⟩
      · rintro (h | h)
        · exact .inl h
        · exact .inr h.2
    · simp [hv]

/-- **C73** The line parser takes exactly the pieces of the null list as null: the empty text is null only if it is
one of them. -/
theorem C73_null_iff_member (nullValues v : List UInt8) : (lineNulls nullValues).isNull v = true ↔ v ∈ commaPieces nullValues := by
  obtain ⟨h1, h2, h3⟩ := initNullValues_inv { emptyIsNull := false } nullValues (by simp)
  unfold lineNulls NullChecker.isNull
  by_cases hv : v = []
  · rw [if_pos hv, h3, hv]; simp
  · rw [if_neg hv]
    have h1 := h1 v
    simp only [List.not_mem_nil, false_or] at h1
    split
    · next hlen =>
      have : v ∉ (initNullValues { emptyIsNull := false } nullValues).vals := by
        intro h; have := h2 v h; omega
      rw [h1] at this
      simp only [Bool.false_eq_true, false_iff]
      exact fun h => this ⟨hv, h⟩
    · rw [List.any_eq_true]
      constructor
      · rintro ⟨x, hx, hxv⟩
        have := eq_of_beq hxv
        subst this
        exact (h1.1 hx).2
      · intro h
        exact ⟨v, h1.2 ⟨hv, h⟩, by simp⟩

/-! ### The loop -/

theorem headerGo_prefix (sep q : UInt8) (data : Bytes) : ∀ inq cur hs, hs <+: headerGo sep q inq cur hs data := by
  induction hn : data.length using Nat.strongRecOn generalizing data with
  | _ n ih =>
  subst hn
  intro inq cur hs
  cases data with
  | nil => rw [headerGo]; split <;> simp
  | cons c rest =>
    rw [headerGo.eq_def]
    dsimp only
    split
    · simp
    split
    · cases rest with
      | nil => exact ih 0 (by simp) [] rfl _ _ _
      | cons d r =>
        dsimp only
        split
        · exact ih r.length (by simp; omega) r rfl _ _ _
        · exact ih (d :: r).length (by simp) (d :: r) rfl _ _ _
    split
    · exact (List.prefix_append hs [trimRight cur]).trans (ih rest.length (by simp) rest rfl _ _ _)
    split
    · exact ih rest.length (by simp) rest rfl _ _ _
    · exact ih rest.length (by simp) rest rfl _ _ _

/-- The cell of a finished text. -/
def textCell (nc : NullChecker) : Option Bytes → Cell
  | none => .null
  | some t => if nc.isNull t then .null else .text t

theorem lineFinish_full (nc : NullChecker) (cols : Cols) (cur : Bytes) : lineFinish nc cols.length (cols, cols.length, cur) = (cols, cols.length) := by
  unfold lineFinish
  dsimp only
  rw [if_neg (by omega)]
  dsimp only
  rw [fillNulls, if_neg (by omega), Nat.max_self]

theorem mapIdx_late (cols : Cols) (idx : Nat) (f : Nat → Cell) (h : cols.length ≤ idx) :
    cols.mapIdx (fun j col => if idx ≤ j then col ++ [f j] else col) = cols := by
  apply List.ext_getElem?
  intro j
  rw [List.getElem?_mapIdx]
  by_cases hj : j < cols.length
  · rw [List.getElem?_eq_getElem hj]; simp only [Option.map_some]; rw [if_neg (by omega)]
  · rw [List.getElem?_eq_none (by omega)]; rfl

theorem mapIdx_push (cols : Cols) (idx : Nat) (f : Nat → Cell) :
    (Cols.push cols idx (f idx)).mapIdx (fun j col => if idx + 1 ≤ j then col ++ [f j] else col)
      = cols.mapIdx (fun j col => if idx ≤ j then col ++ [f j] else col) := by
  apply List.ext_getElem?
  intro j
  rw [List.getElem?_mapIdx, List.getElem?_mapIdx, push_get, Option.map_map]
  congr 1
  funext col
  simp only [Function.comp]
  by_cases hj : idx = j
  · subst hj; simp
  · by_cases h2 : idx ≤ j
    · rw [if_neg hj, if_pos h2, if_pos (by omega)]
    · rw [if_neg hj, if_neg h2, if_neg (by omega)]

theorem fillNulls_mapIdx (cols : Cols) (idx : Nat) :
    fillNulls cols.length cols idx = cols.mapIdx (fun j col => if idx ≤ j then col ++ [.null] else col) := by
  obtain ⟨-, h⟩ := fillNulls_spec cols.length cols idx
  apply List.ext_getElem?
  intro j
  rw [h j, List.getElem?_mapIdx]
  by_cases hj : j < cols.length
  · congr 1; funext col; simp [hj]
  · rw [List.getElem?_eq_none (by omega)]; rfl

/-- The loop and what follows it, from any state, against the texts `headerGo` finds (`hs` starts with one dummy
so that the last empty text is not counted). -/
theorem lineGo_spec (nc : NullChecker) (sep q : UInt8) (data : Bytes) : ∀ (inq : Bool) (cur : Bytes) (cols : Cols) (idx : Nat) (hs : List Bytes),
    hs.length = idx + 1 → idx ≤ cols.length →
    lineFinish nc cols.length (lineGo nc sep q cols.length inq cur cols idx data)
      = (cols.mapIdx (fun j col => if idx ≤ j then col ++ [textCell nc (headerGo sep q inq cur hs data)[j + 1]?] else col), cols.length) := by
  induction hn : data.length using Nat.strongRecOn generalizing data with
  | _ n ih =>
  subst hn
  intro inq cur cols idx hs hhs hidx
  by_cases hfull : ¬ idx < cols.length
  · have : idx = cols.length := by omega
    have e : lineGo nc sep q cols.length inq cur cols idx data = (cols, idx, cur) := by
      cases data with
      | nil => rw [lineGo]
      | cons c r => rw [lineGo.eq_def]; dsimp only; rw [if_pos hfull]
    rw [e, mapIdx_late _ _ (fun j => textCell nc (headerGo sep q inq cur hs data)[j + 1]?) (by omega), this, lineFinish_full]
  · replace hfull := Decidable.not_not.1 hfull
    -- the cell pushed at `idx`
    have emit : ∀ (full : List Bytes) , (hs ++ [trimRight cur]) <+: full → lineCell nc cur = textCell nc full[idx + 1]? := by
      intro full hp
      obtain ⟨t, rfl⟩ := hp
      rw [List.append_assoc, List.getElem?_append_right (by omega), hhs, Nat.sub_self]
      rfl
    cases data with
    | nil =>
      rw [lineGo, headerGo]
      have hne : ¬ hs = [] := by intro h; rw [h] at hhs; simp at hhs
      unfold lineFinish
      dsimp only
      by_cases hc : cur = []
      · rw [if_neg (by simp [hc]), if_neg (by simp [hc, hne])]
        dsimp only
        rw [fillNulls_mapIdx, Nat.max_eq_right hidx]
        congr 1
        apply List.ext_getElem?
        intro j
        rw [List.getElem?_mapIdx, List.getElem?_mapIdx]
        congr 1
        funext col
        by_cases hj : idx ≤ j
        · rw [if_pos hj, if_pos hj, List.getElem?_eq_none (by omega)]; rfl
        · rw [if_neg hj, if_neg hj]
      · rw [if_pos ⟨hfull, hc⟩, if_pos (.inl hc)]
        dsimp only
        have hl := push_length cols idx (lineCell nc cur)
        have := fillNulls_mapIdx (Cols.push cols idx (lineCell nc cur)) (idx + 1)
        rw [hl] at this
        rw [this, Nat.max_eq_right (by omega)]
        congr 1
        rw [emit _ (List.prefix_refl _)]
        rw [← mapIdx_push cols idx (fun j => textCell nc (hs ++ [trimRight cur])[j + 1]?)]
        apply List.ext_getElem?
        intro j
        rw [List.getElem?_mapIdx, List.getElem?_mapIdx]
        congr 1
        funext col
        by_cases hj : idx + 1 ≤ j
        · rw [if_pos hj, if_pos hj, List.getElem?_eq_none (by simp; omega)]; rfl
        · rw [if_neg hj, if_neg hj]
    | cons c rest =>
      rw [lineGo.eq_def, headerGo.eq_def]
      dsimp only
      rw [if_neg (not_not.2 hfull)]
      by_cases h1 : inq = false ∧ (c = LF ∨ c = CR)
      · rw [if_pos h1, if_pos h1]
        unfold lineFinish
        dsimp only
        rw [if_neg (by simp)]
        dsimp only
        have hl := push_length cols idx (lineCell nc cur)
        have := fillNulls_mapIdx (Cols.push cols idx (lineCell nc cur)) (idx + 1)
        rw [hl] at this
        rw [this, Nat.max_eq_right (by omega)]
        congr 1
        rw [emit _ (List.prefix_refl _)]
        rw [← mapIdx_push cols idx (fun j => textCell nc (hs ++ [trimRight cur])[j + 1]?)]
        apply List.ext_getElem?
        intro j
        rw [List.getElem?_mapIdx, List.getElem?_mapIdx]
        congr 1
        funext col
        by_cases hj : idx + 1 ≤ j
        · rw [if_pos hj, if_pos hj, List.getElem?_eq_none (by simp; omega)]; rfl
        · rw [if_neg hj, if_neg hj]
      rw [if_neg h1, if_neg h1]
      by_cases h2 : c = q
      · rw [if_pos h2, if_pos h2]
        cases rest with
        | nil => exact ih 0 (by simp) [] rfl _ _ _ _ _ hhs hidx
        | cons d r =>
          dsimp only
          by_cases h3 : inq ∧ d = q
          · rw [if_pos h3, if_pos h3]; exact ih r.length (by simp; omega) r rfl _ _ _ _ _ hhs hidx
          · rw [if_neg h3, if_neg h3]; exact ih (d :: r).length (by simp) (d :: r) rfl _ _ _ _ _ hhs hidx
      rw [if_neg h2, if_neg h2]
      by_cases h3 : c = sep ∧ inq = false
      · rw [if_pos h3, if_pos h3]
        have hl := push_length cols idx (lineCell nc cur)
        have := ih rest.length (by simp) rest rfl inq [] (Cols.push cols idx (lineCell nc cur)) (idx + 1) (hs ++ [trimRight cur])
          (by simp [hhs]) (by rw [hl]; omega)
        rw [hl] at this
        rw [this, emit _ (headerGo_prefix sep q rest inq [] (hs ++ [trimRight cur])),
          mapIdx_push cols idx (fun j => textCell nc (headerGo sep q inq [] (hs ++ [trimRight cur]) rest)[j + 1]?)]
      rw [if_neg h3, if_neg h3]
      by_cases h4 : cur = [] ∧ inq = false ∧ (c = 32 ∨ c = 9)
      · rw [if_pos h4, if_pos h4]; exact ih rest.length (by simp) rest rfl _ _ _ _ _ hhs hidx
      · rw [if_neg h4, if_neg h4]; exact ih rest.length (by simp) rest rfl _ _ _ _ _ hhs hidx

theorem parseLine_eq (nc : NullChecker) (sep q : UInt8) (data : Bytes) (cols : Cols) (hd : data ≠ []) (hc : cols ≠ []) :
    parseLine nc sep q data cols
      = (cols.mapIdx (fun j col => col ++ [textCell nc (headerGo sep q false [] [[]] data)[j + 1]?]), cols.length) := by
  unfold parseLine
  rw [if_neg (by simp [hd, hc]), lineGo_spec nc sep q data false [] cols 0 [[]] rfl (by omega)]
  simp

/-- **C73** Whatever bytes the line consists of (if any) and however many columns there are (if any): every column
builder receives exactly one value, and the returned number is the number of columns. -/
theorem C73_rectangular (nullValues : List UInt8) (sep q : UInt8) (data : List UInt8) (cols : List (List Cell))
    (hd : data ≠ []) (hc : cols ≠ []) :
    ∃ vs : List Cell, vs.length = cols.length ∧
      parseLine (lineNulls nullValues) sep q data cols = (List.zipWith (fun col v => col ++ [v]) cols vs, cols.length) := by
  refine ⟨(List.range cols.length).map (fun j => textCell (lineNulls nullValues) (headerGo sep q false [] [[]] data)[j + 1]?), by simp, ?_⟩
  rw [parseLine_eq _ _ _ _ _ hd hc]
  congr 1
  apply List.ext_getElem?
  intro j
  rw [List.getElem?_mapIdx, List.getElem?_zipWith]
  by_cases hj : j < cols.length
  · simp [hj]
  · rw [List.getElem?_eq_none (l := cols) (by omega)]; simp

/-- **C73** An empty line, or no columns: nothing is appended and 0 is returned. -/
theorem C73_empty (nullValues : List UInt8) (sep q : UInt8) (data : List UInt8) (cols : List (List Cell)) (h : data = [] ∨ cols = []) :
    parseLine (lineNulls nullValues) sep q data cols = (cols, 0) := by
  unfold parseLine
  rw [if_pos (by simpa using h)]

/-- What the line parser delivers for a written field: the text with the blanks around it removed (only those at
the end of a quoted text), null if that is one of the null spellings – quoted or not. -/
def lineValue (nulls : List (List UInt8)) (f : WField) : Cell :=
  if f.columnName ∈ nulls then .null else .text f.columnName

theorem textCell_eq (nullValues : Bytes) (f : WField) :
    textCell (lineNulls nullValues) (some f.columnName) = lineValue (commaPieces nullValues) f := by
  show (if (lineNulls nullValues).isNull f.columnName then Cell.null else .text f.columnName) = _
  unfold lineValue
  by_cases h : f.columnName ∈ commaPieces nullValues
  · rw [if_pos h, if_pos ((C73_null_iff_member _ _).2 h)]
  · rw [if_neg h, if_neg (fun h' => h ((C73_null_iff_member _ _).1 h'))]

/-- **C73** A written line (bare or quoted fields, LF or CRLF, whatever follows): column `j` receives the value of
field `j`, columns beyond the fields receive null, fields beyond the columns are ignored. -/
theorem C73_written_line (nullValues : List UInt8) (M : Marks) (hM : ReadSane M) (row : WRow) (hne : row.fields ≠ [])
    (hwf : ∀ f ∈ row.fields, f.WF M) (rest : List UInt8) (cols : List (List Cell)) (hc : cols ≠ []) :
    parseLine (lineNulls nullValues) M.sep M.quote (row.render M ++ 10 :: rest) cols
      = (cols.mapIdx (fun j col => col ++ [match row.fields[j]? with
          | some f => lineValue (commaPieces nullValues) f
          | none => .null]), cols.length) := by
  rw [parseLine_eq _ _ _ _ _ (by simp) hc]
  have key : headerGo M.sep M.quote false [] [[]] (row.render M ++ 10 :: rest) = [] :: row.fields.map (·.columnName) := by
    unfold WRow.render
    cases row.crlf with
    | false => simpa using headerGo_row M hM row.fields hne hwf 10 (.inl rfl) rest [[]]
    | true => simpa using headerGo_row M hM row.fields hne hwf 13 (.inr rfl) (10 :: rest) [[]]
  rw [key]
  congr 1
  apply List.ext_getElem?
  intro j
  rw [List.getElem?_mapIdx, List.getElem?_mapIdx, List.getElem?_cons_succ, List.getElem?_map]
  congr 1
  funext col
  cases row.fields[j]? with
  | none => rfl
  | some f => simp only [Option.map_some]; rw [textCell_eq]

/-- **C73** A written line at the end of the data, without line end: the same, except that an empty last field is
null whatever the null spellings are. -/
theorem C73_last_line (nullValues : List UInt8) (M : Marks) (hM : ReadSane M) (fs : List WField) (f : WField)
    (hwf : ∀ g ∈ fs ++ [f], g.WF M) (cols : List (List Cell)) (hc : cols ≠ [])
    (hne : joinFields M.sep ((fs ++ [f]).map (·.render M.quote)) ≠ []) :
    parseLine (lineNulls nullValues) M.sep M.quote (joinFields M.sep ((fs ++ [f]).map (·.render M.quote))) cols
      = (cols.mapIdx (fun j col => col ++ [match (fs ++ [f])[j]? with
          | some g => if j = fs.length ∧ f.columnText = [] then .null else lineValue (commaPieces nullValues) g
          | none => .null]), cols.length) := by
  rw [parseLine_eq _ _ _ _ _ hne hc, headerGo_last M hM fs f hwf [[]]]
  congr 1
  apply List.ext_getElem?
  intro j
  rw [List.getElem?_mapIdx, List.getElem?_mapIdx]
  congr 1
  funext col
  congr 2
  by_cases ht : f.columnText = []
  · rw [if_neg (by simp [ht])]
    simp only [List.singleton_append, List.getElem?_cons_succ, List.getElem?_map]
    rcases Nat.lt_trichotomy j fs.length with hj | hj | hj
    · rw [List.getElem?_append_left hj, List.getElem?_eq_getElem hj]
      simp only [Option.map_some]
      rw [if_neg (by omega), textCell_eq]
    · subst hj
      rw [List.getElem?_eq_none (by omega), List.getElem?_append_right (by omega), Nat.sub_self]
      simp [ht, textCell]
    · rw [List.getElem?_eq_none (by omega), List.getElem?_eq_none (by simp; omega)]; rfl
  · rw [if_pos (.inl ht)]
    simp only [List.singleton_append, List.getElem?_cons_succ, List.getElem?_map]
    cases hg : (fs ++ [f])[j]? with
    | none => rfl
    | some g =>
      simp only [Option.map_some]
      rw [if_neg (by simp [ht]), textCell_eq]

/-- Three columns, `null_values` "NA,x": `a,"NA",` and LF, more text behind. -/
example : parseLine (lineNulls [78, 65, 44, 120]) 44 34 ([97, 44, 34, 78, 65, 34, 44, 10, 98]) [[], [], []]
    = ([[.text [97]], [.null], [.text []]], 3) := by decide +kernel

/-- Two fields for three columns, three fields for two columns. -/
example : parseLine (lineNulls [78, 65, 44]) 44 34 ([97, 44, 98, 10]) [[], [], []] = ([[.text [97]], [.text [98]], [.null]], 3) ∧
    parseLine (lineNulls [78, 65, 44]) 44 34 ([97, 44, 98, 44, 99, 10]) [[], []] = ([[.text [97]], [.text [98]]], 2) := by decide +kernel

/-- **C73 finding** The returned number is not the number of fields parsed, as vroom.h:348 says: two lines with
different numbers of fields give the same number. -/
theorem C73_count_refuted : ¬ ∀ (fs : List WField) (cols : List (List Cell)), cols ≠ [] → fs ≠ [] →
    (∀ f ∈ fs, f.WF { sep := 44, quote := 34, eol := 10 }) →
    (parseLine (lineNulls []) 44 34 (joinFields 44 (fs.map (·.render 34)) ++ [10]) cols).2 = fs.length := by
  intro h
  have := h [.plain [97]] [[], []] (by simp) (by simp) (by simp [WField.WF])
  revert this
  decide +kernel

/-- **C73 finding** The same text is null for the line parser and not null for the reader, or the other way round:
with the null list "NA" the empty text is null for the reader only, and a quoted NA is null for the line parser only
(with the reader's own null test, see C14). -/
theorem C73_reader_differs_refuted : ¬ ∀ (nullValues : List UInt8) (v : List UInt8),
    (lineNulls nullValues).isNull v = (NullChecker.mk' nullValues).isNull v := by
  intro h
  have := h [78, 65] []
  revert this
  decide +kernel

/-- **C73 finding** Whether a last empty field is null depends on the line end. -/
example : parseLine (lineNulls [78, 65]) 44 34 [97, 44] [[], []] = ([[.text [97]], [.null]], 2) ∧
    parseLine (lineNulls [78, 65]) 44 34 [97, 44, 10] [[], []] = ([[.text [97]], [.text []]], 2) := by decide +kernel

end Vroom
