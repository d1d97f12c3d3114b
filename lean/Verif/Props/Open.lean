import Verif.Lemmas.Open
import Verif.Props.Reader
/-
C15, C57, C58, C59: opening a file.
-/
namespace Vroom
open Spec

/-- The special bytes used when opening a file. -/
def InferCfg.marks (cfg : InferCfg) : Marks := { sep := cfg.sep, quote := cfg.quote, eol := 10 }

/-- **C15** Parsing a written header row (bare or quoted names, ended by LF or CRLF, whatever follows) gives the
written names in order, one per field. -/
theorem C15_parse_header (M : Marks) (hM : ReadSane M) (hdr : WRow) (hne : hdr.fields ≠ []) (hwf : ∀ f ∈ hdr.fields, f.WF M)
    (rest : List UInt8) :
    parseHeader M.sep M.quote (hdr.render M ++ 10 :: rest) = hdr.fields.map (·.columnName) := by
  unfold parseHeader
  rw [if_neg (by simp)]
  unfold WRow.render
  cases hdr.crlf with
  | false =>
    have := headerGo_row M hM hdr.fields hne hwf 10 (.inl rfl) rest []
    simpa using this
  | true =>
    have := headerGo_row M hM hdr.fields hne hwf 13 (.inr rfl) (10 :: rest) []
    simpa using this

/-- **C15** Quoted names without blanks at the end come back unchanged, whatever bytes they consist of. -/
theorem C15_roundtrip (M : Marks) (hM : ReadSane M) (names : List (List UInt8)) (hne : names ≠ [])
    (hb : ∀ n ∈ names, n.getLast? ≠ some 32 ∧ n.getLast? ≠ some 9) (rest : List UInt8) :
    parseHeader M.sep M.quote ((WRow.mk (names.map .quoted) false).render M ++ 10 :: rest) = names := by
  rw [C15_parse_header M hM _ (by simpa using hne) (by
    intro f hf
    obtain ⟨b, -, rfl⟩ := List.mem_map.1 hf
    trivial)]
  rw [List.map_map]
  conv_rhs => rw [← List.map_id names]
  apply List.map_congr_left
  intro n hn
  show trimEnd n = n
  unfold trimEnd
  have h1 := hb n hn
  rw [← List.head?_reverse] at h1
  cases hr : n.reverse with
  | nil => simpa using (List.reverse_eq_nil_iff.1 hr).symm
  | cons c l =>
    rw [hr] at h1
    rw [List.dropWhile_cons_of_neg, ← hr, List.reverse_reverse]
    simp only [List.head?_cons, ne_eq, Option.some.injEq] at h1
    simp [blank, h1.1, h1.2]

/-- **C15 finding** A header that ends at the end of the file loses its last name if that name is empty. -/
theorem C15_last_empty_name (M : Marks) (hM : ReadSane M) (fs : List WField) (f : WField) (hwf : ∀ g ∈ fs ++ [f], g.WF M)
    (hne : joinFields M.sep ((fs ++ [f]).map (·.render M.quote)) ≠ []) :
    parseHeader M.sep M.quote (joinFields M.sep ((fs ++ [f]).map (·.render M.quote)))
      = if f.columnText = [] ∧ fs ≠ [] then fs.map (·.columnName) else (fs ++ [f]).map (·.columnName) := by
  unfold parseHeader
  rw [if_neg (by simpa using hne), headerGo_last M hM fs f hwf []]
  simp only [List.nil_append, List.map_eq_nil_iff]
  by_cases h1 : f.columnText = [] <;> by_cases h2 : fs = [] <;> simp [h1, h2]

/-- **C15 finding** Blanks at the end of a quoted name are lost. -/
example : parseHeader 44 34 [34, 97, 32, 34, 10] = [[97]] := by decide +kernel

/-! ### Opening -/

theorem assignTypes_names (schema : List ColSchema) (types : List DataType) :
    (assignTypes schema types).map (·.name) = schema.map (·.name) ∧ (assignTypes schema types).map (·.nullable) = schema.map (·.nullable) := by
  unfold assignTypes
  constructor <;>
  · apply List.ext_getElem?
    intro i
    simp only [List.getElem?_map, List.getElem?_mapIdx, Option.map_map]
    cases schema[i]? with
    | none => rfl
    | some c =>
      simp only [Option.map_some, Function.comp_apply]
      cases types[i]? <;> rfl

theorem assignTypes_nullable (schema : List ColSchema) (types : List DataType) (h : ∀ c ∈ schema, c.nullable = true) :
    ∀ c ∈ assignTypes schema types, c.nullable = true := by
  intro c hc
  have h2 : c.nullable ∈ (assignTypes schema types).map (·.nullable) := List.mem_map.2 ⟨c, hc, rfl⟩
  rw [(assignTypes_names _ _).2] at h2
  obtain ⟨a, ha, h3⟩ := List.mem_map.1 h2
  rw [← h3]; exact h a ha

theorem sampleLoop_length (cfg : InferCfg) (data : Bytes) (maxRows : Nat) : ∀ fuel offset rows types,
    (sampleLoop cfg data maxRows fuel offset rows types).length = types.length := by
  intro fuel
  induction fuel with
  | zero => intro _ _ _; rfl
  | succ n ih =>
    intro offset rows types
    simp only [sampleLoop]
    split
    · split
      · exact ih _ _ _
      · rw [ih]; simp [updateTypes]
    · rfl

theorem inferFromSample_length (cfg : InferCfg) (data : Bytes) (n maxRows : Nat) : (inferFromSample cfg data n maxRows).length = n := by
  unfold inferFromSample
  dsimp only
  split
  · simp
  · rw [List.length_map, sampleLoop_length]; simp

theorem assignTypes_types (schema : List ColSchema) (types : List DataType) (h : types.length = schema.length) :
    (assignTypes schema types).map (·.type) = types := by
  unfold assignTypes
  apply List.ext_getElem?
  intro i
  simp only [List.getElem?_map, List.getElem?_mapIdx, Option.map_map]
  by_cases hi : i < schema.length
  · have hi' : i < types.length := by omega
    rw [List.getElem?_eq_getElem hi, List.getElem?_eq_getElem hi']
    rfl
  · rw [List.getElem?_eq_none (by omega), List.getElem?_eq_none (by omega)]; rfl

theorem renderFile_cons (M : Marks) (r : WRow) (rows : List WRow) (h : rows ≠ []) :
    renderFile M (r :: rows) = r.render M ++ M.eol :: renderFile M rows := by
  cases rows with
  | nil => exact absurd rfl h
  | cons a l => rfl

/-- **C58** Opening a written file with header in a fresh reader: the schema has one nullable column for each
header field, named after it, with the inferred types, and the data starts right after the header row, so
that what remains is exactly the other rows.  (The header is not a single empty name, or errors are
ignored.) -/
theorem C58_open_partial (cfg : InferCfg) (hh : cfg.hasHeader = true) (hM : ReadSane cfg.marks) (sampleRows : Nat) (mode : ErrMode)
    (maxErrors : Nat) (hdr : WRow) (rows : List WRow) (hne : hdr.fields ≠ []) (hwf : ∀ f ∈ hdr.fields, f.WF cfg.marks) (hr : rows ≠ [])
    (file : List UInt8) (hfile : file = renderFile cfg.marks (hdr :: rows))
    (hgood : hdr.fields.map (·.columnName) ≠ [[]] ∨ mode = .disabled ∨ mode = .bestEffort) :
    ∃ st, openData cfg sampleRows (ReaderState.new mode maxErrors) file = (none, st) ∧ st.data = file ∧
      st.schema.map (·.name) = hdr.fields.map (·.columnName) ∧ (∀ c ∈ st.schema, c.nullable = true) ∧
      st.schema.map (·.type) = openInfer cfg file hdr.fields.length sampleRows ∧
      st.dataStart ≤ file.length ∧ file.drop st.dataStart = renderFile cfg.marks rows := by
  have hM10 : cfg.marks.eol = 10 := rfl
  rw [renderFile_cons _ _ _ hr, hM10] at hfile
  have hend : findRowEnd cfg.cpu cfg.quote file 0 = (hdr.render cfg.marks).length + 1 := by
    rw [hfile]; exact findRowEnd_row cfg.cpu cfg.marks hM hdr hwf _
  have htake : file.take ((hdr.render cfg.marks).length + 1) = hdr.render cfg.marks ++ 10 :: [] := by
    rw [hfile, List.take_append, List.take_of_length_le (by omega)]
    congr 1
    rw [show (hdr.render cfg.marks).length + 1 - (hdr.render cfg.marks).length = 1 by omega]
    rfl
  have hdrop : file.drop ((hdr.render cfg.marks).length + 1) = renderFile cfg.marks rows := by
    rw [hfile, List.drop_append, List.drop_eq_nil_of_le (by omega),
      show (hdr.render cfg.marks).length + 1 - (hdr.render cfg.marks).length = 1 by omega]
    rfl
  have hnames : parseHeader cfg.sep cfg.quote (file.take ((hdr.render cfg.marks).length + 1)) = hdr.fields.map (·.columnName) := by
    rw [htake]; exact C15_parse_header cfg.marks hM hdr hne hwf []
  have hlen : file.length ≠ 0 := by rw [hfile]; simp
  have hnn : hdr.fields.map (·.columnName) ≠ [] := by simpa using hne
  have hchk : (checkHeader (Collector.new mode maxErrors) (hdr.fields.map (·.columnName))).1 = false := by
    unfold checkHeader
    split
    · rfl
    · next hd =>
      dsimp only
      by_cases hbad : hdr.fields.map (·.columnName) = [[]]
      · rw [if_neg]
        rintro ⟨-, hs⟩
        rcases hgood with h | h | h
        · exact h hbad
        · exact hd h
        · subst h
          simp only [hbad, or_true, if_true, Collector.shouldStop, Collector.addError, Collector.new, emptyHeaderErr] at hs
          split at hs <;> simp at hs
      · rw [if_neg (by rintro ⟨h | h, -⟩; exact hnn h; exact hbad h)]
  unfold openData
  simp only [hlen, if_false, hh, if_true, hend, hnames, ReaderState.new, hchk, Bool.false_eq_true]
  refine ⟨_, rfl, rfl, ?_, ?_, ?_, ?_, ?_⟩
  · simp only [(assignTypes_names _ _).1, List.nil_append, List.map_map]
    rfl
  · apply assignTypes_nullable
    intro c hc
    rw [List.nil_append] at hc
    obtain ⟨a, -, rfl⟩ := List.mem_map.1 hc
    rfl
  · rw [assignTypes_types _ _ (inferFromSample_length _ _ _ _)]
    unfold openInfer
    simp only [hh, if_true, hend, List.nil_append, List.length_map]
  · dsimp only
    have := congrArg List.length hfile
    simp only [List.length_append, List.length_cons] at this
    omega
  · exact hdrop

/-! ### What is reported -/

theorem addErrors_take (es : List ParseErr) : ∀ c : Collector, c.errors.length ≤ c.maxErrors →
    (es.foldl Collector.addError c).errors = (c.errors ++ es).take c.maxErrors := by
  induction es with
  | nil => intro c hc; rw [List.append_nil, List.take_of_length_le hc]; rfl
  | cons e es ih =>
    intro c hc
    have hmax : (c.addError e).maxErrors = c.maxErrors := by unfold Collector.addError; dsimp only; split <;> split <;> rfl
    have herr : (c.addError e).errors = if c.errors.length ≥ c.maxErrors then c.errors else c.errors ++ [e] := by
      unfold Collector.addError; dsimp only; split <;> split <;> simp_all
    rw [List.foldl_cons, ih]
    · rw [hmax, herr]
      split
      · next h =>
        rw [List.take_append_of_le_length h, List.take_append_of_le_length h]
      · rw [List.append_assoc]; rfl
    · rw [hmax, herr]
      split
      · exact hc
      · simp; omega

theorem dupLoop_eq (all : List Bytes) : ∀ (rest : List Bytes) (seen : List Bytes) (i : Nat) (c : Collector), all.drop i = rest →
    (∀ n, n ∈ seen ↔ n ≠ [] ∧ n ∈ all.take i) →
    dupLoop seen i c rest = (((List.range' i (all.length - i)).filter (fun i =>
      decide (all.getD i [] ≠ [] ∧ all.getD i [] ∈ all.take i))).map (fun i => duplicateErr (i + 1))).foldl Collector.addError c := by
  intro rest
  induction rest with
  | nil =>
    intro seen i c hr _
    have : all.length ≤ i := by simpa using hr
    rw [show all.length - i = 0 by omega]
    rfl
  | cons n rest ih =>
    intro seen i c hr hseen
    have hi : i < all.length := by
      have := congrArg List.length hr
      simp at this; omega
    have hget : all[i]? = some n := by
      have := congrArg (fun l => l[0]?) hr
      simpa [List.getElem?_drop] using this
    have hg : all.getD i [] = n := by rw [List.getD_eq_getElem?_getD, hget]; rfl
    have hnext : all.drop (i + 1) = rest := by rw [← List.drop_drop, hr]; rfl
    have htake : all.take (i + 1) = all.take i ++ [n] := by rw [List.take_add_one, hget]; rfl
    rw [show all.length - i = (all.length - (i + 1)) + 1 by omega, List.range'_succ, List.filter_cons]
    simp only [dupLoop, hg]
    by_cases h0 : n = []
    · rw [if_pos h0, if_neg (by simp [h0])]
      apply ih _ _ _ hnext
      intro m
      rw [hseen, htake, List.mem_append, List.mem_singleton, h0]
      constructor
      · rintro ⟨a, b⟩; exact ⟨a, .inl b⟩
      · rintro ⟨a, b | b⟩
        · exact ⟨a, b⟩
        · exact absurd b a
    · rw [if_neg h0]
      by_cases h1 : n ∈ seen
      · have h2 := ((hseen n).1 h1).2
        rw [if_pos h1, if_pos (by simp [h0, h2]), List.map_cons, List.foldl_cons]
        apply ih _ _ _ hnext
        intro m
        rw [hseen, htake, List.mem_append, List.mem_singleton]
        constructor
        · rintro ⟨a, b⟩; exact ⟨a, .inl b⟩
        · rintro ⟨a, b | b⟩
          · exact ⟨a, b⟩
          · subst b; exact ⟨a, h2⟩
      · have h2 : n ∉ all.take i := fun h => h1 ((hseen n).2 ⟨h0, h⟩)
        rw [if_neg h1, if_neg (by simp [h2])]
        apply ih _ _ _ hnext
        intro m
        rw [List.mem_cons, hseen, htake, List.mem_append, List.mem_singleton]
        constructor
        · rintro (rfl | ⟨a, b⟩)
          · exact ⟨h0, .inr rfl⟩
          · exact ⟨a, .inl b⟩
        · rintro ⟨a, b | b⟩
          · exact .inr ⟨a, b⟩
          · exact .inl b

/-- **C57** Opening a written file with header in a fresh reader with error handling on: it fails exactly when
the header is a single empty name and errors are not ignored; reported are, up to the limit, the
empty header as fatal error and a warning for each column whose non-empty name was used before, in column
order, and nothing else. With error handling off nothing is reported and opening succeeds. -/
theorem C57_header_errors (cfg : InferCfg) (hh : cfg.hasHeader = true) (hM : ReadSane cfg.marks) (sampleRows : Nat) (mode : ErrMode)
    (maxErrors : Nat) (hdr : WRow) (rows : List WRow) (hne : hdr.fields ≠ []) (hwf : ∀ f ∈ hdr.fields, f.WF cfg.marks) (hr : rows ≠ [])
    (names : List (List UInt8)) (hnames : names = hdr.fields.map (·.columnName)) :
    let r := openData cfg sampleRows (ReaderState.new mode maxErrors) (renderFile cfg.marks (hdr :: rows))
    (r.1 = none ∨ r.1 = some .emptyHeader) ∧
    (r.1 = some .emptyHeader ↔ names = [[]] ∧ (mode = .failFast ∨ mode = .permissive)) ∧
    r.2.collector.errors = if mode = .disabled then [] else
      ((if names = [[]] then [emptyHeaderErr] else []) ++ (repeated names).map duplicateErr).take maxErrors := by
  intro r
  have hM10 : cfg.marks.eol = 10 := rfl
  have hfile : renderFile cfg.marks (hdr :: rows) = hdr.render cfg.marks ++ 10 :: renderFile cfg.marks rows := by
    rw [renderFile_cons _ _ _ hr, hM10]
  have hr' : r = openData cfg sampleRows (ReaderState.new mode maxErrors) (hdr.render cfg.marks ++ 10 :: renderFile cfg.marks rows) := by
    rw [← hfile]
  generalize renderFile cfg.marks rows = tail at hr'
  have hend := findRowEnd_row cfg.cpu cfg.marks hM hdr hwf tail
  have htake : (hdr.render cfg.marks ++ 10 :: tail).take ((hdr.render cfg.marks).length + 1) = hdr.render cfg.marks ++ 10 :: [] := by
    rw [List.take_append, List.take_of_length_le (by omega)]
    congr 1
    rw [show (hdr.render cfg.marks).length + 1 - (hdr.render cfg.marks).length = 1 by omega]
    rfl
  have hp : parseHeader cfg.sep cfg.quote ((hdr.render cfg.marks ++ 10 :: tail).take ((hdr.render cfg.marks).length + 1)) = names := by
    rw [htake, hnames]; exact C15_parse_header cfg.marks hM hdr hne hwf []
  have hnn : names ≠ [] := by rw [hnames]; simpa using hne
  have hlen : ¬ (hdr.render cfg.marks ++ 10 :: tail).length = 0 := by simp
  have hend' : findRowEnd cfg.cpu cfg.quote (hdr.render cfg.marks ++ 10 :: tail) 0 = (hdr.render cfg.marks).length + 1 := hend
  -- result in terms of the header check
  have hres : r.1 = (if (checkHeader (Collector.new mode maxErrors) names).1 = true then some .emptyHeader else none) ∧
      r.2.collector = (checkHeader (Collector.new mode maxErrors) names).2 := by
    rw [hr']
    unfold openData
    simp only [hlen, if_false, hh, if_true, hend', hp, ReaderState.new]
    split <;> exact ⟨rfl, rfl⟩
  have hdup : ∀ c, dupLoop [] 0 c names = ((repeated names).map duplicateErr).foldl Collector.addError c := by
    intro c
    rw [dupLoop_eq names names [] 0 c rfl (by simp)]
    unfold repeated
    rw [Nat.sub_zero, ← List.range_eq_range', List.map_map]
    rfl
  have hrep : repeated [([] : Bytes)] = [] := by decide
  rw [hres.1, hres.2]
  unfold checkHeader
  by_cases hd : mode = .disabled
  · subst hd
    simp [Collector.new]
  · have hd' : ¬ (Collector.new mode maxErrors).mode = .disabled := hd
    rw [if_neg hd', if_neg hd]
    dsimp only
    by_cases hbad : names = [[]]
    · subst hbad
      simp only [or_true, if_true, true_and, hrep, List.map_nil, List.append_nil]
      have herr : ((Collector.new mode maxErrors).addError emptyHeaderErr).errors = [emptyHeaderErr].take maxErrors := by
        have := addErrors_take [emptyHeaderErr] (Collector.new mode maxErrors) (by simp [Collector.new])
        simpa [Collector.new] using this
      have hstop : ((Collector.new mode maxErrors).addError emptyHeaderErr).shouldStop = true ↔ mode = .failFast ∨ mode = .permissive := by
        have hm : ((Collector.new mode maxErrors).addError emptyHeaderErr).mode = mode := by
          unfold Collector.addError Collector.new; dsimp only; split <;> split <;> rfl
        have hf : ((Collector.new mode maxErrors).addError emptyHeaderErr).hasFatal = true := by
          unfold Collector.addError Collector.new emptyHeaderErr; dsimp only
          rw [if_pos rfl]; split <;> rfl
        unfold Collector.shouldStop
        rw [hm, hf]
        cases mode <;> simp_all
      by_cases hs : ((Collector.new mode maxErrors).addError emptyHeaderErr).shouldStop = true
      · rw [if_pos hs]
        simp [herr, hstop.1 hs]
      · rw [if_neg hs]
        have hnot : ¬ (mode = .failFast ∨ mode = .permissive) := fun h => hs (hstop.2 h)
        simp only [hdup, hrep, List.map_nil, List.foldl_nil, herr]
        simp [hnot]
    · simp only [hnn, hbad, or_self, if_false, false_and, hdup, List.nil_append]
      refine ⟨by simp, by simp, ?_⟩
      have := addErrors_take ((repeated names).map duplicateErr) (Collector.new mode maxErrors) (by simp [Collector.new])
      simpa [Collector.new] using this

/-- **C59** Opening a written file without header in a fresh reader: there are as many columns as the first row
has fields, they are named V1, V2, …, and the data starts at the beginning of the file. -/
theorem C59_open_no_header (cfg : InferCfg) (hh : cfg.hasHeader = false) (hM : ReadSane cfg.marks) (sampleRows : Nat) (mode : ErrMode)
    (maxErrors : Nat) (first : WRow) (rows : List WRow) (hne : first.fields ≠ []) (hwf : ∀ f ∈ first.fields, f.WF cfg.marks)
    (hr : rows ≠ []) (file : List UInt8) (hfile : file = renderFile cfg.marks (first :: rows)) :
    ∃ st, openData cfg sampleRows (ReaderState.new mode maxErrors) file = (none, st) ∧ st.data = file ∧ st.dataStart = 0 ∧
      st.schema.map (·.name) = (List.range first.fields.length).map (fun i => ("V" ++ toString (i + 1)).toUTF8.toList) ∧
      (∀ c ∈ st.schema, c.nullable = true) ∧
      st.schema.map (·.type) = openInfer cfg file first.fields.length sampleRows ∧ st.collector.errors = [] := by
  have hM10 : cfg.marks.eol = 10 := rfl
  rw [renderFile_cons _ _ _ hr, hM10] at hfile
  have hend : findRowEnd cfg.cpu cfg.quote file 0 = (first.render cfg.marks).length + 1 := by
    rw [hfile]; exact findRowEnd_row cfg.cpu cfg.marks hM first hwf _
  have htake : file.take ((first.render cfg.marks).length + 1) = joinFields cfg.sep (first.fields.map (·.render cfg.quote)) ++
      ((if first.crlf then [13] else []) ++ [10]) := by
    rw [hfile, List.take_append, List.take_of_length_le (by omega),
      show (first.render cfg.marks).length + 1 - (first.render cfg.marks).length = 1 by omega]
    unfold WRow.render
    rw [List.append_assoc]
    rfl
  have hcount : countCols cfg.sep cfg.quote false 1 (file.take ((first.render cfg.marks).length + 1)) = first.fields.length := by
    rw [htake]
    have h0 := countCols_row cfg.marks hM first.fields hne hwf ((if first.crlf then [13] else []) ++ [10]) (by
      intro c hc
      simp only [List.mem_append, List.mem_singleton] at hc
      rcases hc with h | h
      · right
        split at h <;> simpa using h
      · exact .inl h) 1
    have h1 : cfg.marks.sep = cfg.sep := rfl
    have h2 : cfg.marks.quote = cfg.quote := rfl
    rw [h1, h2] at h0
    omega
  have hlen : file.length ≠ 0 := by rw [hfile]; simp
  unfold openData
  simp only [hlen, if_false, hh, hend, hcount, ReaderState.new, Bool.false_eq_true, List.nil_append]
  refine ⟨_, rfl, rfl, rfl, ?_, ?_, ?_, rfl⟩
  · simp only [(assignTypes_names _ _).1, List.map_map]
    rfl
  · apply assignTypes_nullable
    intro c hc
    obtain ⟨a, -, rfl⟩ := List.mem_map.1 hc
    rfl
  · rw [assignTypes_types _ _ (inferFromSample_length _ _ _ _)]
    unfold openInfer
    simp only [hh, if_false, Bool.false_eq_true, List.length_map, List.length_range, List.drop_zero]

/-! ### Concrete cases and findings -/

/-- A configuration: comma, double quote, header. -/
def openCfg : InferCfg :=
  { cpu := cpu32, sep := 44, quote := 34, hasHeader := true, nullValues := [], trueValues := [], falseValues := [], isFloat := fun _ => false }

theorem openCfg_sane : ReadSane openCfg.marks :=
  ⟨⟨by decide, by decide, by decide, by decide⟩, by decide, by decide, by decide⟩

/-- Non-vacuity of C15, C57, C58: the header row `a,"a",,"x,""y"` and one more row. -/
def demoHeader : WRow := { fields := [.plain [32, 97], .quoted [97], .plain [], .quoted [120, 44, 34, 10, 121]], crlf := true }

example : demoHeader.fields ≠ [] ∧ (∀ f ∈ demoHeader.fields, f.WF openCfg.marks) ∧
    demoHeader.fields.map (·.columnName) = [[97], [97], [], [120, 44, 34, 10, 121]] ∧ repeated [[97], [97], [], [120, 44, 34, 10, 121]] = [2] ∧
    (openData openCfg 10 (ReaderState.new .permissive 5) (renderFile openCfg.marks [demoHeader, { fields := [.plain [49]] }])).1 = none := by
  refine ⟨by decide, ?_, by decide, by decide, by decide +kernel⟩
  intro f hf
  simp only [demoHeader, List.mem_cons, List.not_mem_nil, or_false] at hf
  rcases hf with rfl | rfl | rfl | rfl <;> simp [WField.WF, InferCfg.marks, openCfg]

/-- **C58 refuted** for a reader that was used before: opening `b` / `2` after `a` / `1` gives the two columns
`a`, `b`, so that the second file's only column is read under the name `a`. -/
theorem C58_reopen_refuted :
    let r1 := openData openCfg 10 (ReaderState.new .disabled 5) [97, 10, 49, 10]
    let r2 := openData openCfg 10 r1.2 [98, 10, 50, 10]
    r1.1 = none ∧ r1.2.schema.map (·.name) = [[97]] ∧ r2.1 = none ∧ r2.2.schema.map (·.name) = [[97], [98]] ∧
      readSerial cfg0 2 (r2.2.data.drop r2.2.dataStart) = some { chunks := [[[.text [50]], [.null]]], totalRows := 1, rowCount := 1 } := by
  decide +kernel

/-- **C58 finding** A blank line before the header: the file then has one column with the empty name, and every
row is cut to its first field. -/
theorem C58_leading_blank_line :
    let r := openData openCfg 10 (ReaderState.new .disabled 5) [10, 97, 44, 98, 10, 49, 44, 50, 10]
    r.1 = none ∧ r.2.schema.map (·.name) = [[]] ∧
      readSerial cfg0 1 (r.2.data.drop r.2.dataStart) = some { chunks := [[[.text [97], .text [49]]]], totalRows := 2, rowCount := 2 } := by
  decide +kernel

/-- **C57 finding** Rows are never checked: with error handling at its strictest, a file with a row that is too
long, one that is too short and an unclosed quote at the end (`a,b` / `1,2,3` / `4` / `"x`) is opened and
read without any error (reading adds no errors, csv_reader.cpp:513-828). -/
theorem C57_malformed_rows_unreported :
    let r := openData openCfg 10 (ReaderState.new .failFast 5) [97, 44, 98, 10, 49, 44, 50, 44, 51, 10, 52, 10, 34, 120]
    r.1 = none ∧ r.2.collector.errors = [] ∧ r.2.collector.shouldStop = false ∧
      (readSerial cfg0 2 (r.2.data.drop r.2.dataStart)).map (·.totalRows) = some 3 := by
  decide +kernel

end Vroom
