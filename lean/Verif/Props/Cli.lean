import Verif.Spec.Cli
import Verif.Props.ConvertFile
/-
C64–C66: what the command line tool prints.
-/
namespace Vroom
open Parquet Spec

/-! ### One row -/

theorem flatMap_escape (q : UInt8) (s : List UInt8) : s.flatMap (fun c => if c = q then [q, c] else [c]) = escape q s := by
  induction s with
  | nil => rfl
  | cons c r ih =>
    rw [List.flatMap_cons, ih]
    simp only [escape]
    by_cases h : c = q
    · rw [if_pos h, if_pos h, h]; rfl
    · rw [if_neg h, if_neg h]; rfl

theorem outputField_eq (M : Marks) (hM : M.eol = 10) (s : List UInt8) : outputField M.sep M.quote s = (csvField M s).render M.quote := by
  unfold outputField csvField
  rw [hM]
  by_cases h : M.sep ∈ s ∨ M.quote ∈ s ∨ (10 : UInt8) ∈ s ∨ (13 : UInt8) ∈ s
  · rw [if_pos (show M.sep ∈ s ∨ M.quote ∈ s ∨ LF ∈ s ∨ CR ∈ s from h), if_pos h, flatMap_escape]; rfl
  · rw [if_neg (show ¬ (M.sep ∈ s ∨ M.quote ∈ s ∨ LF ∈ s ∨ CR ∈ s) from h), if_neg h]; rfl

theorem outputFields_eq (M : Marks) (hM : M.eol = 10) (row : List (List UInt8)) : ∀ i,
    outputFields M.sep M.quote i row = (if i > 0 ∧ row ≠ [] then [M.sep] else []) ++ joinFields M.sep (row.map (fun s => (csvField M s).render M.quote)) := by
  induction row with
  | nil => intro i; simp [outputFields, joinFields]
  | cons s rest ih =>
    intro i
    simp only [outputFields, outputField_eq M hM]
    rw [ih (i + 1)]
    cases rest with
    | nil => simp [joinFields]
    | cons t ts => simp [joinFields]

/-- `outputRow` writes the row as CSV. -/
theorem outputRow_eq (M : Marks) (hM : M.eol = 10) (row : List (List UInt8)) : outputRow M.sep M.quote row = csvLine M row := by
  unfold outputRow csvLine csvRow WRow.render
  rw [outputFields_eq M hM, hM]
  simp [LF]
  rfl

/-! ### One cell -/

theorem toInt32_twos (v : UInt32) : v.toInt32.toInt = twos 32 v.toNat := by
  unfold twos
  have h := v.toNat_lt
  have : v.toInt32.toInt = (v.toBitVec).toInt := rfl
  rw [this, BitVec.toInt_eq_toNat_cond]
  have e : v.toBitVec.toNat = v.toNat := rfl
  rw [e]
  split <;> split <;> omega

theorem toInt64_twos (v : UInt64) : v.toInt64.toInt = twos 64 v.toNat := by
  unfold twos
  have h := v.toNat_lt
  have : v.toInt64.toInt = (v.toBitVec).toInt := rfl
  rw [this, BitVec.toInt_eq_toNat_cond]
  have e : v.toBitVec.toNat = v.toNat := rfl
  rw [e]
  split <;> split <;> omega

theorem colHist_size {col : ArrowColumn} {xs : List (Option Val)} (h : ColHist col xs) : col.size = xs.length := by
  cases h with
  | int32 h | int64 h | float64 h | date h | timestamp h | bool h => simpa [ArrowColumn.size] using (C24_numeric h).1
  | string h hb => simpa [ArrowColumn.size] using (C24_string h hb).1

/-- What a reader of a fixed-width column finds at row `i`, in terms of the code's own test. -/
theorem num_cell {T : Type} {d : T} {c : NumColumn T} {xs : List (Option T)} (h : NumHist T d c xs) (i : Nat) (hi : i < xs.length) :
    (xs.getD i none = none ∧ c.nulls.hasNulls = true ∧ c.nulls.isValid i = false) ∨
    (∃ v, xs.getD i none = some v ∧ c.nulls.isValid i = true ∧ c.values[i]? = some v) := by
  have h4 := (C24_numeric h).2.2.2 i hi
  unfold NumColumn.read at h4
  rw [List.getD_eq_getElem?_getD, List.getElem?_eq_getElem hi] at *
  rw [Option.join_some] at h4
  rw [Option.getD_some]
  cases hv : c.nulls.isValid i with
  | false =>
    rw [hv] at h4
    left
    refine ⟨h4.symm.trans (by simp), ?_, rfl⟩
    by_contra hn
    rw [Bool.not_eq_true] at hn
    unfold NullBitmap.isValid at hv
    rw [if_pos hn] at hv
    cases hv
  | true =>
    rw [hv, if_pos rfl] at h4
    have hs := (C24_numeric h).1
    unfold NumColumn.size at hs
    right
    cases hx : c.values[i]? with
    | none => rw [List.getElem?_eq_none_iff] at hx; omega
    | some v => exact ⟨v, by rw [← h4, hx], rfl, rfl⟩

theorem str_cell {c : StrColumn} {xs : List (Option (List UInt8))} (h : StrHist c xs) (hb : strBytes xs < 2 ^ 32) (i : Nat) (hi : i < xs.length) :
    (xs.getD i none = none ∧ c.nulls.hasNulls = true ∧ c.nulls.isValid i = false) ∨
    (xs.getD i none = some (c.values.get i) ∧ c.nulls.isValid i = true) := by
  have h4 := (C24_string h hb).2.2.2 i hi
  unfold StrColumn.read at h4
  rw [List.getD_eq_getElem?_getD, List.getElem?_eq_getElem hi] at *
  rw [Option.join_some] at h4
  rw [Option.getD_some]
  cases hv : c.nulls.isValid i with
  | false =>
    rw [hv] at h4
    left
    refine ⟨h4.symm.trans (by simp), ?_, rfl⟩
    by_contra hn
    rw [Bool.not_eq_true] at hn
    unfold NullBitmap.isValid at hv
    rw [if_pos hn] at hv
    cases hv
  | true =>
    rw [hv, if_pos rfl] at h4
    exact .inr ⟨h4.symm, rfl⟩

theorem getD_map_none {α β : Type} (f : α → β) (xs : List (Option α)) (i : Nat) :
    (xs.map (·.map f)).getD i none = (xs.getD i none).map f := by
  rw [List.getD_eq_getElem?_getD, List.getD_eq_getElem?_getD, List.getElem?_map]
  cases xs[i]? with
  | none => rfl
  | some x => rfl

theorem showCell_eq (L : Libc) {col : ArrowColumn} {xs : List (Option Val)} (h : ColHist col xs) (i : Nat) :
    showCell L col i = showVal L col.type (xs.getD i none) := by
  have hs := colHist_size h
  unfold showCell
  by_cases hi : i ≥ col.size
  · rw [if_pos hi, List.getD_eq_getElem?_getD, List.getElem?_eq_none (by omega)]; rfl
  · rw [if_neg hi]
    cases h with
    | int32 h =>
      rename_i c xs
      rcases num_cell h i (by rw [List.length_map] at hs; omega) with ⟨h1, h2, h3⟩ | ⟨v, h1, h2, h3⟩
      · rw [if_pos ⟨h2, h3⟩, getD_map_none, h1]; rfl
      · rw [if_neg (by simp [ArrowColumn.nulls, h2]), getD_map_none, h1]
        simp only [Option.map_some, showVal, ArrowColumn.type, List.getD_eq_getElem?_getD, h3, Option.getD_some, toInt32_twos]
    | int64 h =>
      rename_i c xs
      rcases num_cell h i (by rw [List.length_map] at hs; omega) with ⟨h1, h2, h3⟩ | ⟨v, h1, h2, h3⟩
      · rw [if_pos ⟨h2, h3⟩, getD_map_none, h1]; rfl
      · rw [if_neg (by simp [ArrowColumn.nulls, h2]), getD_map_none, h1]
        simp only [Option.map_some, showVal, ArrowColumn.type, List.getD_eq_getElem?_getD, h3, Option.getD_some, toInt64_twos]
    | float64 h =>
      rename_i c xs
      rcases num_cell h i (by rw [List.length_map] at hs; omega) with ⟨h1, h2, h3⟩ | ⟨v, h1, h2, h3⟩
      · rw [if_pos ⟨h2, h3⟩, getD_map_none, h1]; rfl
      · rw [if_neg (by simp [ArrowColumn.nulls, h2]), getD_map_none, h1]
        simp only [Option.map_some, showVal, ArrowColumn.type, List.getD_eq_getElem?_getD, h3, Option.getD_some, UInt64.ofNat_toNat]
    | date h =>
      rename_i c xs
      rcases num_cell h i (by rw [List.length_map] at hs; omega) with ⟨h1, h2, h3⟩ | ⟨v, h1, h2, h3⟩
      · rw [if_pos ⟨h2, h3⟩, getD_map_none, h1]; rfl
      · rw [if_neg (by simp [ArrowColumn.nulls, h2]), getD_map_none, h1]
        simp only [Option.map_some, showVal, ArrowColumn.type, List.getD_eq_getElem?_getD, h3, Option.getD_some, toInt32_twos]
    | timestamp h =>
      rename_i c xs
      rcases num_cell h i (by rw [List.length_map] at hs; omega) with ⟨h1, h2, h3⟩ | ⟨v, h1, h2, h3⟩
      · rw [if_pos ⟨h2, h3⟩, getD_map_none, h1]; rfl
      · rw [if_neg (by simp [ArrowColumn.nulls, h2]), getD_map_none, h1]
        simp only [Option.map_some, showVal, ArrowColumn.type, List.getD_eq_getElem?_getD, h3, Option.getD_some, toInt64_twos]
    | bool h =>
      rename_i c xs
      rcases num_cell h i (by rw [List.length_map] at hs; omega) with ⟨h1, h2, h3⟩ | ⟨v, h1, h2, h3⟩
      · rw [if_pos ⟨h2, h3⟩, getD_map_none, h1]; rfl
      · rw [if_neg (by simp [ArrowColumn.nulls, h2]), getD_map_none, h1]
        simp only [Option.map_some, showVal, List.getD_eq_getElem?_getD, h3, Option.getD_some]
    | string h hb =>
      rename_i c xs
      rcases str_cell h hb i (by rw [List.length_map] at hs; omega) with ⟨h1, h2, h3⟩ | ⟨h1, h2⟩
      · rw [if_pos ⟨h2, h3⟩, getD_map_none, h1]; rfl
      · rw [if_neg (by simp [ArrowColumn.nulls, h2]), getD_map_none, h1]
        simp only [Option.map_some, showVal]

/-! ### Rows and chunks -/

theorem emitRows_eq (f : Nat → List (List UInt8)) (rows limit : Nat) : ∀ k row out, k = rows - row →
    emitRows f rows limit row out = ((List.range' row (rows - row)).take (limit - out)).map f := by
  intro k
  induction k with
  | zero =>
    intro row out hk
    rw [emitRows, if_neg (by omega), show rows - row = 0 by omega]; simp
  | succ k ih =>
    intro row out hk
    rw [emitRows]
    by_cases h : out < limit
    · rw [if_pos ⟨by omega, h⟩, ih (row + 1) (out + 1) (by omega), show rows - row = (rows - (row + 1)) + 1 by omega,
        List.range'_succ, show limit - out = (limit - (out + 1)) + 1 by omega, List.take_succ_cons, List.map_cons]
    · rw [if_neg (by omega), show limit - out = 0 by omega]; simp

/-- All rows of the chunks as texts. -/
def chunkTexts (L : Libc) (chunk : List ArrowColumn) : List (List (List UInt8)) :=
  match chunk with
  | [] => []
  | c0 :: _ => (List.range c0.size).map (fun r => chunk.map (fun c => showCell L c r))

theorem emitChunks_eq (L : Libc) (limit : Nat) (chunks : List (List ArrowColumn)) : ∀ out,
    emitChunks L limit out chunks = (chunks.flatMap (chunkTexts L)).take (limit - out) := by
  induction chunks with
  | nil => intro out; simp [emitChunks]
  | cons chunk rest ih =>
    intro out
    cases chunk with
    | nil => simp only [emitChunks, List.flatMap_cons, chunkTexts, List.nil_append]; exact ih out
    | cons c0 cols =>
      simp only [emitChunks]
      rw [emitRows_eq _ _ _ _ 0 out rfl, Nat.sub_zero, ← List.range_eq_range', List.flatMap_cons]
      have e : chunkTexts L (c0 :: cols) = (List.range c0.size).map (fun r => (c0 :: cols).map (fun c => showCell L c r)) := rfl
      rw [e, List.length_map, List.length_take, List.length_range, List.take_append, List.length_map, List.length_range]
      by_cases h : out + min (limit - out) c0.size ≥ limit
      · rw [if_pos h, show limit - out - c0.size = 0 by omega]
        rw [List.take_zero, List.append_nil, List.map_take]
      · rw [if_neg h, ih]
        rw [show min (limit - out) c0.size = c0.size by omega, show limit - (out + c0.size) = limit - out - c0.size by omega, List.map_take]

/-- The rows of one chunk. -/
theorem colsAre_row (L : Libc) {n : Nat} {schema : List ColSchema} {cols cells} (h : ColsAre n schema cols cells) (i : Nat) :
    cols.map (fun c => showCell L c i) =
      (List.range schema.length).map (fun j => match schema[j]? with
        | some cs => showVal L (stored cs.type) ((cells.getD j []).getD i none)
        | none => []) := by
  induction h with
  | nil => rfl
  | @cons cs col rows css cols rowss h1 h2 h3 _ ih =>
    rw [List.map_cons, ih, List.length_cons, List.range_succ_eq_map, List.map_cons, List.map_map, showCell_eq L h1, h2]
    rfl

theorem colsAre_size {n : Nat} {schema : List ColSchema} {cols cells} (h : ColsAre n schema cols cells) (hne : schema ≠ []) :
    ∃ c0 rest, cols = c0 :: rest ∧ c0.size = n := by
  cases h with
  | nil => exact absurd rfl hne
  | @cons cs col rows css cols rowss h1 h2 h3 _ => exact ⟨_, _, rfl, by rw [colHist_size h1, h3]⟩

theorem colsAre_len {n : Nat} {schema : List ColSchema} {cols cells} (h : ColsAre n schema cols cells) :
    cols.length = schema.length ∧ cells.length = schema.length ∧ ∀ j, j < schema.length → (cells.getD j []).length = n := by
  induction h with
  | nil => exact ⟨rfl, rfl, by simp⟩
  | @cons cs col rows css cols rowss h1 h2 h3 _ ih =>
    refine ⟨by simp [ih.1], by simp [ih.2.1], ?_⟩
    intro j hj
    cases j with
    | zero => simpa using h3
    | succ j => simpa using ih.2.2 j (by simpa using hj)

theorem rows_append {β : Type} (n m : Nat) (f : Nat → β) : (List.range (n + m)).map f = (List.range n).map f ++ (List.range m).map (fun i => f (n + i)) := by
  rw [List.range_add, List.map_append, List.map_map]; rfl

/-- Any selection of columns: the rows of all chunks, one after the other. -/
theorem chunks_rows (L : Libc) {schema : List ColSchema} (hne : schema ≠ []) {chunks cells} (h : ChunksAre schema chunks cells)
    (cols : List Nat) (hcols : ∀ j ∈ cols, j < schema.length) :
    chunks.flatMap (selectChunk L cols) = (List.range (rowTotal cells)).map (fun i => cols.map (shown L schema cells i)) := by
  induction h with
  | nil => rfl
  | @cons c cells cs cellss n h1 h2 ih =>
    obtain ⟨c0, rest, hc, hsz⟩ := colsAre_size h1 hne
    obtain ⟨l1, l2, l3⟩ := colsAre_len h1
    have hpos : 0 < schema.length := List.length_pos_iff.2 hne
    have hcol : ∀ j, tableColumn (cells :: cellss) j = cells.getD j [] ++ tableColumn cellss j := fun j => rfl
    have htot : rowTotal (cells :: cellss) = n + rowTotal cellss := by
      unfold rowTotal
      rw [hcol, List.length_append, l3 0 hpos]
    rw [List.flatMap_cons, ih, htot, rows_append]
    congr 1
    · have e : selectChunk L cols c = (List.range n).map (fun r => cols.map (fun j => match c[j]? with | some c => showCell L c r | none => [])) := by
        rw [hc]
        show (List.range c0.size).map _ = _
        rw [hsz]
        rfl
      rw [e]
      apply List.map_congr_left
      intro i hi
      have hi' := List.mem_range.1 hi
      apply List.map_congr_left
      intro j hj
      have hj' := hcols j hj
      have hrow := congrArg (fun l => l[j]?) (colsAre_row L h1 i)
      simp only [List.getElem?_map, List.getElem?_range hj', Option.map_some] at hrow
      have hcj : c[j]? = some (c[j]'(by omega)) := List.getElem?_eq_getElem _
      rw [hcj, Option.map_some, Option.some.injEq] at hrow
      rw [hcj]
      dsimp only
      rw [hrow]
      unfold shown
      have hsj : schema[j]? = some (schema[j]'hj') := List.getElem?_eq_getElem _
      rw [hsj, hcol]
      dsimp only
      congr 1
      have := l3 j hj'
      generalize cells.getD j [] = col at *
      rw [List.getD_eq_getElem?_getD, List.getD_eq_getElem?_getD, List.getElem?_append_left (by omega)]
    · apply List.map_congr_left
      intro i _
      apply List.map_congr_left
      intro j hj
      have hj' := hcols j hj
      unfold shown
      have hsj : schema[j]? = some (schema[j]'hj') := List.getElem?_eq_getElem _
      rw [hsj, hcol]
      dsimp only
      congr 1
      have := l3 j hj'
      generalize cells.getD j [] = col at *
      rw [List.getD_eq_getElem?_getD, List.getD_eq_getElem?_getD, List.getElem?_append_right (by omega),
        show n + i - col.length = i by omega]

/-- Whole rows. -/
theorem chunks_all (L : Libc) {schema : List ColSchema} (hne : schema ≠ []) {chunks cells} (h : ChunksAre schema chunks cells) :
    chunks.flatMap (chunkTexts L) = (List.range (rowTotal cells)).map (fun i => (List.range schema.length).map (shown L schema cells i)) := by
  rw [← chunks_rows L hne h (List.range schema.length) (by simp)]
  have hl : ∀ c ∈ chunks, c.length = schema.length := by
    clear hne
    induction h with
    | nil => simp
    | @cons c cells cs cellss n h1 h2 ih =>
      intro x hx
      rcases List.mem_cons.1 hx with rfl | hx
      · exact (colsAre_len h1).1
      · exact ih x hx
  clear h
  induction chunks with
  | nil => rfl
  | cons c cs ih =>
    rw [List.flatMap_cons, List.flatMap_cons, ih (fun x hx => hl x (List.mem_cons_of_mem _ hx))]
    congr 1
    have hlc := hl c (by simp)
    unfold chunkTexts selectChunk
    cases c with
    | nil => rfl
    | cons c0 rest =>
      dsimp only
      apply List.map_congr_left
      intro r _
      rw [← hlc]
      apply List.ext_getElem?
      intro j
      rw [List.getElem?_map, List.getElem?_map]
      by_cases hj : j < (c0 :: rest).length
      · rw [List.getElem?_range hj, List.getElem?_eq_getElem hj]
        simp only [Option.map_some, List.getElem?_eq_getElem hj]
      · rw [List.getElem?_eq_none (by omega), List.getElem?_eq_none (by simpa using hj)]; rfl

/-! ### The commands -/

/-- **C64** `head` prints the header (if the file has one) and the first `limit` rows of the table, each as one CSV row, whatever
the chunks the table was read in. -/
theorem C64_head (L : Libc) (M : Marks) (hM : M.eol = 10) (hasHeader : Bool) (limit : Nat) {schema : List ColSchema} (hne : schema ≠ [])
    {chunks cells} (h : ChunksAre schema chunks cells) (hc : chunks ≠ []) (names : List (List UInt8)) :
    headOut L M.sep M.quote hasHeader limit names chunks =
      (if hasHeader then csvLine M names else []) ++
        (List.range (min limit (rowTotal cells))).flatMap (fun i => csvLine M ((List.range schema.length).map (shown L schema cells i))) := by
  unfold headOut
  rw [if_neg hc, emitChunks_eq, Nat.sub_zero, chunks_all L hne h, outputRow_eq M hM, ← List.map_take, List.take_range, List.flatMap_map]
  congr 1
  apply List.flatMap_congr
  intro i _
  exact outputRow_eq M hM _

/-- **C67** `select` prints the header of the chosen columns (if the file has one) and, for every row of the table, the chosen
cells in the chosen order. -/
theorem C67_select (L : Libc) (M : Marks) (hM : M.eol = 10) (hasHeader : Bool) {schema : List ColSchema} (hne : schema ≠ [])
    {chunks cells} (h : ChunksAre schema chunks cells) (names : List (List UInt8)) (cols : List Nat) (hcols : ∀ j ∈ cols, j < schema.length) :
    selectOut L M.sep M.quote hasHeader names cols chunks =
      (if hasHeader then csvLine M (cols.map (fun j => names.getD j [])) else []) ++
        (List.range (rowTotal cells)).flatMap (fun i => csvLine M (cols.map (shown L schema cells i))) := by
  unfold selectOut
  rw [chunks_rows L hne h cols hcols, outputRow_eq M hM, List.flatMap_map]
  congr 1
  apply List.flatMap_congr
  intro i _
  exact outputRow_eq M hM _

/-! ### Reading back what was printed -/

theorem csvField_wf (M : Marks) (s : List UInt8) : (csvField M s).WF M := by
  unfold csvField
  split
  · trivial
  · next h => simp only [not_or] at h; exact h

theorem csvLines_file (M : Marks) (rows : List (List (List UInt8))) :
    rows.flatMap (csvLine M) = renderFile M (rows.map (csvRow M) ++ [emptyRow]) := by
  induction rows with
  | nil => rfl
  | cons r rest ih =>
    rw [List.flatMap_cons, ih, List.map_cons, List.cons_append, renderFile_cons _ _ _ (by simp)]
    unfold csvLine
    simp

/-- **C65** The lines `head` and `select` print are read back as the same texts, with a null for an empty text: for every delimiter and
quote character, any bytes in the texts, chunk size and threshold.  Missing: rows that consist of one empty text, rows
with an unquoted cell before one that holds a delimiter or line end (both false, `C65_lone_empty_refuted`,
`C65_own_output_refuted`), texts that spell a null, cuts inside quotes (C07). -/
theorem C65_reads_back_partial (cfg : ReadCfg) (hM : ReadSane cfg.dial) (n threshold chunkSize : Nat) (hn : n ≠ 0) (hc : 0 < chunkSize)
    (rows : List (List (List UInt8))) (hlen : ∀ r ∈ rows, r.length = n) (hlone : ∀ r ∈ rows, r ≠ [[]])
    (htame : ∀ r ∈ rows, TameAfterPlain cfg.dial (csvRow cfg.dial r).fields)
    (hnull : ∀ r ∈ rows, ∀ s ∈ r, s ∉ commaPieces cfg.nullValues)
    (hnq : ∀ v ∈ commaPieces cfg.nullValues, v.head? ≠ some cfg.quote)
    (file : List UInt8) (hfile : file = rows.flatMap (csvLine cfg.dial))
    (hcut : threshold ≤ file.length → CutsOutside cfg file 0 chunkSize) :
    ∃ res, readAll cfg n threshold chunkSize file 0 = some res ∧
      (wholeCols n res).map (fun col => col.map Cell.toOption) =
        (List.range n).map (fun j => rows.map (fun r => if r.getD j [] = [] then none else some (r.getD j []))) := by
  have hwf : ∀ r ∈ rows.map (csvRow cfg.dial) ++ [emptyRow], r.WF cfg.dial := by
    intro r hr
    rcases List.mem_append.1 hr with h | h
    · obtain ⟨row, hrow, rfl⟩ := List.mem_map.1 h
      refine ⟨?_, ?_, htame row hrow⟩
      · intro hz
        have h1 := hlen row hrow
        have h2 : row.length = 0 := by simpa [csvRow] using congrArg List.length hz
        omega
      · intro f hf
        obtain ⟨s, _, rfl⟩ := List.mem_map.1 hf
        exact csvField_wf _ s
    · rw [List.mem_singleton] at h
      subst h
      exact emptyRow_wf cfg.dial
  obtain ⟨ser, par, -, h2, -, -, h5⟩ := C07_parallel_eq_serial_partial cfg hM n threshold chunkSize hc file 0 (Nat.zero_le _) _ hwf
    (by rw [hfile, List.drop_zero, csvLines_file]) hn (by simpa using hcut)
  refine ⟨par, h2, ?_⟩
  rw [h5]
  unfold tableOf
  apply List.map_congr_left
  intro j hj
  have hj' := List.mem_range.1 hj
  have hfilter : (rows.map (csvRow cfg.dial) ++ [emptyRow]).filter (fun r => !r.blank) = rows.map (csvRow cfg.dial) := by
    rw [List.filter_append, List.filter_eq_self.2, List.filter_eq_nil_iff.2]
    · simp
    · intro r hr; rw [List.mem_singleton] at hr; subst hr; decide
    · intro r hr
      obtain ⟨row, hrow, rfl⟩ := List.mem_map.1 hr
      have h1 := hlone row hrow
      simp only [WRow.blank, csvRow, Bool.not_eq_true', beq_eq_false_iff_ne, ne_eq]
      intro hz
      match row, h1, hz with
      | [], _, hz => simp at hz
      | [s], h1, hz =>
        simp only [List.map_cons, List.map_nil, List.cons.injEq, and_true] at hz
        unfold csvField at hz
        split at hz
        · cases hz
        · rw [WField.plain.injEq] at hz; rw [hz] at h1; exact h1 rfl
      | _ :: _ :: _, _, hz => simp at hz
  rw [hfilter, List.map_map]
  apply List.map_congr_left
  intro r hr
  have hrl := hlen r hr
  simp only [Function.comp_apply, WRow.valueAt, csvRow, List.getElem?_map, List.getElem?_eq_getElem (show j < r.length by omega), Option.map_some]
  rw [List.getD_eq_getElem?_getD, List.getElem?_eq_getElem (show j < r.length by omega), Option.getD_some]
  have hs := hnull r hr _ (List.getElem_mem (show j < r.length by omega))
  generalize r[j] = s at *
  unfold csvField
  by_cases hq : cfg.dial.sep ∈ s ∨ cfg.dial.quote ∈ s ∨ cfg.dial.eol ∈ s ∨ (13 : UInt8) ∈ s
  · rw [if_pos hq]
    have hne : s ≠ [] := by rintro rfl; simp at hq
    have hnn : (WField.quoted s).render cfg.quote ∉ commaPieces cfg.nullValues := by
      intro hm
      exact hnq _ hm rfl
    simp only [WField.value]
    rw [if_neg hnn, if_neg hne]
  · rw [if_neg hq]
    simp only [WField.value]
    by_cases hz : s = []
    · rw [if_pos (.inl hz), if_pos hz]
    · rw [if_neg (by simp [hz, hs]), if_neg hz]

/-- **C65 refuted** for a table of one column: an empty cell is printed as an empty line, and the row is gone when the
output is read. -/
theorem C65_lone_empty_refuted :
    (readSerial cfg0 1 ([[[120]], [[]], [[121]]].flatMap (outputRow 44 34))).map (fun r => (r.chunks, r.totalRows)) =
      some ([[[.text [120], .text [121]]]], 2) := by decide +kernel

/-- **C65 refuted** for its own output: the row `x` / `a,b` / 70 times `x` is printed as `x,"a,b",xx…` (correct CSV), and
reading that gives the cells `x`, `"a`, `b"` (the bug of C12). -/
theorem C65_own_output_refuted :
    (readSerial cfg0 3 (outputRow 44 34 [[120], [97, 44, 98], List.replicate 70 120])).map (fun r => r.chunks) =
      some [[[.text [120]], [.text [34, 97]], [.text [98, 34]]]] := by decide +kernel

/-! ### pretty -/

theorem clip_length (v : List UInt8) : (clip v).length = min v.length 40 := by
  unfold clip
  by_cases h : v.length ≤ 40
  · rw [if_pos h]; omega
  · rw [if_neg h, List.length_append, List.length_take]; simp; omega

theorem foldl_max_min {α : Type} (f : α → Nat) (l : List α) : ∀ a b, b = min a 40 →
    (l.map (fun x => min (f x) 40)).foldl max b = min ((l.map f).foldl max a) 40 := by
  induction l with
  | nil => intro a b h; simpa using h
  | cons x r ih =>
    intro a b h
    simp only [List.map_cons, List.foldl_cons]
    exact ih _ _ (by omega)

theorem colWidth_eq (rows : List (List Bytes)) (j : Nat) : colWidth rows j = width rows j := by
  unfold colWidth width
  have e : (fun r : List Bytes => (clip (r.getD j [])).length) = fun r => min (match r[j]? with | some s => s.length | none => 0) 40 := by
    funext r
    rw [clip_length, List.getD_eq_getElem?_getD]
    cases r[j]? <;> rfl
  rw [e]
  exact (foldl_max_min _ rows 0 0 (by omega)).symm

theorem le_foldl_max (l : List Nat) : ∀ a, a ≤ l.foldl max a ∧ ∀ x ∈ l, x ≤ l.foldl max a := by
  induction l with
  | nil => intro a; simp
  | cons y r ih =>
    intro a
    obtain ⟨h1, h2⟩ := ih (max a y)
    refine ⟨by simp only [List.foldl_cons]; omega, ?_⟩
    intro x hx
    simp only [List.foldl_cons]
    rcases List.mem_cons.1 hx with rfl | hx
    · omega
    · exact h2 x hx

theorem clip_le_width {rows : List (List Bytes)} {r : List Bytes} (h : r ∈ rows) (j : Nat) : (clip (r.getD j [])).length ≤ width rows j :=
  (le_foldl_max _ 0).2 _ (List.mem_map.2 ⟨r, h, rfl⟩)

theorem width_le (rows : List (List Bytes)) (j : Nat) : width rows j ≤ 40 := by
  rw [← colWidth_eq]; unfold colWidth; omega

theorem cutCell_eq {rows : List (List Bytes)} {r : List Bytes} (h : r ∈ rows) (j : Nat) :
    cutCell (width rows j) (r.getD j []) = clip (r.getD j []) := by
  have h1 := clip_le_width h j
  have h2 := width_le rows j
  rw [clip_length] at h1
  unfold cutCell clip
  generalize r.getD j [] = v at *
  by_cases hv : v.length ≤ 40
  · rw [if_neg (by omega), if_pos hv]
  · have : width rows j = 40 := by omega
    rw [this, if_pos (by omega), if_pos (by omega), if_neg hv]

theorem sepLine_eq (rows : List (List Bytes)) (n : Nat) :
    sepLine ((List.range n).map (colWidth rows)) = ruleLine n (width rows) ++ [LF] := by
  unfold sepLine ruleLine
  rw [List.flatMap_map]
  simp only [colWidth_eq]
  rfl

theorem prettyLine_eq {rows : List (List Bytes)} {r : List Bytes} (h : r ∈ rows) (n : Nat) :
    prettyLine ((List.range n).map (colWidth rows)) r = tableLine n (width rows) r ++ [LF] := by
  unfold prettyLine tableLine
  rw [List.cons_append, List.singleton_append, List.cons_append]
  congr 2
  rw [List.flatMap_def]
  congr 1
  apply List.ext_getElem?
  intro j
  rw [List.getElem?_mapIdx, List.getElem?_map, List.getElem?_map]
  by_cases hj : j < n
  · rw [List.getElem?_range hj]
    simp only [Option.map_some, colWidth_eq, cutCell_eq h]
    simp [boxed]
  · rw [List.getElem?_eq_none (by simpa using hj)]; rfl

/-- **C66** `pretty` draws the table: the lines of `tableLines`, each ended by a line feed. -/
theorem C66_pretty_drawn (hdr : Bool) (rows : List (List (List UInt8))) : prettyTable hdr rows = (tableLines hdr rows).flatMap (· ++ [10]) := by
  unfold prettyTable
  by_cases h : rows = []
  · rw [if_pos h, h]; rfl
  · rw [if_neg h]
    match rows, h with
    | r :: rest, _ =>
      generalize hrows : r :: rest = rows
      have hn : (rows.map List.length).foldl max 0 = tableCols rows := rfl
      dsimp only
      rw [hn, sepLine_eq]
      have hr : r ∈ rows := by rw [← hrows]; simp
      have hrest : ∀ x ∈ rest, x ∈ rows := by intro x hx; rw [← hrows]; simp [hx]
      have e : (rows.mapIdx (fun k row => prettyLine ((List.range (tableCols rows)).map (colWidth rows)) row ++
          (if hdr = true ∧ k = 0 then ruleLine (tableCols rows) (width rows) ++ [LF] else []))).flatten =
          tableLine (tableCols rows) (width rows) r ++ [LF] ++ (if hdr then ruleLine (tableCols rows) (width rows) ++ [LF] else []) ++
          rest.flatMap (fun x => tableLine (tableCols rows) (width rows) x ++ [LF]) := by
        conv => lhs; rw [show rows.mapIdx (fun k row => prettyLine ((List.range (tableCols rows)).map (colWidth rows)) row ++
          (if hdr = true ∧ k = 0 then ruleLine (tableCols rows) (width rows) ++ [LF] else [])) = (r :: rest).mapIdx (fun k row => prettyLine ((List.range (tableCols rows)).map (colWidth rows)) row ++
          (if hdr = true ∧ k = 0 then ruleLine (tableCols rows) (width rows) ++ [LF] else [])) by rw [hrows]]
        rw [List.mapIdx_cons, List.flatten_cons, prettyLine_eq hr]
        congr 1
        · simp
        · rw [List.flatMap_def]
          congr 1
          apply List.ext_getElem?
          intro k
          rw [List.getElem?_mapIdx, List.getElem?_map]
          cases hk : rest[k]? with
          | none => rfl
          | some x =>
            rw [Option.map_some, Option.map_some, prettyLine_eq (hrest x (List.mem_of_getElem? hk)), if_neg (by omega), List.append_nil]
      rw [e]
      have hl : tableLines hdr rows = [ruleLine (tableCols rows) (width rows), tableLine (tableCols rows) (width rows) r] ++
          (if hdr then [ruleLine (tableCols rows) (width rows)] else []) ++ rest.map (tableLine (tableCols rows) (width rows)) ++
          [ruleLine (tableCols rows) (width rows)] := by
        rw [← hrows]; rfl
      rw [hl]
      simp only [List.flatMap_append, List.flatMap_map, List.flatMap_cons, List.flatMap_nil, List.append_nil]
      cases hdr <;> simp [LF]

theorem flatMap_length_sum {α β : Type} (l : List α) (f : α → List β) : (l.flatMap f).length = (l.map (fun x => (f x).length)).sum := by
  rw [List.length_flatMap]

/-- **C66** All lines of the table have the same length, and a column is at most 40 bytes wide. -/
theorem C66_pretty_aligned (hdr : Bool) (rows : List (List (List UInt8))) :
    (∀ l ∈ tableLines hdr rows, l.length = 1 + ((List.range (tableCols rows)).map (fun j => width rows j + 3)).sum) ∧
    ∀ j, width rows j ≤ 40 := by
  refine ⟨?_, width_le rows⟩
  have hrule : (ruleLine (tableCols rows) (width rows)).length = 1 + ((List.range (tableCols rows)).map (fun j => width rows j + 3)).sum := by
    unfold ruleLine
    rw [List.length_append, flatMap_length_sum]
    simp
  have hline : ∀ r ∈ rows, (tableLine (tableCols rows) (width rows) r).length = 1 + ((List.range (tableCols rows)).map (fun j => width rows j + 3)).sum := by
    intro r hr
    unfold tableLine
    rw [List.length_append, flatMap_length_sum]
    congr 2
    apply List.map_congr_left
    intro j _
    have := clip_le_width hr j
    unfold boxed
    generalize clip (r.getD j []) = v at *
    simp only [List.length_append, List.length_replicate, List.length_cons, List.length_nil]
    omega
  intro l hl
  unfold tableLines at hl
  match rows, hl with
  | [], hl => simp at hl
  | r :: rest, hl =>
    simp only [List.mem_append, List.mem_cons, List.not_mem_nil, or_false, List.mem_map] at hl
    rcases hl with ((hl | hl) | hl) | hl
    · rcases hl with rfl | rfl
      · exact hrule
      · exact hline r (by simp)
    · cases hdr
      · simp at hl
      · simp at hl; subst hl; exact hrule
    · obtain ⟨x, hx, rfl⟩ := hl
      exact hline x (by simp [hx])
    · subst hl; exact hrule

/-- A small table, drawn. -/
example : prettyTable true [[[97], [98, 98]], [[49], []]] =
    "+---+----+\n| a | bb |\n+---+----+\n| 1 |    |\n+---+----+\n".toUTF8.toList := by decide +kernel

/-- **C66 limit** A cell with a line end breaks the drawing: the line of the row is printed as two. -/
theorem C66_newline_refuted : ∃ rows : List (List (List UInt8)),
    ((prettyTable false rows).count 10) ≠ (tableLines false rows).length :=
  ⟨[[[97, 10, 98]]], by decide +kernel⟩

/-- **C66 limit** Cutting is by bytes, so a text of valid UTF-8 can be printed as invalid UTF-8. -/
theorem C66_utf8_refuted : ∃ v : List UInt8, ByteArray.validateUTF8 (ByteArray.mk v.toArray) = true ∧
    ByteArray.validateUTF8 (ByteArray.mk (clip v).toArray) = false :=
  ⟨List.replicate 36 97 ++ [0xC3, 0xA9, 0xC3, 0xA9, 0xC3, 0xA9], by decide +kernel, by decide +kernel⟩

/-! ### Column specifications -/

theorem decDigits_eq (s : List UInt8) : decDigits s = decValue s := by
  have key : ∀ (s : List UInt8) a, s.foldl (fun a c => a * 10 + (c.toNat - 48)) a = a * 10 ^ s.length + decValue s := by
    intro s
    induction s with
    | nil => intro a; simp [decValue]
    | cons c r ih =>
      intro a
      simp only [List.foldl_cons, decValue, List.length_cons]
      rw [ih, Nat.pow_succ, Nat.add_mul, Nat.mul_assoc, Nat.mul_comm 10, Nat.add_assoc]
  have := key s 0
  unfold decDigits
  rw [this]; omega

theorem picks_unique {hasHeader names s j k} (h1 : Picks hasHeader names s j) (h2 : Picks hasHeader names s k) : j = k := by
  rcases h1 with ⟨a, b, c⟩ | ⟨a, b, c, d⟩ <;> rcases h2 with ⟨a', b', c'⟩ | ⟨a', b', c', d'⟩
  · omega
  · exact absurd a a'
  · exact absurd a' a
  · rcases Nat.lt_trichotomy j k with h | h | h
    · exact absurd c (d' j h)
    · exact h
    · exact absurd c' (d k h)

theorem picks_lt {hasHeader names s j} (h : Picks hasHeader names s j) : j < names.length := by
  rcases h with ⟨a, b, c⟩ | ⟨a, b, c, d⟩
  · exact c
  · exact (List.getElem?_eq_some_iff.1 c).1

theorem idxOf_none (names : List (List UInt8)) (s : List UInt8) : names.idxOf? s = none ↔ ∀ k : Nat, names[k]? ≠ some s := by
  rw [List.idxOf?_eq_none_iff]
  constructor
  · intro h k hk; exact h (List.mem_of_getElem? hk)
  · intro h hm
    obtain ⟨k, hk⟩ := List.getElem?_of_mem hm
    exact h k hk

theorem idxOf_some (names : List (List UInt8)) (s : List UInt8) (j : Nat) (h : names.idxOf? s = some j) :
    names[j]? = some s ∧ ∀ k < j, names[k]? ≠ some s := by
  induction names generalizing j with
  | nil => simp at h
  | cons a l ih =>
    rw [List.idxOf?_cons] at h
    by_cases ha : (a == s) = true
    · rw [if_pos ha] at h
      cases h
      simp at ha
      simp [ha]
    · rw [if_neg ha, Option.map_eq_some_iff] at h
      obtain ⟨i, hi, rfl⟩ := h
      obtain ⟨h1, h2⟩ := ih i hi
      refine ⟨by simpa using h1, ?_⟩
      intro k hk
      cases k with
      | zero => simp at ha ⊢; exact ha
      | succ k => simpa using h2 k (by omega)

theorem resolveSpec_spec (hasHeader : Bool) (names : List (List UInt8)) (hn : names.length ≤ 2 ^ 64) (s : List UInt8) :
    (∀ l, resolveSpec hasHeader names s = .cols l ↔ ∃ j, l = [j] ∧ Picks hasHeader names s j) ∧
    (resolveSpec hasHeader names s = .abort ↔ allDigits s ∧ 2 ^ 64 ≤ decValue s) := by
  have hd : (s ≠ [] ∧ s.all (fun c => decide (48 ≤ c ∧ c ≤ 57)) = true) ↔ allDigits s := by
    unfold allDigits
    simp only [List.all_eq_true, decide_eq_true_eq]
  unfold resolveSpec
  rw [decDigits_eq]
  by_cases h : allDigits s
  · rw [if_pos (hd.2 h)]
    by_cases h1 : decValue s ≥ 2 ^ 64
    · rw [if_pos h1]
      refine ⟨fun l => ⟨fun hl => (by cases hl), ?_⟩, ⟨fun _ => ⟨h, h1⟩, fun _ => rfl⟩⟩
      rintro ⟨j, _, hp⟩
      rcases hp with ⟨a, b, c⟩ | ⟨a, b, c, d⟩
      · omega
      · exact absurd h a
    · rw [if_neg h1]
      by_cases h2 : decValue s ≥ names.length
      · rw [if_pos h2]
        refine ⟨fun l => ⟨fun hl => (by cases hl), ?_⟩, ⟨fun hx => (by cases hx), fun hx => absurd hx.2 (by omega)⟩⟩
        rintro ⟨j, _, hp⟩
        rcases hp with ⟨a, b, c⟩ | ⟨a, b, c, d⟩
        · omega
        · exact absurd h a
      · rw [if_neg h2]
        refine ⟨fun l => ⟨fun hl => ?_, ?_⟩, ⟨fun hx => (by cases hx), fun hx => absurd hx.2 (by omega)⟩⟩
        · cases hl
          exact ⟨_, rfl, .inl ⟨h, rfl, by omega⟩⟩
        · rintro ⟨j, rfl, hp⟩
          rw [picks_unique hp (.inl ⟨h, rfl, by omega⟩)]
  · rw [if_neg (fun hc => h (hd.1 hc))]
    by_cases hh : hasHeader = true
    · rw [if_pos hh]
      cases hi : names.idxOf? s with
      | none =>
        dsimp only
        refine ⟨fun l => ⟨fun hl => (by cases hl), ?_⟩, ⟨fun hx => (by cases hx), fun hx => absurd hx.1 h⟩⟩
        rintro ⟨j, _, hp⟩
        rcases hp with ⟨a, b, c⟩ | ⟨a, b, c, d⟩
        · exact absurd a h
        · exact absurd c ((idxOf_none names s).1 hi j)
      | some i =>
        dsimp only
        have hp' : Picks hasHeader names s i := .inr ⟨h, hh, (idxOf_some names s i hi).1, (idxOf_some names s i hi).2⟩
        refine ⟨fun l => ⟨fun hl => ?_, ?_⟩, ⟨fun hx => (by cases hx), fun hx => absurd hx.1 h⟩⟩
        · cases hl
          exact ⟨_, rfl, hp'⟩
        · rintro ⟨j, rfl, hp⟩
          rw [picks_unique hp hp']
    · rw [if_neg hh]
      refine ⟨fun l => ⟨fun hl => (by cases hl), ?_⟩, ⟨fun hx => (by cases hx), fun hx => absurd hx.1 h⟩⟩
      rintro ⟨j, _, hp⟩
      rcases hp with ⟨a, b, c⟩ | ⟨a, b, c, d⟩
      · exact absurd a h
      · exact absurd b hh

theorem splitComma_ne (s : List UInt8) : splitComma s ≠ [] := by
  induction s with
  | nil => simp [splitComma]
  | cons c r ih =>
    simp only [splitComma]
    split
    · simp
    · split <;> simp

theorem splitComma_single (p : List UInt8) (hp : (44 : UInt8) ∉ p) : splitComma p = [p] := by
  induction p with
  | nil => rfl
  | cons c r ih =>
    have h1 : ¬ c = 44 := fun hc => hp (by simp [hc])
    have := ih (fun hm => hp (List.mem_cons_of_mem _ hm))
    simp only [splitComma, this]
    rw [if_neg h1]

theorem splitComma_cons (p rest : List UInt8) (hp : (44 : UInt8) ∉ p) : splitComma (p ++ 44 :: rest) = p :: splitComma rest := by
  induction p with
  | nil => simp [splitComma]
  | cons c r ih =>
    have h1 : ¬ c = 44 := fun hc => hp (by simp [hc])
    have := ih (fun hm => hp (List.mem_cons_of_mem _ hm))
    simp only [List.cons_append, splitComma, this]
    rw [if_neg h1]

theorem splitComma_join (pieces : List (List UInt8)) (hne : pieces ≠ []) (hp : ∀ p ∈ pieces, (44 : UInt8) ∉ p) :
    splitComma (joinFields 44 pieces) = pieces := by
  induction pieces with
  | nil => exact absurd rfl hne
  | cons p rest ih =>
    cases rest with
    | nil => simpa [joinFields] using splitComma_single p (hp p (by simp))
    | cons q rest =>
      have := ih (by simp) (fun x hx => hp x (List.mem_cons_of_mem _ hx))
      simp only [joinFields] at this ⊢
      rw [splitComma_cons _ _ (hp p (by simp)), this]

theorem resolveGo_spec (hasHeader : Bool) (names : List (List UInt8)) (hn : names.length ≤ 2 ^ 64) (pieces : List (List UInt8)) : ∀ acc l,
    resolveGo hasHeader names acc pieces = .cols l ↔ ∃ l', l = acc ++ l' ∧ l ≠ [] ∧ List.Forall₂ (Picks hasHeader names) (words pieces) l' := by
  induction pieces with
  | nil =>
    intro acc l
    simp only [resolveGo, words, List.map_nil, List.filter_nil]
    by_cases h : acc = []
    · rw [if_pos h]
      constructor
      · intro hx; cases hx
      · rintro ⟨l', e, hne, hf⟩
        cases hf
        rw [List.append_nil] at e
        exact absurd (e.trans h) hne
    · rw [if_neg h]
      constructor
      · intro hx; cases hx; exact ⟨[], by simp, h, .nil⟩
      · rintro ⟨l', e, hne, hf⟩
        cases hf
        rw [e, List.append_nil]
  | cons p rest ih =>
    intro acc l
    have hw : words (p :: rest) = if trimSpec p = [] then words rest else trimSpec p :: words rest := by
      unfold words
      have ht : trimEnd (trimStart p) = trimSpec p := rfl
      rw [List.map_cons, List.filter_cons, ht]
      by_cases h : trimSpec p = [] <;> simp [h]
    rw [hw]
    simp only [resolveGo]
    by_cases h : trimSpec p = []
    · rw [if_pos h, if_pos h]; exact ih acc l
    · rw [if_neg h, if_neg h]
      obtain ⟨s1, _⟩ := resolveSpec_spec hasHeader names hn (trimSpec p)
      cases hr : resolveSpec hasHeader names (trimSpec p) with
      | cols m =>
        obtain ⟨j, rfl, hp⟩ := (s1 m).1 hr
        dsimp only
        rw [ih]
        constructor
        · rintro ⟨l', e, hne, hf⟩
          exact ⟨j :: l', by rw [e]; simp, hne, .cons hp hf⟩
        · rintro ⟨l', e, hne, hf⟩
          cases hf with
          | @cons _ k _ l'' hk hf =>
            rw [picks_unique hk hp] at *
            exact ⟨l'', by rw [e]; simp, hne, hf⟩
      | error | abort =>
        dsimp only
        constructor
        · intro hx; cases hx
        · rintro ⟨l', e, hne, hf⟩
          cases hf with
          | @cons _ k _ l'' hk hf =>
            have := (s1 [k]).2 ⟨k, rfl, hk⟩
            rw [hr] at this
            cases this

/-- **C67** `select -c` with the words `pieces`, separated by commas, chooses the columns the words mean, in that order (repetitions allowed); and exactly when
every word means a column and there is one. -/
theorem C67_resolve (hasHeader : Bool) (names : List (List UInt8)) (hn : names.length ≤ 2 ^ 64) (pieces : List (List UInt8)) (hne : pieces ≠ [])
    (hp : ∀ p ∈ pieces, (44 : UInt8) ∉ p) (l : List Nat) :
    resolveColumns hasHeader names (joinFields 44 pieces) = .cols l ↔ l ≠ [] ∧ List.Forall₂ (Picks hasHeader names) (words pieces) l := by
  unfold resolveColumns
  rw [splitComma_join pieces hne hp, resolveGo_spec hasHeader names hn]
  constructor
  · rintro ⟨l', e, h1, h2⟩
    rw [List.nil_append] at e
    subst e
    exact ⟨h1, h2⟩
  · rintro ⟨h1, h2⟩
    exact ⟨l, rfl, h1, h2⟩

/-- **C67** The chosen indices exist, so no access is out of bounds. -/
theorem C67_in_range (hasHeader : Bool) (names : List (List UInt8)) (hn : names.length ≤ 2 ^ 64) (spec : List UInt8) (l : List Nat)
    (h : resolveColumns hasHeader names spec = .cols l) : ∀ j ∈ l, j < names.length := by
  unfold resolveColumns at h
  obtain ⟨l', e, -, hf⟩ := (resolveGo_spec hasHeader names hn _ _ _).1 h
  rw [List.nil_append] at e
  subst e
  clear h
  generalize words (splitComma spec) = ws at hf
  induction hf with
  | nil => simp
  | cons h1 _ ih =>
    intro j hj
    rcases List.mem_cons.1 hj with rfl | hj
    · exact picks_lt h1
    · exact ih j hj

/-- `b, 0 ,a` of the columns a, b, a. -/
example : resolveColumns true [[97], [98], [97]] [98, 44, 32, 48, 32, 44, 97] = .cols [1, 0, 0] := by decide +kernel

/-- **C67 limit** A column whose name is a number cannot be chosen by its name: `-c 2020` with the columns x, 2020. -/
theorem C67_numeric_name_refuted : resolveColumns true [[120], [50, 48, 50, 48]] [50, 48, 50, 48] = .error := by decide +kernel

/-- **C67 limit** A number beyond 64 bits is not reported as an error, it ends the program with an uncaught exception. -/
theorem C67_huge_index_refuted : resolveColumns true [[120]] (List.replicate 20 57) = .abort := by decide +kernel
end Vroom
