import Verif.Lemmas.RowScan
import Verif.Lemmas.RowProgress
import Verif.Model.Chunking
/-
C02-C06, C50: row counting, row-end search, chunk analysis, chunk boundaries.
-/
namespace Vroom

/-- A CPU for the examples. -/
def cpu32 : Cpu := ⟨32, .clmul, by decide⟩

/-- C02: counting rows returns the number of unquoted row ends and the offset past the last one,
for every buffer, lane count and prefix-xor implementation; quote byte not CR/LF. -/
theorem C02_count_rows (cpu : Cpu) (q : UInt8) (hq : q ≠ 10 ∧ q ≠ 13) (data : List UInt8) :
    countRows cpu q data = (Spec.rowCount q false data, Spec.lastRowEnd q false data) := by
  unfold countRows
  split
  · unfold countRowsSimd; rw [analyzeChunkSimd_spec cpu q hq.1 hq.2]
  · exact countRowsScalar_spec q hq.1 hq.2 data

/-- C02: the vectorised count equals the byte-at-a-time count, whatever the size. -/
theorem C02_simd_eq_scalar (cpu : Cpu) (q : UInt8) (hq : q ≠ 10 ∧ q ≠ 13) (data : List UInt8) :
    countRowsSimd cpu q data = countRowsScalar q data := by
  rw [countRowsScalar_spec q hq.1 hq.2]
  unfold countRowsSimd; rw [analyzeChunkSimd_spec cpu q hq.1 hq.2]

/-- C02 with a known starting state, including the final quote state. -/
theorem C02_analyze_chunk (cpu : Cpu) (q : UInt8) (hq : q ≠ 10 ∧ q ≠ 13) (inside : Bool) (data : List UInt8) :
    analyzeChunkSimd cpu q inside data =
      (Spec.rowCount q inside data, Spec.lastRowEnd q inside data,
        Spec.insideAt q inside data data.length) :=
  analyzeChunkSimd_spec cpu q hq.1 hq.2 inside data

/-- Non-vacuity: an 80-byte buffer with a quoted newline across a block edge and a CRLF. -/
example : countRows cpu32 34 (List.replicate 60 97 ++ [13, 10, 34, 10, 10, 34, 10] ++ List.replicate 13 98) = (2, 67)
    ∧ (34 : UInt8) ≠ 10 ∧ (34 : UInt8) ≠ 13 := by decide +kernel

/-- The excluded quote bytes really break the claim: with LF as "quote", the SIMD and
scalar counts differ. -/
example : countRowsSimd cpu32 10 (10 :: 10 :: List.replicate 62 97) ≠
    countRowsScalar 10 (10 :: 10 :: List.replicate 62 97) := by decide +kernel

/-- What C03 asks for: `e` is just past the first unquoted row end at or after `s`
(quotes counted from `s`), or the end of the buffer when there is none. -/
def Spec.IsNextRowEnd (q : UInt8) (data : List UInt8) (s e : Nat) : Prop :=
  (∃ i, Spec.isRowEnd q false (data.drop s) i = true ∧
      (∀ j, j < i → Spec.isRowEnd q false (data.drop s) j = false) ∧ e = s + i + 1) ∨
  ((∀ j, Spec.isRowEnd q false (data.drop s) j = false) ∧ e = data.length)

theorem isRowEnd_lt {q ins d i} (h : Spec.isRowEnd q ins d i = true) : i < d.length := by
  unfold Spec.isRowEnd at h
  by_cases hi : i < d.length
  · exact hi
  · rw [List.getElem?_eq_none (by omega)] at h; simp at h

theorem firstEnd_isNext (q : UInt8) (data : List UInt8) (s : Nat) :
    Spec.IsNextRowEnd q data s (firstEnd s data.length (Spec.rowEnds q false (data.drop s))) := by
  unfold firstEnd
  cases hh : (Spec.rowEnds q false (data.drop s)).head? with
  | none =>
    right
    refine ⟨?_, rfl⟩
    intro j
    have hnil : Spec.rowEnds q false (data.drop s) = [] := by
      cases h : Spec.rowEnds q false (data.drop s) with
      | nil => rfl
      | cons a l => rw [h] at hh; simp at hh
    cases hj : Spec.isRowEnd q false (data.drop s) j with
    | false => rfl
    | true =>
      have : j ∈ Spec.rowEnds q false (data.drop s) := by
        unfold Spec.rowEnds
        rw [List.mem_filter, List.mem_range]; exact ⟨isRowEnd_lt hj, hj⟩
      rw [hnil] at this; simp at this
  | some i =>
    left
    have hm := List.mem_of_head? hh
    have hm' := hm
    unfold Spec.rowEnds at hm
    rw [List.mem_filter, List.mem_range] at hm
    refine ⟨i, hm.2, ?_, rfl⟩
    intro j hj
    cases hjb : Spec.isRowEnd q false (data.drop s) j with
    | false => rfl
    | true =>
      exfalso
      have hjm : j ∈ Spec.rowEnds q false (data.drop s) := by
        unfold Spec.rowEnds
        rw [List.mem_filter, List.mem_range]; exact ⟨isRowEnd_lt hjb, hjb⟩
      have hsorted : (Spec.rowEnds q false (data.drop s)).Pairwise (· < ·) := by
        unfold Spec.rowEnds
        exact List.Pairwise.filter _ List.pairwise_lt_range
      cases hl : Spec.rowEnds q false (data.drop s) with
      | nil => rw [hl] at hjm; simp at hjm
      | cons a l =>
        rw [hl] at hh hjm hsorted
        simp at hh; subst hh
        rw [List.pairwise_cons] at hsorted
        rcases List.mem_cons.1 hjm with h | h
        · omega
        · have := hsorted.1 j h; omega

theorem findRowEndScalar_eq (q : UInt8) (hq : q ≠ 10 ∧ q ≠ 13) (data : List UInt8) (s : Nat) :
    findRowEndScalar q data s = firstEnd s data.length (Spec.rowEnds q false (data.drop s)) := by
  unfold findRowEndScalar
  split
  · rw [findRowEndGo_spec q hq.1 hq.2, List.length_drop]; congr 1; omega
  · rw [List.drop_eq_nil_of_le (by omega)]; rfl

theorem findRowEndSimd_eq (cpu : Cpu) (q : UInt8) (hq : q ≠ 10 ∧ q ≠ 13) (data : List UInt8) (s : Nat) :
    findRowEndSimd cpu q data s = firstEnd s data.length (Spec.rowEnds q false (data.drop s)) := by
  unfold findRowEndSimd
  split
  · rw [List.drop_eq_nil_of_le (by omega)]; rfl
  · simp only []
    rw [rowEndPrefix_spec cpu q hq.1 hq.2, findRowEndGo_spec q hq.1 hq.2, List.length_drop]; congr 1; omega

theorem findRowEnd_eq (cpu : Cpu) (q : UInt8) (hq : q ≠ 10 ∧ q ≠ 13) (data : List UInt8) (s : Nat) :
    findRowEnd cpu q data s = firstEnd s data.length (Spec.rowEnds q false (data.drop s)) := by
  unfold findRowEnd
  split
  · exact findRowEndSimd_eq cpu q hq data s
  · exact findRowEndScalar_eq q hq data s

/-- C03: the row-end search returns the first unquoted row end at or after `s`
(also for `s` at or past the end of the buffer, where it returns the size). -/
theorem C03_find_row_end (cpu : Cpu) (q : UInt8) (hq : q ≠ 10 ∧ q ≠ 13) (data : List UInt8) (s : Nat) :
    Spec.IsNextRowEnd q data s (findRowEnd cpu q data s) := by
  rw [findRowEnd_eq cpu q hq]; exact firstEnd_isNext q data s

/-- C03: scalar and SIMD searches agree for every start position. -/
theorem C03_simd_eq_scalar (cpu : Cpu) (q : UInt8) (hq : q ≠ 10 ∧ q ≠ 13) (data : List UInt8) (s : Nat) :
    findRowEndSimd cpu q data s = findRowEndScalar q data s := by
  rw [findRowEndSimd_eq cpu q hq, findRowEndScalar_eq q hq]

/-- C03: the search always moves forward and stays in bounds. -/
theorem C03_progress (cpu : Cpu) (q : UInt8) (data : List UInt8) (s : Nat)
    (hs : s < data.length) : s < findRowEnd cpu q data s ∧ findRowEnd cpu q data s ≤ data.length :=
  ⟨findRowEnd_gt cpu q data s hs, findRowEnd_le cpu q data s⟩

example : findRowEnd cpu32 34 ([97, 34, 10, 34, 34] ++ List.replicate 70 98 ++ [34, 13, 10, 99]) 0 = 78 := by
  decide +kernel

/-- C04: the one-pass dual analysis equals the two single-state passes. -/
theorem C04_dual_eq_two_passes (cpu : Cpu) (q : UInt8) (hq : q ≠ 10 ∧ q ≠ 13) (data : List UInt8) :
    let d := analyzeDual cpu q data
    let o := analyzeChunkSimd cpu q false data
    let i := analyzeChunkSimd cpu q true data
    (d.rowsOutside, d.lastOutside) = (o.1, o.2.1) ∧ (d.rowsInside, d.lastInside) = (i.1, i.2.1) ∧
    d.endsInside = o.2.2 ∧ (!d.endsInside) = i.2.2 := by
  simp only [analyzeDual_spec cpu q hq.1 hq.2, analyzeChunkSimd_spec cpu q hq.1 hq.2, true_and]
  simp only [insideAt_eq]
  cases oddB (List.count q (List.take data.length data)) <;> rfl

/-- C04 against the specification. -/
theorem C04_dual_spec (cpu : Cpu) (q : UInt8) (hq : q ≠ 10 ∧ q ≠ 13) (data : List UInt8) :
    analyzeDual cpu q data =
      { rowsOutside := Spec.rowCount q false data, lastOutside := Spec.lastRowEnd q false data
        rowsInside := Spec.rowCount q true data, lastInside := Spec.lastRowEnd q true data
        endsInside := Spec.insideAt q false data data.length } :=
  analyzeDual_spec cpu q hq.1 hq.2 data

example : analyzeDual cpu32 34 (List.replicate 63 97 ++ [13, 10, 34, 10, 97]) = ⟨1, 65, 1, 67, true⟩ := by
  decide +kernel

/-! ### C05 -/

/-- Quote state at the start of every chunk, by the specification. -/
def Spec.chunkStates (q : UInt8) (start : Bool) : List (List UInt8) → List Bool
  | [] => []
  | c :: cs => start :: Spec.chunkStates q (Spec.insideAt q start c c.length) cs

theorem linkStates_spec (cpu : Cpu) (q : UInt8) (hq : q ≠ 10 ∧ q ≠ 13) (chunks : List (List UInt8)) (s : Bool) :
    linkStates s (chunks.map (analyzeDual cpu q)) = Spec.chunkStates q s chunks := by
  induction chunks generalizing s with
  | nil => rfl
  | cons c cs ih =>
    simp only [List.map_cons, linkStates, Spec.chunkStates]
    rw [← ih, analyzeDual_spec cpu q hq.1 hq.2]
    congr 2
    simp only [insideAt_eq]
    cases s <;> cases oddB (List.count q (List.take c.length c)) <;> rfl

theorem chunkStates_get (q : UInt8) (chunks : List (List UInt8)) (s : Bool) (k : Nat) (hk : k < chunks.length) :
    (Spec.chunkStates q s chunks)[k]? =
      some (Spec.insideAt q s chunks.flatten (chunks.take k).flatten.length) := by
  induction chunks generalizing s k with
  | nil => simp at hk
  | cons c cs ih =>
    cases k with
    | zero => simp [Spec.chunkStates, insideAt_zero]
    | succ k =>
      simp only [Spec.chunkStates, List.getElem?_cons_succ, List.take_succ_cons, List.flatten_cons,
        List.length_append]
      rw [ih _ _ (by simpa using hk), insideAt_drop]
      simp [insideAt_eq]

/-- C05: linking gives each chunk the true quote state of its first byte in the whole buffer. -/
theorem C05_linked_states (cpu : Cpu) (q : UInt8) (hq : q ≠ 10 ∧ q ≠ 13) (chunks : List (List UInt8)) (k : Nat)
    (hk : k < chunks.length) :
    (analyzeAndLink cpu q chunks).1[k]? =
      some (Spec.insideAt q false chunks.flatten (chunks.take k).flatten.length) := by
  unfold analyzeAndLink
  simp only [linkStates_spec cpu q hq]
  exact chunkStates_get q chunks false k hk

/-- No cut separates a CR from the LF that follows it. -/
def Spec.NoSplitCRLF : List (List UInt8) → Prop
  | [] => True
  | c :: cs => ¬ (c.getLast? = some 13 ∧ cs.flatten.head? = some 10) ∧ Spec.NoSplitCRLF cs

theorem rowCount_append (q : UInt8) (s : Bool) (a b : List UInt8)
    (h : ¬ (a.getLast? = some 13 ∧ b.head? = some 10)) :
    Spec.rowCount q s (a ++ b) = Spec.rowCount q s a + Spec.rowCount q (Spec.insideAt q s a a.length) b := by
  unfold Spec.rowCount
  rw [rowEnds_split q s (a ++ b) a.length (by simp), List.length_append, List.length_map, List.drop_left]
  have h1 : Spec.insideAt q s (a ++ b) a.length = Spec.insideAt q s a a.length := by
    simp [insideAt_eq]
  rw [h1]
  congr 2
  unfold Spec.rowEnds
  apply List.filter_congr
  intro i hi
  have hi := List.mem_range.1 hi
  unfold Spec.isRowEnd
  have e0 : Spec.insideAt q s (a ++ b) i = Spec.insideAt q s a i := by
    simp only [insideAt_eq]; rw [List.take_append_of_le_length (by omega)]
  rw [e0, List.getElem?_append_left hi]
  by_cases hlast : i + 1 < a.length
  · rw [List.getElem?_append_left hlast]
  · have hi1 : i + 1 = a.length := by omega
    rw [hi1, List.getElem?_append_right (Nat.le_refl _), Nat.sub_self,
      List.getElem?_eq_none (l := a) (Nat.le_refl _)]
    by_cases hcr : a[i]? = some 13
    · have : a.getLast? = some 13 := by rw [List.getLast?_eq_getElem?, ← hi1]; simpa using hcr
      have hb : ¬ b[0]? = some 10 := fun hb => h ⟨this, by rw [List.head?_eq_getElem?]; exact hb⟩
      have hb' : (b[0]? != some 10) = true := by simpa using hb
      rw [hb']; rfl
    · have : (a[i]? == some 13) = false := by simpa using hcr
      rw [this]; simp

theorem totalRowCount_spec (cpu : Cpu) (q : UInt8) (hq : q ≠ 10 ∧ q ≠ 13) (chunks : List (List UInt8)) (s : Bool)
    (h : Spec.NoSplitCRLF chunks) :
    totalRowCount (linkStates s (chunks.map (analyzeDual cpu q))) (chunks.map (analyzeDual cpu q)) =
      Spec.rowCount q s chunks.flatten := by
  induction chunks generalizing s with
  | nil => rfl
  | cons c cs ih =>
    rw [List.flatten_cons, rowCount_append q s _ _ h.1, ← ih _ h.2]
    simp only [List.map_cons, linkStates, totalRowCount, List.zip_cons_cons, List.sum_cons]
    congr 1
    · rw [analyzeDual_spec cpu q hq.1 hq.2]; cases s <;> rfl
    · have : (if s = true then !(analyzeDual cpu q c).endsInside else (analyzeDual cpu q c).endsInside) =
          Spec.insideAt q s c c.length := by
        rw [analyzeDual_spec cpu q hq.1 hq.2]
        simp only [insideAt_eq]
        cases s <;> cases oddB (List.count q (List.take c.length c)) <;> rfl
      rw [this]

/-- C05: the reported total equals the row count of the whole buffer, for every way of cutting it
that keeps CRLF pairs together. -/
theorem C05_total_count (cpu : Cpu) (q : UInt8) (hq : q ≠ 10 ∧ q ≠ 13) (chunks : List (List UInt8))
    (h : Spec.NoSplitCRLF chunks) :
    (analyzeAndLink cpu q chunks).2 = Spec.rowCount q false chunks.flatten :=
  totalRowCount_spec cpu q hq chunks false h

/-- Cutting inside a CRLF pair does change the count (why the hypothesis is there). -/
example : (analyzeAndLink cpu32 34 [[97, 13], [10, 98]]).2 ≠ Spec.rowCount 34 false [97, 13, 10, 98] := by
  decide +kernel

/-- Non-vacuity: a quoted newline exactly at a cut. -/
example : Spec.NoSplitCRLF [[97, 10, 34, 10], [10, 34, 13, 10], [98]] ∧
    analyzeAndLink cpu32 34 [[97, 10, 34, 10], [10, 34, 13, 10], [98]] = ([false, true, false], 2) := by
  refine ⟨by simp [Spec.NoSplitCRLF], by decide +kernel⟩

/-! ### C06 -/

/-- Consecutive non-empty ranges from `start` to `size`. -/
def Spec.Tiles (start size : Nat) : List (Nat × Nat) → Prop
  | [] => start = size
  | r :: rs => r.1 = start ∧ r.1 < r.2 ∧ r.2 ≤ size ∧ Spec.Tiles r.2 size rs

theorem chunkRangesGo_tiles (rowEnd : Nat → Nat) (size chunkSize : Nat)
    (hre : ∀ s, s < size → s < rowEnd s ∧ rowEnd s ≤ size) (fuel offset : Nat)
    (ho : offset ≤ size) (hf : size < fuel + offset) :
    ∃ rs, chunkRangesGo rowEnd size chunkSize fuel offset = some rs ∧ Spec.Tiles offset size rs := by
  induction fuel generalizing offset with
  | zero => omega
  | succ fuel ih =>
    unfold chunkRangesGo
    by_cases h : offset < size
    · rw [if_pos h]
      dsimp only
      by_cases ht : min (offset + chunkSize) size ≥ size
      · rw [if_pos ht]
        obtain ⟨rs, h1, h2⟩ := ih size (Nat.le_refl _) (by omega)
        refine ⟨(offset, size) :: rs, ?_, ⟨rfl, h, Nat.le_refl _, h2⟩⟩
        simp only [h1]; rfl
      · rw [if_neg ht]
        have hlt : min (offset + chunkSize) size < size := by omega
        have hr := hre _ hlt
        have hu : unstick rowEnd size chunkSize (size + 1) (min (offset + chunkSize) size)
            (rowEnd (min (offset + chunkSize) size)) = some (rowEnd (min (offset + chunkSize) size)) := by
          unfold unstick; rw [if_neg (by omega)]
        rw [hu]
        obtain ⟨rs, h1, h2⟩ := ih (rowEnd (min (offset + chunkSize) size)) hr.2 (by omega)
        refine ⟨(offset, rowEnd (min (offset + chunkSize) size)) :: rs, ?_, ⟨rfl, ?_, hr.2, h2⟩⟩
        · simp only [h1]; rfl
        · show offset < rowEnd (min (offset + chunkSize) size)
          omega
    · rw [if_neg h]
      exact ⟨[], rfl, by show offset = size; omega⟩

/-- C06: the boundary loop terminates, and its ranges tile `[dataStart, size)`: they are non-empty,
consecutive, and cover every byte exactly once. -/
theorem C06_ranges_tile (cpu : Cpu) (q : UInt8) (data : List UInt8) (dataStart chunkSize : Nat)
    (hs : dataStart ≤ data.length) (_hc : 0 < chunkSize) :
    ∃ rs, chunkRanges cpu q data dataStart chunkSize = some rs ∧ Spec.Tiles dataStart data.length rs :=
  chunkRangesGo_tiles _ _ _ (fun s h => C03_progress cpu q data s h) _ _ hs (by omega)

theorem tiles_slices (data : List UInt8) (rs : List (Nat × Nat)) (start : Nat)
    (h : Spec.Tiles start data.length rs) : (rs.map (slice data)).flatten = data.drop start := by
  induction rs generalizing start with
  | nil => have : start = data.length := h
           subst this; simp
  | cons r rs ih =>
    obtain ⟨h1, h2, h3, h4⟩ := h
    subst h1
    rw [List.map_cons, List.flatten_cons, ih _ h4]
    unfold slice
    have : data.drop r.2 = (data.drop r.1).drop (r.2 - r.1) := by
      rw [List.drop_drop]; congr 1; omega
    rw [this, List.take_append_drop]

/-- C06: concatenating the chunks gives back the data after the header; no chunk is empty. -/
theorem C06_chunks_concat (cpu : Cpu) (q : UInt8) (data : List UInt8) (dataStart chunkSize : Nat)
    (hs : dataStart ≤ data.length) (hc : 0 < chunkSize) (rs : List (Nat × Nat))
    (h : chunkRanges cpu q data dataStart chunkSize = some rs) :
    (rs.map (slice data)).flatten = data.drop dataStart ∧ ∀ r ∈ rs, slice data r ≠ [] := by
  obtain ⟨rs', h1, h2⟩ := C06_ranges_tile cpu q data dataStart chunkSize hs hc
  rw [h1] at h
  replace h := Option.some.inj h
  subst h
  clear h1
  refine ⟨tiles_slices data _ _ h2, ?_⟩
  induction rs' generalizing dataStart with
  | nil => simp
  | cons r rs ih =>
    intro r' hr'
    obtain ⟨t1, t2, t3, t4⟩ := h2
    rcases List.mem_cons.1 hr' with h | h
    · subst h
      intro he
      have := congrArg List.length he
      simp [slice] at this
      omega
    · exact ih r.2 t3 t4 r' h

/-- Non-vacuity: a header of two bytes, then two chunks. -/
example : chunkRanges cpu32 34 [97, 10, 98, 10, 34, 10, 34, 10, 99] 2 3 = some [(2, 6), (6, 9)] := by decide +kernel

/-! ### C50 -/

/-- C50: the chunk size is always within [1 MiB, 4 MiB], for every file size, column count and thread count. -/
theorem C50_chunk_size_bounds (fileSize nCols nThreads : Nat) :
    1048576 ≤ calculateChunkSize fileSize nCols nThreads ∧ calculateChunkSize fileSize nCols nThreads ≤ 4194304 := by
  unfold calculateChunkSize minChunkSize maxChunkSize
  dsimp only
  generalize fileSize / _ = x
  split <;> split <;> omega

/-- C50: between the clamps the size is the file size divided by a positive number of parts. -/
theorem C50_chunk_size_value (fileSize nCols nThreads : Nat) :
    ∃ parts, 0 < parts ∧ (parts ≤ 500000) ∧
      calculateChunkSize fileSize nCols nThreads = min (max (fileSize / parts) 1048576) 4194304 := by
  unfold calculateChunkSize minChunkSize maxChunkSize allocationBudget
  dsimp only
  refine ⟨if min (nThreads * 16 % 2 ^ 64) (500000 / max nCols 1) = 0 then 1 else
    min (nThreads * 16 % 2 ^ 64) (500000 / max nCols 1), ?_, ?_, ?_⟩
  · generalize 500000 / max nCols 1 = y
    split <;> omega
  · have : 500000 / max nCols 1 ≤ 500000 := Nat.div_le_self _ _
    split <;> omega
  · generalize (fileSize / if min (nThreads * 16 % 2 ^ 64) (500000 / max nCols 1) = 0 then 1 else
      min (nThreads * 16 % 2 ^ 64) (500000 / max nCols 1)) = x
    split <;> split <;> omega

example : calculateChunkSize (100 * 1024 * 1024) 10 4 = 1638400 := by decide

end Vroom
