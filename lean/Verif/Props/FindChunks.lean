import Verif.Model.FindChunks
import Verif.Props.RowScan
/-
C06: `find_chunks`: ranges and row counts.
-/
namespace Vroom.Spec

/-- Rows in a buffer that starts at a row: the terminated ones, and the rest if there is any. -/
def rowsIn (q : UInt8) (data : List UInt8) : Nat :=
  rowCount q false data + if lastRowEnd q false data < data.length then 1 else 0

end Vroom.Spec

namespace Vroom
open Spec

theorem rowsIn_nil (q : UInt8) : rowsIn q [] = 0 := rfl

/-- The first row end splits the count. -/
theorem rowsIn_step (q : UInt8) (hq : q ≠ 10 ∧ q ≠ 13) (d : Bytes) (hd : d ≠ []) :
    ∃ e, firstEnd 0 d.length (rowEnds q false d) = e ∧ 0 < e ∧ e ≤ d.length ∧ rowsIn q d = 1 + rowsIn q (d.drop e) := by
  have hpos : 0 < d.length := List.length_pos_iff.2 hd
  cases hE : rowEnds q false d with
  | nil =>
    refine ⟨d.length, by simp [firstEnd], hpos, Nat.le_refl _, ?_⟩
    have e1 : rowsIn q d = 1 := by
      simp only [rowsIn, rowCount, lastRowEnd, hE]
      simp [hpos]
    rw [e1, List.drop_length]; rfl
  | cons i t =>
    have hi : i ∈ rowEnds q false d := by rw [hE]; simp
    have him := List.mem_filter.1 hi
    have hil : i < d.length := List.mem_range.1 him.1
    refine ⟨i + 1, by simp [firstEnd], by omega, by omega, ?_⟩
    -- outside quotes after the row end
    have hre := him.2
    have hins : insideAt q false d i = false := by
      unfold isRowEnd at hre
      cases h : insideAt q false d i with
      | false => rfl
      | true => rw [h] at hre; simp at hre
    have hb : d[i]? = some 10 ∨ d[i]? = some 13 := by
      unfold isRowEnd at hre
      rw [hins] at hre
      simp at hre
      rcases hre with h | h
      · left; exact h
      · right; exact h.1
    have hins1 : insideAt q false d (i + 1) = false := by
      rw [insideAt_drop, hins, List.drop_eq_getElem_cons hil, insideAt_one]
      have : d[i] ≠ q := by
        rw [List.getElem?_eq_getElem hil] at hb
        intro hc
        rcases hb with h | h
        · exact hq.1 (by rw [← hc]; exact Option.some.inj h)
        · exact hq.2 (by rw [← hc]; exact Option.some.inj h)
      simp [this]
    have hs := rowEnds_split q false d (i + 1) (by omega)
    rw [hins1] at hs
    have hfirst : (List.range (i + 1)).filter (isRowEnd q false d) = [i] := by
      rw [List.range_succ, List.filter_append]
      have hnone : (List.range i).filter (isRowEnd q false d) = [] := by
        rw [List.filter_eq_nil_iff]
        intro j hj hc
        have hj' : j < i := List.mem_range.1 hj
        have hjm : j ∈ rowEnds q false d := List.mem_filter.2 ⟨List.mem_range.2 (by omega), hc⟩
        have hsorted : (rowEnds q false d).Pairwise (· < ·) := List.Pairwise.filter _ List.pairwise_lt_range
        rw [hE] at hjm hsorted
        rw [List.pairwise_cons] at hsorted
        rcases List.mem_cons.1 hjm with h | h
        · omega
        · have := hsorted.1 j h; omega
      rw [hnone]; simp [hre]
    rw [hfirst] at hs
    have hcount : rowCount q false d = 1 + rowCount q false (d.drop (i + 1)) := by
      unfold rowCount; rw [hs]; simp; omega
    have hlast : lastRowEnd q false d = i + 1 + lastRowEnd q false (d.drop (i + 1)) := by
      unfold lastRowEnd
      rw [hs]
      cases hr : rowEnds q false (d.drop (i + 1)) with
      | nil => simp
      | cons a l =>
        rw [List.getLast?_append, List.getLast?_map]
        have : (a :: l).getLast? = some ((a :: l).getLast (by simp)) := List.getLast?_eq_some_getLast (by simp)
        rw [this]; simp; omega
    unfold rowsIn
    rw [hcount, hlast, List.length_drop]
    split <;> split <;> omega

/-- The counting loop counts the rows from its position on. -/
theorem chunkRowCount_eq (cpu : Cpu) (q : UInt8) (hq : q ≠ 10 ∧ q ≠ 13) (upto : Bytes) : ∀ (fuel pos rows : Nat), pos ≤ upto.length → upto.length < fuel + pos →
    chunkRowCount cpu q upto fuel pos rows = some (rows + rowsIn q (upto.drop pos)) := by
  intro fuel
  induction fuel with
  | zero => intro pos rows hp h; omega
  | succ fuel ih =>
    intro pos rows hp0 h
    rw [chunkRowCount]
    by_cases hp : pos < upto.length
    · rw [if_pos hp]
      dsimp only
      have hne : upto.drop pos ≠ [] := by intro hc; have := congrArg List.length hc; simp at this; omega
      obtain ⟨e, he, h1, h2, h3⟩ := rowsIn_step q hq (upto.drop pos) hne
      have hf : findRowEnd cpu q upto pos = pos + e := by
        rw [findRowEnd_eq cpu q hq, ← he]
        unfold firstEnd
        cases (rowEnds q false (upto.drop pos)).head? with
        | none => simp; omega
        | some i => simp; omega
      rw [hf, if_pos (by omega)]
      rw [List.length_drop] at h2
      rw [ih (pos + e) (rows + 1) (by omega) (by omega), h3, List.drop_drop]; congr 1; omega
    · rw [if_neg hp, List.drop_eq_nil_of_le (by omega)]; rfl

/-- C06: `find_chunks` ends for every buffer and every target size (zero included); its chunks tile the buffer, and each row count is
the number of rows of the chunk's own bytes, an unterminated rest counting as one. -/
theorem C06_find_chunks (cpu : Cpu) (q : UInt8) (hq : q ≠ 10 ∧ q ≠ 13) (data : Bytes) (target : Nat) :
    ∃ cs, findChunks cpu q data target = some cs ∧
      Tiles 0 data.length (cs.map fun c => (c.startOffset, c.endOffset)) ∧
      ∀ c ∈ cs, c.rowCount = rowsIn q ((data.take c.endOffset).drop c.startOffset) := by
  unfold findChunks
  by_cases h0 : data.length = 0
  · rw [if_pos h0]
    exact ⟨[], rfl, by simp [Tiles, h0], by simp⟩
  · rw [if_neg h0]
    obtain ⟨rs, h1, h2⟩ := chunkRangesGo_tiles (findRowEnd cpu q data) data.length target (fun s h => C03_progress cpu q data s h) (data.length + 1) 0
      (by omega) (by omega)
    rw [chunkRanges, h1, Option.bind_some]
    have key : ∀ rs : List (Nat × Nat), (∀ r ∈ rs, r.1 < r.2 ∧ r.2 ≤ data.length) → chunkBoundaries cpu q data rs =
        some (rs.map fun r => ⟨r.1, r.2, rowsIn q ((data.take r.2).drop r.1), false⟩) := by
      intro rs
      induction rs with
      | nil => intro _; rfl
      | cons r rs ih =>
        intro h
        have hr := h r (by simp)
        have hc : chunkBoundary cpu q data r = some ⟨r.1, r.2, rowsIn q ((data.take r.2).drop r.1), false⟩ := by
          unfold chunkBoundary
          rw [chunkRowCount_eq cpu q hq (data.take r.2) (data.length + 1) r.1 0 (by rw [List.length_take]; omega) (by rw [List.length_take]; omega),
            Nat.zero_add]; rfl
        rw [chunkBoundaries, hc, ih (fun x hx => h x (by simp [hx]))]
        rfl
    have hle : ∀ (rs : List (Nat × Nat)) (s : Nat), Tiles s data.length rs → ∀ r ∈ rs, r.1 < r.2 ∧ r.2 ≤ data.length := by
      intro rs
      induction rs with
      | nil => intro s _ r hr; cases hr
      | cons a rs ih =>
        intro s h r hr
        obtain ⟨_, h2, h3, h4⟩ := h
        rcases List.mem_cons.1 hr with rfl | hr
        · exact ⟨h2, h3⟩
        · exact ih _ h4 r hr
    refine ⟨_, key rs (hle rs 0 h2), ?_, ?_⟩
    · rw [List.map_map]
      have : ((fun c : ChunkBoundary => (c.startOffset, c.endOffset)) ∘ fun r : Nat × Nat =>
          (⟨r.1, r.2, rowsIn q ((data.take r.2).drop r.1), false⟩ : ChunkBoundary)) = id := by funext r; rfl
      rw [this, List.map_id]; exact h2
    · intro c hc
      obtain ⟨r, _, rfl⟩ := List.mem_map.1 hc
      rfl

/-- C06: a single chunk holds exactly the rows of the buffer. -/
theorem C06_find_chunks_single (cpu : Cpu) (q : UInt8) (hq : q ≠ 10 ∧ q ≠ 13) (data : Bytes) (target : Nat) (hd : data ≠ []) (h : data.length ≤ target) :
    findChunks cpu q data target = some [⟨0, data.length, rowsIn q data, false⟩] := by
  have hpos : 0 < data.length := List.length_pos_iff.2 hd
  unfold findChunks
  rw [if_neg (by omega), chunkRanges, chunkRangesGo, if_pos hpos]
  dsimp only
  rw [if_pos (by omega)]
  dsimp only
  have hgo : chunkRangesGo (findRowEnd cpu q data) data.length target data.length data.length = some [] := by
    cases hn : data.length with
    | zero => omega
    | succ n => rw [chunkRangesGo, if_neg (by omega)]
  rw [hgo]
  simp only [Option.map_some, Option.bind_some, chunkBoundaries]
  have hc : chunkBoundary cpu q data (0, data.length) = some ⟨0, data.length, rowsIn q data, false⟩ := by
    unfold chunkBoundary
    dsimp only
    rw [List.take_length]
    rw [chunkRowCount_eq cpu q hq data (data.length + 1) 0 0 (by omega) (by omega), Nat.zero_add]; rfl
  rw [hc]; rfl

/-- The full claim: the row counts of the chunks add up to the rows of the buffer, and `ends_in_quote` tells whether a chunk ends inside quotes. -/
def C06_find_chunks_full : Prop := ∀ (cpu : Cpu) (q : UInt8) (data : Bytes) (target : Nat) (cs : List ChunkBoundary), q ≠ 10 ∧ q ≠ 13 →
  findChunks cpu q data target = some cs →
  (cs.map (·.rowCount)).sum = rowsIn q data ∧ ∀ c ∈ cs, c.endsInQuote = insideAt q false data c.endOffset

/-- It is false of the code: a target that falls inside quotes gives a chunk boundary at a quoted line end (`"a⏎b"⏎c⏎`, target 2), one
row too many, and `ends_in_quote` is false. -/
theorem C06_find_chunks_refuted : ¬ C06_find_chunks_full := by
  intro h
  have h1 := h cpu32 34 [34, 97, 10, 98, 34, 10, 99, 10] 2 [⟨0, 3, 1, false⟩, ⟨3, 6, 1, false⟩, ⟨6, 8, 1, false⟩] (by decide) (by decide +kernel)
  have h2 := h1.2 ⟨0, 3, 1, false⟩ (by simp)
  revert h2; decide +kernel

example : findChunks cpu32 34 [97, 10, 98, 13, 10, 10, 99] 1 = some [⟨0, 2, 1, false⟩, ⟨2, 5, 1, false⟩, ⟨5, 7, 2, false⟩] ∧
    rowsIn 34 [97, 10, 98, 13, 10, 10, 99] = 4 := by decide +kernel

end Vroom
