import Verif.Lemmas.MemLine
import Verif.Props.FindChunks
import Verif.Props.MemSafe
import Verif.Props.Tightened
/-
C96: the line and chunk functions of the public header stay inside the buffer they are given.
-/
namespace Vroom
open Spec Mem

/-! `m` is the memory behind the caller's pointer and `size` the size passed along; `some` says that every load, and every `columns[i]`, was in range. -/

/-- **C96** `split_fields` and `split_fields_into` look only at the `size` bytes they are given, whatever these are; the views returned lie inside
these bytes, one behind the other and apart, and show the fields of C11. -/
theorem C96_split_fields {t : Target} {cpu : Cpu} (ht : t.Is cpu) {m : List UInt8} {size : Nat} (hs : size ≤ m.length) (sep q : UInt8) :
    ∃ vs, splitFieldsM t m size sep q = some vs ∧
      (∀ v ∈ vs, v.off + v.size ≤ size) ∧ vs.Pairwise (fun a b => a.off + a.size < b.off) ∧
      vs.map (fun v => (⟨(m.drop v.off).take v.size, v.quoted⟩ : FieldView)) = splitFieldsApi cpu sep q (m.take size) := by
  obtain ⟨vs, h1, h2, h3⟩ := splitFields_eq ht hs sep q
  exact ⟨vs, h1, h3.2, h3.1, h2⟩

/-- **C96** A line written from fields is handed back field by field as views into the caller's own buffer, each showing its field without the quotes
and without blanks at the ends, whatever is in memory behind the line. -/
theorem C96_split_written {t : Target} {cpu : Cpu} (ht : t.Is cpu) (M : Marks) (hsane : SplitSane M.sep M.quote) (hlf : M.eol = 10) (fields : List WField)
    (hne : fields ≠ []) (hwf : ∀ f ∈ fields, f.WF M) (term pad : Bytes) (hterm : ∀ c ∈ term, Eol c)
    (hbytes : joinFields M.sep (fields.map (·.render M.quote)) ++ term ≠ []) (line : Bytes) (hline : line = joinFields M.sep (fields.map (·.render M.quote)) ++ term) :
    ∃ vs, splitFieldsM t (line ++ pad) line.length M.sep M.quote = some vs ∧
      List.Forall₂ (fun (f : WField) (v : LineView) => v.off + v.size ≤ line.length ∧ match f with
          | .plain s => Stripped (fun c => c == 32 || c == 9) s ((line.drop v.off).take v.size) ∧ v.quoted = false
          | .quoted b => Stripped (fun c => c == 32 || c == 9) (escape M.quote b) ((line.drop v.off).take v.size) ∧ v.quoted = true)
        fields vs := by
  obtain ⟨vs, h1, h2, -, h4⟩ := C96_split_fields ht (m := line ++ pad) (size := line.length) (by simp) M.sep M.quote
  refine ⟨vs, h1, ?_⟩
  have htake : (line ++ pad).take line.length = line := by simp
  have h := C11_written_stripped cpu M hsane hlf fields hne hwf term hterm hbytes
  rw [← hline] at h
  rw [htake] at h4
  rw [← h4, List.forall₂_map_right_iff] at h
  clear h4 h1
  have key : ∀ v ∈ vs, ((line ++ pad).drop v.off).take v.size = (line.drop v.off).take v.size := by
    intro v hv
    have := h2 v hv
    rw [List.drop_append_of_le_length (by omega), List.take_append_of_le_length (by rw [List.length_drop]; omega)]
  clear hne hbytes hline
  induction h with
  | nil => exact List.Forall₂.nil
  | @cons f v fs vs' hv hrest ih =>
    refine List.Forall₂.cons ⟨h2 v (by simp), ?_⟩ (ih (fun f hf => hwf f (by simp [hf])) (fun v hv => h2 v (by simp [hv])) (fun v hv => key v (by simp [hv])))
    rw [key v (by simp)] at hv
    exact hv

/-- **C96** `parse_line` looks only at the bytes of the line and appends only to columns it was given, for every line and every number of columns. -/
theorem C96_parse_line {m : List UInt8} {size : Nat} (hs : size ≤ m.length) (nc : NullChecker) (sep q : UInt8) (cols : Cols) :
    parseLineM m size nc sep q cols = some (parseLine nc sep q (m.take size) cols) := parseLine_eq hs nc sep q cols

/-- **C96** `parse_header` looks only at the bytes it was given. -/
theorem C96_parse_header {m : List UInt8} {size : Nat} (hs : size ≤ m.length) (sep q : UInt8) :
    parseHeaderM m size sep q = some (parseHeader sep q (m.take size)) := by
  have hl : (m.take size).length = size := by simp; omega
  unfold parseHeaderM parseHeader
  rw [hl]
  by_cases h : size = 0
  · rw [if_pos h, if_pos h]
  · rw [if_neg h, if_neg h]
    have := headerGo_eq hs sep q _ false [] [] 0 (by omega) (Nat.le_refl _)
    rwa [List.drop_zero] at this

/-- **C96** `find_chunks` looks only at the bytes it was given, ends for every target size (zero included), and its chunks lie inside the buffer. -/
theorem C96_find_chunks {t : Target} {cpu : Cpu} (ht : t.Is cpu) {m : List UInt8} {size : Nat} (hs : size ≤ m.length) (q : UInt8) (hq : q ≠ 10 ∧ q ≠ 13) (target : Nat) :
    ∃ cs, findChunksM t m size q target = some cs ∧ findChunks cpu q (m.take size) target = some cs ∧
      Tiles 0 size (cs.map fun c => (c.startOffset, c.endOffset)) ∧ ∀ c ∈ cs, c.endOffset ≤ size := by
  have hl : (m.take size).length = size := by simp; omega
  obtain ⟨cs, h1, h2, -⟩ := C06_find_chunks cpu q hq (m.take size) target
  have hf : findRowEndM t m size q = fun s => some (findRowEnd cpu q (m.take size) s) := by
    funext s; exact Mem.findRowEnd_eq ht hs q s
  have hin := tiles_in h2
  rw [hl] at hin h2
  refine ⟨cs, ?_, h1, h2, ?_⟩
  · unfold findChunksM
    unfold findChunks at h1
    rw [hl] at h1
    by_cases h0 : size = 0
    · rw [if_pos h0] at h1 ⊢; exact h1
    · rw [if_neg h0] at h1 ⊢
      obtain ⟨rs, r1, r2⟩ := chunkRangesGo_tiles (findRowEnd cpu q (m.take size)) size target
        (fun s h => by have := C03_progress cpu q (m.take size) s (by omega); rwa [hl] at this) (size + 1) 0 (by omega) (by omega)
      rw [hf, ranges_eq, r1, Option.bind_some]
      rw [chunkRanges, hl, r1, Option.bind_some] at h1
      rw [chunkBoundaries_eq ht hs q rs (fun r hr => (tiles_in r2 r hr).2)]
      exact h1
  · intro c hc
    exact (hin (c.startOffset, c.endOffset) (List.mem_map.2 ⟨c, hc, rfl⟩)).2

/-- `" a ",b` in an allocation that goes on: two views, at 2 and at 6. -/
example : splitFieldsM target32 ([34, 32, 97, 32, 34, 44, 98] ++ [44, 120]) 7 44 34 = some [⟨2, 1, true⟩, ⟨6, 1, false⟩] := by decide +kernel

/-- A line of 66 bytes, one block and two bytes, in an allocation of exactly that size. -/
example : (splitFieldsM target32 (List.replicate 62 97 ++ [44, 32, 98, 10]) 66 44 34) = some [⟨0, 62, false⟩, ⟨64, 1, false⟩] := by decide +kernel

/-- `a,"b` and two columns of three: the third gets a null. -/
example : parseLineM [97, 44, 34, 98, 0, 0] 4 { emptyIsNull := true } 44 34 [[], [], []] = some ([[.text [97]], [.text [98]], [.null]], 3) := by decide +kernel

/-- Two rows, target 1. -/
example : findChunksM target32 [97, 10, 98, 10, 99] 4 34 1 = some [⟨0, 2, 1, false⟩, ⟨2, 4, 1, false⟩] := by decide +kernel

/-- **C96 finding** With vectors of more than 64 bytes the eight bytes reserved for the mask of one vector do not suffice, and splitting a line of
64 bytes writes beyond them. -/
theorem C96_wide_vectors_refuted : ∃ (t : Target) (m : List UInt8), m.length = 64 ∧ splitFieldsM t m m.length 44 34 = none :=
  ⟨target128, List.replicate 64 97, by decide, by decide +kernel⟩

end Vroom
