import Verif.Props.Encoding
import Verif.Props.Buffers
import Verif.Props.SplitLine
import Verif.Lemmas.CellType
import Mathlib.Data.List.Forall2
import Mathlib.Tactic.Tauto
import Mathlib.Tactic.SplitIfs
import Verif.Props.Errors
import Verif.Props.Dialect
import Verif.Model.Cli
import Verif.Props.Open
/-
Claims added because a wrong program had survived (C11, C17, C23, C28, C41, C46, C57).
-/
namespace Vroom
open Parquet NullBitmap Spec

/-- C23: `set` on a bitmap that has a null somewhere changes exactly the flag it names. -/
theorem C23_set {b : NullBitmap} {fs : List Bool} (h : BitmapHist b fs) (hn : b.hasNulls = true) (i : Nat) (hi : i < fs.length) (v : Bool) (j : Nat)
    (hj : j < fs.length) : (b.set i v).isValid j = if j = i then v else fs.getD j false := by
  have r := bitmap_rep h
  have hl := r.len hn
  have hh : (b.set i v).hasNulls = true := hn
  rw [bitAt_isValid _ j hh]
  have hd : (b.set i v).data = if v then setBit b.data i else clearBit b.data i := rfl
  have hidx : i / 8 < b.data.length := by rw [hl, r.size]; omega
  rw [hd]
  cases v
  · rw [if_neg (by decide), bitAt_clearBit _ _ _ hidx, r.bits hn j hj]
    by_cases hc : j = i
    · subst hc; simp
    · simp [hc, Ne.symm hc]
  · rw [if_pos rfl, bitAt_setBit _ _ _ hidx, r.bits hn j hj]
    by_cases hc : j = i
    · subst hc; simp
    · simp [hc, Ne.symm hc]

example : (((({} : NullBitmap).pushNull).pushValid).set 0 true).isValid 0 = true ∧
    BitmapHist ((({} : NullBitmap).pushNull).pushValid) [false, true] :=
  ⟨by decide, .push true (.push false .new)⟩

/-- C28: the levels written by `encode_definition_levels_rle` are read back: 0 for a null, the maximum for a value. -/
theorem C28_levels_rle (nulls : List Bool) (maxDef : UInt8) (hm : maxDef ≠ 0) (rest : List UInt8) :
    hybrid (bitsRequired maxDef.toUInt32) nulls.length (encodeDefinitionLevelsRle nulls maxDef ++ rest) =
      some (nulls.map fun isNull => if isNull then 0 else maxDef.toNat) := by
  unfold encodeDefinitionLevelsRle
  cases hnl : nulls with
  | nil => simp [hybrid_zero]
  | cons a t =>
    rw [← hnl, if_neg (by rw [hnl]; simp)]
    have hmax : maxDef.toUInt32.toNat < 2 ^ bitsRequired maxDef.toUInt32 := (C29_bits_required _).1
    have hne : maxDef.toUInt32.toNat ≠ 0 := by
      rw [UInt8.toNat_toUInt32]
      intro hc
      exact hm (UInt8.toNat_inj.1 (by simpa using hc))
    have hpos : 0 < bitsRequired maxDef.toUInt32 := by
      rcases Nat.eq_zero_or_pos (bitsRequired maxDef.toUInt32) with hz | hz
      · exact absurd (Nat.lt_of_lt_of_eq hmax (by rw [hz])) (by omega)
      · exact hz
    have hle : bitsRequired maxDef.toUInt32 ≤ 32 := (C29_bits_required _).2 32 (by have := maxDef.toUInt32.toNat_lt; omega)
    have := C29_rle_roundtrip (bitsRequired maxDef.toUInt32) hpos hle (nulls.map fun isNull => if isNull then 0 else maxDef.toUInt32) (by
      intro v hv
      obtain ⟨x, _, rfl⟩ := List.mem_map.1 hv
      cases x
      · simpa using hmax
      · simp) rest
    rw [List.length_map] at this
    rw [this, List.map_map]
    congr 1
    apply List.map_congr_left
    intro x _
    cases x <;> simp

example : encodeDefinitionLevelsRle (List.replicate 9 false ++ [true]) 1 = [18, 1, 3, 0] := by decide +kernel

/-- C11: what the caller sees of each written field: its text (between the quotes, if it was quoted) with the
spaces and tabs at both ends removed, and nothing else removed. -/
theorem C11_written_stripped (cpu : Cpu) (M : Marks) (hs : SplitSane M.sep M.quote) (hlf : M.eol = 10) (fields : List WField)
    (hne : fields ≠ []) (hwf : ∀ f ∈ fields, f.WF M) (term : Bytes) (ht : ∀ c ∈ term, Eol c)
    (hbytes : joinFields M.sep (fields.map (·.render M.quote)) ++ term ≠ []) :
    List.Forall₂ (fun (f : WField) (v : FieldView) => match f with
        | .plain s => Stripped (fun c => c == 32 || c == 9) s v.bytes ∧ v.quoted = false
        | .quoted b => Stripped (fun c => c == 32 || c == 9) (escape M.quote b) v.bytes ∧ v.quoted = true)
      fields (splitFieldsApi cpu M.sep M.quote (joinFields M.sep (fields.map (·.render M.quote)) ++ term)) := by
  rw [C11_written cpu M hs hlf fields hne hwf term ht hbytes, List.forall₂_map_right_iff, List.forall₂_same]
  intro f _
  cases f with
  | plain s => exact ⟨(stripped_iff _ _ _).2 rfl, rfl⟩
  | quoted b => exact ⟨(stripped_iff _ _ _).2 rfl, rfl⟩

/-- A tab and a space on either side of `a`, then a quoted field holding tab `b`. -/
example : splitScalar 44 34 [9, 97, 32, 44, 34, 9, 98, 34] = [⟨[97], false⟩, ⟨[98], true⟩] := by decide +kernel

/-- The texts a column of truth values takes for true and for false. -/
def Spec.trueTexts : List (List UInt8) := ["true", "TRUE", "True", "1", "yes", "YES"].map asc
def Spec.falseTexts : List (List UInt8) := ["false", "FALSE", "False", "0", "no", "NO"].map asc

/-- C17: what a column of truth values stores for a text. -/
theorem C17_bool_texts (lanes : Nat) (isFloat : Bytes → Bool) (v : Bytes) :
    (storeText lanes isFloat .bool v = .bool true ↔ v ∈ Spec.trueTexts) ∧
    (storeText lanes isFloat .bool v = .bool false ↔ v ∈ Spec.falseTexts) ∧
    (storeText lanes isFloat .bool v = .null ↔ v ∉ Spec.trueTexts ∧ v ∉ Spec.falseTexts) := by
  have ht : Spec.trueTexts = trueTokens := by decide +kernel
  have hf : Spec.falseTexts = falseTokens := by decide +kernel
  have hd : ∀ w, w ∈ trueTokens → w ∉ falseTokens := by decide +kernel
  rw [ht, hf]
  simp only [storeText]
  by_cases h1 : v ∈ trueTokens
  · have := hd v h1
    simp [h1, this]
  · by_cases h2 : v ∈ falseTokens <;> simp [h1, h2]

/-- C41: the mode that decides is the one set last, also when it is set after errors were reported. -/
theorem C41_mode_set {lo hi c rep} (hlo : 1 ≤ lo) (h : History lo hi c rep) (m : ErrMode) (later : List ParseErr) :
    (later.foldl Collector.addError (c.setMode m)).shouldStop = true ↔
      match m with
      | .disabled => False
      | .bestEffort => False
      | .failFast => rep ++ later ≠ []
      | .permissive => ReportedFatal (rep ++ later) := by
  have gen : ∀ (later : List ParseErr) (c : Collector) (rep : List ParseErr), c.mode = m → History lo hi c rep →
      (later.foldl Collector.addError c).mode = m ∧ History lo hi (later.foldl Collector.addError c) (rep ++ later) := by
    intro later
    induction later with
    | nil => intro c rep hm h; exact ⟨hm, by simpa using h⟩
    | cons e t ih =>
      intro c rep hm h
      have := ih (c.addError e) (rep ++ [e]) (by unfold Collector.addError; dsimp only; split_ifs <;> simp_all) (.add e h)
      simpa using this
  obtain ⟨hm, hh⟩ := gen later (c.setMode m) rep rfl (.setMode m h)
  rw [C41_stop hlo hh, hm]
  cases m <;> rfl

/-- `a` is somewhere directly followed by `b`. -/
def Spec.Adjacent (a b : UInt8) (buf : List UInt8) : Prop := ∃ i : Nat, buf[i]? = some a ∧ buf[i + 1]? = some b

theorem escapePairs_pos (q e : UInt8) (buf : List UInt8) :
    (0 < (escapePairs q e buf).1 ↔ e ≠ q ∧ Spec.Adjacent e q buf) ∧ (0 < (escapePairs q e buf).2 ↔ Spec.Adjacent q q buf) := by
  have cons : ∀ (a b c c' : UInt8) (rest : List UInt8), Spec.Adjacent a b (c :: c' :: rest) ↔ (c = a ∧ c' = b) ∨ Spec.Adjacent a b (c' :: rest) := by
    intro a b c c' rest
    constructor
    · rintro ⟨i, h1, h2⟩
      rcases i with _ | i
      · left; simpa using And.intro h1 h2
      · right; exact ⟨i, by simpa using h1, by simpa using h2⟩
    · rintro (⟨rfl, rfl⟩ | ⟨i, h1, h2⟩)
      · exact ⟨0, rfl, rfl⟩
      · exact ⟨i + 1, by simpa using h1, by simpa using h2⟩
  fun_induction escapePairs q e buf with
  | case1 c c' rest r ih =>
    rw [cons, cons]
    obtain ⟨ih1, ih2⟩ := ih
    constructor
    · by_cases h : (e != q && c == e && c' == q) = true
      · simp only [Bool.and_eq_true, bne_iff_ne, beq_iff_eq] at h
        simp [h]
      · rw [if_neg h, Nat.zero_add, ih1]
        simp only [Bool.and_eq_true, bne_iff_ne, beq_iff_eq] at h
        tauto
    · by_cases h : (c == q && c' == q) = true
      · simp only [Bool.and_eq_true, beq_iff_eq] at h
        simp [h]
      · rw [if_neg h, Nat.zero_add, ih2]
        simp only [Bool.and_eq_true, beq_iff_eq] at h
        tauto
  | case2 buf hb =>
    have : ∀ a b, ¬ Spec.Adjacent a b buf := by
      rintro a b ⟨i, h1, h2⟩
      match buf, hb with
      | [], _ => simp at h1
      | [x], _ => simp at h2
      | x :: y :: t, hb => exact hb _ _ _ rfl
    simp [this]

/-- C46: evidence for an escape character counts only if it stands before a quote somewhere and no quote is doubled;
evidence for doubling only if a quote is doubled and none is escaped. -/
theorem C46_escape_evidence (q e : UInt8) (buf : List UInt8) :
    (0 < escapeSignal q e buf ↔ (e ≠ q ∧ Spec.Adjacent e q buf) ∧ ¬ Spec.Adjacent q q buf) ∧
    (escapeSignal q e buf < 0 ↔ Spec.Adjacent q q buf ∧ ¬ (e ≠ q ∧ Spec.Adjacent e q buf)) := by
  obtain ⟨h1, h2⟩ := escapePairs_pos q e buf
  rw [← h1, ← h2]
  unfold escapeSignal
  dsimp only
  generalize (escapePairs q e buf).1 = a
  generalize (escapePairs q e buf).2 = b
  by_cases ha : 0 < a <;> by_cases hb : 0 < b <;> constructor <;> split_ifs <;> omega

/-- `\"` twice and no doubled quote; with one doubled quote the evidence is void. -/
example : escapeSignal 34 92 [97, 92, 34, 98, 92, 34] = 2 ∧ escapeSignal 34 92 [97, 92, 34, 34] = 0 ∧ escapeSignal 34 34 [34, 34] = -1 := by decide +kernel

/-- C57 with the reports spelled out: the empty header is fatal; the warning for a repeated name carries the number of its column. -/
theorem C57_header_errors_explicit (cfg : InferCfg) (hh : cfg.hasHeader = true) (hM : ReadSane cfg.marks) (sampleRows : Nat) (mode : ErrMode)
    (maxErrors : Nat) (hdr : WRow) (rows : List WRow) (hne : hdr.fields ≠ []) (hwf : ∀ f ∈ hdr.fields, f.WF cfg.marks) (hr : rows ≠ [])
    (names : List (List UInt8)) (hnames : names = hdr.fields.map (·.columnName)) :
    (openData cfg sampleRows (ReaderState.new mode maxErrors) (renderFile cfg.marks (hdr :: rows))).2.collector.errors =
      if mode = .disabled then [] else
      ((if names = [[]] then [(⟨.fatal, 0, 0⟩ : ParseErr)] else []) ++ (repeated names).map fun col => (⟨.warning, 0, col⟩ : ParseErr)).take maxErrors :=
  (C57_header_errors cfg hh hM sampleRows mode maxErrors hdr rows hne hwf hr names hnames).2.2

/-- Third column named like the first. -/
example : repeated [[97], [98], [97]] = [3] := by decide +kernel

end Vroom
