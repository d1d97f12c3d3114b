import Verif.Lemmas.RowScan
import Verif.Lemmas.SplitFields
import Verif.Lemmas.Atoi
import Verif.Model.SplitLine
import Verif.Model.FindChunks
import Verif.Model.CliArgs
/-
The parts of the model that take the CPU as a parameter do not depend on it.
-/
namespace Vroom

theorem blockMask_cpu (N M : Nat) (hN : N ∣ 64) (hM : M ∣ 64) (c : UInt8) (blk : Bytes) : blockMask N c blk = blockMask M c blk := by
  apply BitVec.eq_of_getLsbD_eq
  intro i hi
  rw [blockMask_bit N hN c blk i hi, blockMask_bit M hM c blk i hi]

theorem pf_cpu (p r : PrefixImpl) : p.run = r.run := by
  funext x
  apply BitVec.eq_of_getLsbD_eq
  intro i hi
  rw [pf_par p x i hi, pf_par r x i hi]

section
variable (c c' : Cpu)

theorem mask_cpu : blockMask c.lanes = blockMask c'.lanes := by
  funext x y; exact blockMask_cpu _ _ c.dvd c'.dvd x y

theorem scanQuoted_cpu (D : Dial) (cache : U64) (b : Bool) (t : Nat) (rest : Bytes) :
    scanQuoted c D cache b t rest = scanQuoted c' D cache b t rest := by
  fun_induction scanQuoted c D cache b t rest with
  | case1 notIn total rest h blk sepM eolM qM eM nq nq' eM' hne pos =>
    rw [scanQuoted.eq_def c', if_pos h]; simp only [← mask_cpu c c', ← pf_cpu c.pf c'.pf]
    exact (if_pos hne).symm
  | case2 notIn total rest h blk sepM eolM qM eM nq nq' notIn' eM' hne ih =>
    rw [scanQuoted.eq_def c' _ _ notIn total, if_pos h]; simp only [← mask_cpu c c', ← pf_cpu c.pf c'.pf]
    rw [ih]; exact (if_neg hne).symm
  | case3 notIn total rest h => rw [scanQuoted.eq_def c', if_neg h]

theorem scanUnquoted_cpu (D : Dial) (cache : U64) (t : Nat) (rest : Bytes) :
    scanUnquoted c D cache t rest = scanUnquoted c' D cache t rest := by
  fun_induction scanUnquoted c D cache t rest with
  | case1 total rest h blk eM hne pos =>
    rw [scanUnquoted.eq_def c', if_pos h]; simp only [← mask_cpu c c']
    exact (if_pos hne).symm
  | case2 total rest h blk eM hne ih =>
    rw [scanUnquoted.eq_def c' _ _ total, if_pos h]; simp only [← mask_cpu c c']
    rw [ih]; exact (if_neg hne).symm
  | case3 total rest h => rw [scanUnquoted.eq_def c', if_neg h]

theorem SF.next_cpu (D : Dial) (s : SF) (stale : Bool) : s.next c D stale = s.next c' D stale := by
  unfold SF.next; simp only [scanQuoted_cpu c c', scanUnquoted_cpu c c']

theorem SF.collect_cpu (D : Dial) (fuel : Nat) (s : SF) (stale : Bool) : SF.collect c D fuel s stale = SF.collect c' D fuel s stale := by
  induction fuel generalizing s stale with
  | zero => rfl
  | succ n ih => simp only [SF.collect, SF.next_cpu c c', ih]

/-- On a row that is not empty the uninitialised flag is overwritten before it is read. -/
theorem splitRow_free (D : Dial) (junk junk' : Bool) (data : Bytes) (hd : data ≠ []) : splitRow c D junk data = splitRow c' D junk' data := by
  unfold splitRow
  rw [SF.collect_cpu c c']
  show SF.collect c' D (data.length + 1 + 1) _ _ = SF.collect c' D (data.length + 1 + 1) _ _
  simp only [SF.collect]
  have : SF.next c' D { rest := data } junk = SF.next c' D { rest := data } junk' := by
    unfold SF.next
    cases data with
    | nil => exact absurd rfl hd
    | cons => rfl
  rw [this]

theorem analyzeLoop_cpu (q : UInt8) (rows last : Nat) (qs : U64) (off : Nat) (rest : Bytes) :
    analyzeLoop c q rows last qs off rest = analyzeLoop c' q rows last qs off rest := by
  fun_induction analyzeLoop c q rows last qs off rest with
  | case1 rows last qs off rest h blk r eol last' ih =>
    rw [analyzeLoop.eq_def c', if_pos h]; simp only [← mask_cpu c c', ← pf_cpu c.pf c'.pf]
    exact ih
  | case2 rows last qs off rest h => rw [analyzeLoop.eq_def c', if_neg h]

theorem countRows_cpu (q : UInt8) (data : Bytes) : countRows c q data = countRows c' q data := by
  unfold countRows countRowsSimd analyzeChunkSimd; simp only [analyzeLoop_cpu c c']

theorem analyzeChunkSimd_cpu (q : UInt8) (b : Bool) (data : Bytes) : analyzeChunkSimd c q b data = analyzeChunkSimd c' q b data := by
  unfold analyzeChunkSimd; simp only [analyzeLoop_cpu c c']

theorem dualLoop_cpu (q : UInt8) (s : DualStats) (mask : U64) (off : Nat) (rest : Bytes) :
    dualLoop c q s mask off rest = dualLoop c' q s mask off rest := by
  induction hn : rest.length using Nat.strongRecOn generalizing rest s mask off with
  | _ n ih =>
    rw [dualLoop.eq_def c, dualLoop.eq_def c']
    by_cases h : 64 ≤ rest.length
    · rw [if_pos h, if_pos h]
      simp only [mask_cpu c c', pf_cpu c.pf c'.pf]
      exact ih _ (by simp; omega) _ _ _ _ rfl
    · rw [if_neg h, if_neg h]

theorem analyzeDual_cpu (q : UInt8) (data : Bytes) : analyzeDual c q data = analyzeDual c' q data := by
  unfold analyzeDual; simp only [dualLoop_cpu c c']

theorem rowEndLoop_cpu (q : UInt8) (qs : U64) (off : Nat) (rest : Bytes) :
    rowEndLoop c q qs off rest = rowEndLoop c' q qs off rest := by
  induction hn : rest.length using Nat.strongRecOn generalizing rest qs off with
  | _ n ih =>
    rw [rowEndLoop.eq_def c, rowEndLoop.eq_def c']
    by_cases h : 64 ≤ rest.length
    · rw [if_pos h, if_pos h]
      simp only [mask_cpu c c', pf_cpu c.pf c'.pf]
      rw [ih _ (by simp; omega) _ _ _ rfl]
    · rw [if_neg h, if_neg h]

theorem rowEndPrefix_cpu (q : UInt8) (al : Nat) (inq : Bool) (off : Nat) (rest : Bytes) :
    rowEndPrefix c q al inq off rest = rowEndPrefix c' q al inq off rest := by
  fun_induction rowEndPrefix c q al inq off rest <;> rw [rowEndPrefix.eq_def c'] <;> simp_all [rowEndLoop_cpu c c']
  intro; omega

theorem findRowEnd_cpu (q : UInt8) (data : Bytes) (s : Nat) : findRowEnd c q data s = findRowEnd c' q data s := by
  unfold findRowEnd findRowEndSimd; simp only [rowEndPrefix_cpu c c']

theorem splitSimdGo_cpu (sep q : UInt8) (data : Bytes) (prev : U64) (pos fs : Nat) (acc : List Bytes) :
    splitSimdGo c sep q data prev pos fs acc = splitSimdGo c' sep q data prev pos fs acc := by
  have hb : splitBlockMask c = splitBlockMask c' := by
    funext a b d e; unfold splitBlockMask; simp only [mask_cpu c c', pf_cpu c.pf c'.pf]
  induction hn : data.length - pos using Nat.strongRecOn generalizing prev pos fs acc with
  | _ n ih =>
    rw [splitSimdGo.eq_def c, splitSimdGo.eq_def c']
    by_cases h : pos + 64 ≤ data.length
    · rw [if_pos h, if_pos h]
      simp only [hb]
      split
      · rfl
      · exact ih _ (by omega) _ _ _ _ rfl
    · rw [if_neg h, if_neg h]

theorem splitFieldsApi_cpu (sep q : UInt8) (data : Bytes) : splitFieldsApi c sep q data = splitFieldsApi c' sep q data := by
  unfold splitFieldsApi splitSimd; simp only [splitSimdGo_cpu c c']

theorem chunkRanges_cpu (q : UInt8) (data : Bytes) (ds cs : Nat) : chunkRanges c q data ds cs = chunkRanges c' q data ds cs := by
  unfold chunkRanges; rw [show findRowEnd c q data = findRowEnd c' q data from funext (findRowEnd_cpu c c' q data)]

theorem chunkRowCount_cpu (q : UInt8) (u : Bytes) (f pos rows : Nat) : chunkRowCount c q u f pos rows = chunkRowCount c' q u f pos rows := by
  induction f generalizing pos rows with
  | zero => rfl
  | succ n ih => simp only [chunkRowCount, findRowEnd_cpu c c', ih]

theorem findChunks_cpu (q : UInt8) (data : Bytes) (t : Nat) : findChunks c q data t = findChunks c' q data t := by
  have hb : ∀ r, chunkBoundary c q data r = chunkBoundary c' q data r := fun r => by
    unfold chunkBoundary; rw [chunkRowCount_cpu c c']
  have : chunkBoundaries c q data = chunkBoundaries c' q data := by
    funext rs
    induction rs with
    | nil => rfl
    | cons r rs ih => simp only [chunkBoundaries, hb, ih]
  unfold findChunks; rw [chunkRanges_cpu c c', this]

theorem analyzeAndLink_cpu (q : UInt8) (chunks : List Bytes) : analyzeAndLink c q chunks = analyzeAndLink c' q chunks := by
  unfold analyzeAndLink; rw [show analyzeDual c q = analyzeDual c' q from funext (analyzeDual_cpu c c' q)]

end

section
variable (cfg : ReadCfg) (c : Cpu) (j : Bool)

theorem parseRows_free (fuel : Nat) (cols : Cols) (rows : Nat) (rest : Bytes) :
    parseRows { cfg with cpu := c, junk := j } fuel cols rows rest = parseRows cfg fuel cols rows rest := by
  induction fuel generalizing cols rows rest with
  | zero => rfl
  | succ n ih =>
    simp only [parseRows]
    split
    · rfl
    · split
      · rfl
      · next h =>
        have hs : splitRow c cfg.dial j (skipBlank rest) = splitRow cfg.cpu cfg.dial cfg.junk (skipBlank rest) :=
          splitRow_free _ _ _ _ _ _ (by intro e; rw [e] at h; exact h rfl)
        show (match splitRow c cfg.dial j (skipBlank rest) with | none => none | some (fs, tail) => _) = _
        rw [hs]
        cases splitRow cfg.cpu cfg.dial cfg.junk (skipBlank rest) with
        | none => rfl
        | some p => exact ih _ _ _

theorem parseChunk_free (n : Nat) (b : Bool) (data : Bytes) :
    parseChunk { cfg with cpu := c, junk := j } n b data = parseChunk cfg n b data := by
  unfold parseChunk; simp only [parseRows_free]

theorem readSerial_free (n : Nat) (data : Bytes) :
    readSerial { cfg with cpu := c, junk := j } n data = readSerial cfg n data := by
  unfold readSerial; simp only [parseRows_free]

theorem readAll_free (n t cs : Nat) (file : Bytes) (ds : Nat) :
    readAll { cfg with cpu := c, junk := j } n t cs file ds = readAll cfg n t cs file ds := by
  unfold readAll readChunks
  simp only [readSerial_free, chunkRanges_cpu c cfg.cpu, analyzeAndLink_cpu c cfg.cpu, parseChunk_free]

end

section
variable (cfg : InferCfg) (c : Cpu)

theorem inferField_cpu (f : Bytes) : inferField { cfg with cpu := c } f = inferField cfg f := rfl

theorem updateTypes_cpu (types : List DataType) (fields : List Bytes) :
    updateTypes { cfg with cpu := c } types fields = updateTypes cfg types fields := rfl

theorem sampleLoop_cpu (data : Bytes) (m fuel off rows : Nat) (types : List DataType) :
    sampleLoop { cfg with cpu := c } data m fuel off rows types = sampleLoop cfg data m fuel off rows types := by
  induction fuel generalizing off rows types with
  | zero => rfl
  | succ n ih => simp only [sampleLoop, findRowEnd_cpu c cfg.cpu, updateTypes_cpu, ih]

theorem inferFromSample_cpu (data : Bytes) (n m : Nat) :
    inferFromSample { cfg with cpu := c } data n m = inferFromSample cfg data n m := by
  unfold inferFromSample; simp only [sampleLoop_cpu, findRowEnd_cpu c cfg.cpu]

theorem openData_cpu (s : Nat) (st : ReaderState) (file : Bytes) :
    openData { cfg with cpu := c } s st file = openData cfg s st file := by
  unfold openData; simp only [inferFromSample_cpu, findRowEnd_cpu c cfg.cpu]

end

theorem parseUint64_lanes (l l' : Nat) : parseUint64Simd l = parseUint64Simd l' := by
  funext p; rw [parseUint64Simd_eq, parseUint64Simd_eq]

theorem storeText_lanes (l l' : Nat) : storeText l = storeText l' := by
  funext f t v
  unfold storeText parseInt32Simd parseInt64Simd
  rw [parseUint64_lanes l l']

theorem build_lanes (l l' : Nat) : ArrowColumn.build l = ArrowColumn.build l' := by
  have h : ArrowColumn.appendCell l = ArrowColumn.appendCell l' := by
    funext f col cell
    cases cell with
    | null => rfl
    | text v => simp only [ArrowColumn.appendCell, ArrowColumn.appendText, storeText_lanes l l']
  funext f t cells
  unfold ArrowColumn.build; rw [h]

theorem typed_lanes (C : ConvCfg) (l : Nat) (r : ReadCfg) : ({ C with lanes := l, read := r } : ConvCfg).typed = C.typed := by
  funext chunks
  unfold ConvCfg.typed
  simp only [build_lanes l C.lanes]

end Vroom
