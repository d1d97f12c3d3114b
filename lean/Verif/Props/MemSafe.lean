import Verif.Lemmas.MemRead3
import Verif.Props.Reader
/-
C80: reading stays inside the data.
-/
namespace Vroom
open Spec Mem

/-! Throughout, `m` is the memory the data pointer points to, and `size` the size the reader was given.  A result `some x` says that every load
was inside `m`; that `x` is the list model's result for `m.take size` says that nothing past `size` had any influence. -/

/-- **C80** Looking for a row end, counting rows and analysing a chunk load only bytes of the data, for every content, start and quote character. -/
theorem C80_scan {t : Target} {cpu : Cpu} (ht : t.Is cpu) {m : List UInt8} {size : Nat} (hs : size ≤ m.length) (q : UInt8) :
    (∀ start, findRowEndM t m size q start = some (findRowEnd cpu q (m.take size) start) ∧ findRowEnd cpu q (m.take size) start ≤ size) ∧
    countRowsM t m size q = some (countRows cpu q (m.take size)) ∧
    (∀ b, analyzeChunkM t m size q b = some (analyzeChunkSimd cpu q b (m.take size))) ∧
    analyzeDualM t m size q = some (analyzeDual cpu q (m.take size)) := by
  have hl : (m.take size).length = size := by simp; omega
  have hch : ∀ b, analyzeChunkM t m size q b = some (analyzeChunkSimd cpu q b (m.take size)) := by
    intro b
    unfold analyzeChunkM analyzeChunkSimd
    rw [hl]
    dsimp only
    by_cases h : size = 0
    · rw [if_pos h, if_pos h]
    · rw [if_neg h, if_neg h]
      have := analyzeLoop_eq t cpu ht.lanes ht.pf hs q _ 0 0 (if b = true then BitVec.allOnes 64 else 0#64) 0 (Nat.le_refl _)
      rw [List.drop_zero] at this
      rw [this]; rfl
  refine ⟨fun start => ⟨Mem.findRowEnd_eq ht hs q start, ?_⟩, ?_, hch, analyzeDual_eq ht hs q⟩
  · have := findRowEnd_le cpu q (m.take size) start
    omega
  · unfold countRowsM countRows
    rw [hl]
    by_cases h : size ≥ 64
    · rw [if_pos h, if_pos h, hch]; rfl
    · rw [if_neg h, if_neg h]
      have := countScalar_eq hs q _ 0 0 false 0 (Nat.le_refl _)
      rwa [List.drop_zero] at this

/-- **C80** Opening loads only bytes of the data, for every content and all options, and the outcome is the one of C13 and C16 for these bytes. -/
theorem C80_open {t : Target} {cfg : InferCfg} (ht : t.Is cfg.cpu) (sampleRows : Nat) (st : ReaderState) {m : List UInt8} {size : Nat} (hs : size ≤ m.length) :
    openDataM t cfg sampleRows st m size = some (openData cfg sampleRows st (m.take size)) :=
  openData_eq ht sampleRows st hs

/-- **C80** The serial reader loads only bytes of the data, for every content, separator, quote and number of columns. -/
theorem C80_serial {t : Target} {cfg : ReadCfg} (ht : t.Is cfg.cpu) (n : Nat) {m : List UInt8} {size start : Nat} (hs : size ≤ m.length) (hst : start ≤ size) :
    ∃ res, readSerialM t cfg n m size start = some res ∧ readSerial cfg n ((m.take size).drop start) = some res := by
  obtain ⟨res, h, _⟩ := C08_serial_rectangular cfg n ((m.take size).drop start)
  exact ⟨res, readSerial_eq ht n hs hst h, h⟩

/-- **C80** So does the parsing of one chunk, whichever state it starts in. -/
theorem C80_chunk {t : Target} {cfg : ReadCfg} (ht : t.Is cfg.cpu) (n : Nat) (inside : Bool) {p : List UInt8} {size : Nat} (hs : size ≤ p.length) :
    ∃ r, parseChunkM t cfg n inside p size = some r ∧ parseChunk cfg n inside (p.take size) = some r := by
  obtain ⟨cols, rows, h, _⟩ := C08_chunk_rectangular cfg n inside (p.take size)
  exact ⟨_, parseChunk_eq ht n inside hs h, h⟩

theorem tiles_in {start size : Nat} {rs : List (Nat × Nat)} (h : Spec.Tiles start size rs) : ∀ r ∈ rs, r.1 ≤ r.2 ∧ r.2 ≤ size := by
  induction rs generalizing start with
  | nil => simp
  | cons r rs ih =>
    intro x hx
    rcases List.mem_cons.1 hx with rfl | hx
    · exact ⟨Nat.le_of_lt h.2.1, h.2.2.1⟩
    · exact ih h.2.2.2 x hx

/-- **C80** So does the parallel reader, for every chunk size and threshold. -/
theorem C80_read_all {t : Target} {cfg : ReadCfg} (ht : t.Is cfg.cpu) (n threshold chunkSize : Nat)
    (hc : 0 < chunkSize) {m : List UInt8} {size start : Nat} (hs : size ≤ m.length) (hst : start ≤ size) :
    ∃ res, readAllM t cfg n threshold chunkSize m size start = some res ∧ readAll cfg n threshold chunkSize (m.take size) start = some res := by
  have hl : (m.take size).length = size := by simp; omega
  obtain ⟨res, h, _⟩ := C08_read_rectangular cfg n threshold chunkSize hc (m.take size) start (by omega)
  refine ⟨res, ?_, h⟩
  obtain ⟨rs, h1, h2⟩ := C06_ranges_tile cfg.cpu cfg.quote (m.take size) start chunkSize (by omega) hc
  unfold readAll at h
  unfold readAllM
  rw [hl] at h
  by_cases hn : n = 0
  · rw [if_pos hn] at h ⊢; exact h
  · rw [if_neg hn] at h ⊢
    by_cases hth : size - start < threshold
    · rw [if_pos hth] at h ⊢
      exact readSerial_eq ht n hs hst h
    · rw [if_neg hth] at h ⊢
      have hf : findRowEndM t m size cfg.quote = fun s => some (findRowEnd cfg.cpu cfg.quote (m.take size) s) := by
        funext s; exact Mem.findRowEnd_eq ht hs cfg.quote s
      have h1' := h1
      unfold chunkRanges at h1'
      rw [hl] at h1' h2
      rw [hf, ranges_eq, h1', Option.bind_some]
      rw [h1] at h
      simp only [Option.bind_eq_bind, Option.bind_some] at h
      by_cases hle : rs.length ≤ 1
      · rw [if_pos hle] at h ⊢
        exact readSerial_eq ht n hs hst h
      · rw [if_neg hle] at h ⊢
        exact readChunks_eq ht n hs rs (tiles_in h2) h

theorem openData_start (ic : InferCfg) (sampleRows : Nat) (st : ReaderState) (file : List UInt8) :
    (openData ic sampleRows st file).1 = none → (openData ic sampleRows st file).2.dataStart ≤ file.length := by
  have hle := findRowEnd_le ic.cpu ic.quote file 0
  unfold openData
  dsimp only
  split_ifs
  · intro h; cases h
  · intro h; exact hle
  · intro h; exact hle
  · intro h; exact Nat.zero_le _

/-- **C80** A whole session with the code's own constants: whatever bytes are opened, with whatever reader, if opening succeeds, then reading with
that reader's options finishes and loads only bytes of the data. -/
theorem C80_session {t : Target} {ic : InferCfg} {cfg : ReadCfg} (hi : t.Is ic.cpu) (ht : t.Is cfg.cpu)
    (sampleRows nThreads : Nat) (st : ReaderState) {m : List UInt8} {size : Nat} (hs : size ≤ m.length) :
    ∃ e st', openDataM t ic sampleRows st m size = some (e, st') ∧ (e = none →
      ∃ res, readAllM t cfg st'.schema.length (1024 * 1024) (calculateChunkSize (size - st'.dataStart) st'.schema.length nThreads) m size st'.dataStart = some res ∧
        readAll' cfg st'.schema.length nThreads (m.take size) st'.dataStart = some res) := by
  have hl : (m.take size).length = size := by simp; omega
  have ho := openData_eq hi sampleRows st hs
  have hst := openData_start ic sampleRows st (m.take size)
  generalize openData ic sampleRows st (m.take size) = x at ho hst
  obtain ⟨e, st'⟩ := x
  refine ⟨e, st', ho, ?_⟩
  intro he
  replace hst := hst he
  rw [hl] at hst
  dsimp only at hst
  have hpos : 0 < calculateChunkSize (size - st'.dataStart) st'.schema.length nThreads := by
    unfold calculateChunkSize minChunkSize maxChunkSize
    dsimp only
    split_ifs <;> omega
  obtain ⟨res, h1, h2⟩ := C80_read_all ht _ (1024 * 1024) _ hpos hs hst
  refine ⟨res, h1, ?_⟩
  unfold readAll'
  rw [hl]
  exact h2

/-- **C80** Bytes after the data, for example what else is on the last mapped page, make no difference. -/
theorem C80_padding {t : Target} {cfg : ReadCfg} (ht : t.Is cfg.cpu) (n : Nat) {m m' : List UInt8} {size start : Nat} (hs : size ≤ m.length) (hs' : size ≤ m'.length)
    (hst : start ≤ size) (he : m.take size = m'.take size) : readSerialM t cfg n m size start = readSerialM t cfg n m' size start := by
  obtain ⟨r, h1, h2⟩ := C80_serial ht n (cfg := cfg) hs hst
  obtain ⟨r', h1', h2'⟩ := C80_serial ht n (cfg := cfg) hs' hst
  rw [he, h2'] at h2
  rw [h1, h1', h2]

/-- A target with 32 lanes (AVX2). -/
def target32 : Target := ⟨32, .clmul, by decide⟩

/-- A target with 128 lanes (1024-bit SVE or RVV vectors). -/
def target128 : Target := ⟨128, .clmul, by decide⟩

/-- A file of 70 bytes is read inside an allocation of exactly 70 bytes. -/
example : (readSerialM target32 cfg0 2 (List.replicate 66 97 ++ [44, 98, 10, 99]) 70 0).isSome = true ∧ target32.Is cfg0.cpu :=
  ⟨by decide +kernel, ⟨rfl, rfl⟩⟩

/-- **C80 finding** The hypothesis on the vector width is needed: the loops step by the number of lanes but load the whole vector, so with vectors
of more than 64 bytes looking for the header of a 64-byte file reads beyond its end. -/
theorem C80_wide_vectors_refuted : ∃ (t : Target) (m : List UInt8), findRowEndM t m m.length 34 0 = none ∧ readSerialM t cfg0 1 (m ++ [97]) (m ++ [97]).length 0 = none :=
  ⟨target128, List.replicate 64 97, by decide +kernel, by decide +kernel⟩

end Vroom
