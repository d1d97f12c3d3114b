import Verif.Props.ReaderBounds
import Verif.Props.ChunkSize
/- Sizes of the chunks of columns a read delivers. -/
namespace Vroom
open Spec

theorem sum_le_of_mem {l : List Nat} {x : Nat} (h : x ∈ l) : x ≤ l.sum := by
  induction l with
  | nil => simp at h
  | cons a l ih =>
    rw [List.sum_cons]
    rcases List.mem_cons.1 h with rfl | h
    · omega
    · have := ih h; omega

/-- Sizes of one parsed chunk. -/
theorem parseChunk_sizes (cfg : ReadCfg) (n : Nat) (s : Bool) (data : Bytes) (cols : Cols) (rows : Nat)
    (h : parseChunk cfg n s data = some (cols, rows)) :
    ∃ m, m ≤ data.length ∧ ∀ col ∈ cols, col.length = m ∧ textBytes col ≤ data.length := by
  obtain ⟨cols', rows', g1, g2, g3⟩ := C60_chunk_from_text cfg n s data
  obtain ⟨cols'', rows'', k1, k2, k3⟩ := C08_chunk_rectangular cfg n s data
  rw [h, Option.some.injEq, Prod.mk.injEq] at g1 k1
  obtain ⟨rfl, rfl⟩ := g1
  obtain ⟨rfl, rfl⟩ := k1
  refine ⟨rows, g3, fun col hc => ⟨k3 col hc, ?_⟩⟩
  have hl := g2.length_le
  rw [rowMajor_length rows cols k3] at hl
  exact Nat.le_trans (sum_le_of_mem (List.mem_map.2 ⟨col, hc, rfl⟩)) hl

theorem readSerial_sizes (cfg : ReadCfg) (n : Nat) (data : Bytes) (res : ReadResult) (h : readSerial cfg n data = some res) :
    res.chunks.length ≤ 1 ∧ ∀ c ∈ res.chunks, ∃ m, m ≤ data.length ∧ ∀ col ∈ c, col.length = m ∧ textBytes col ≤ data.length := by
  unfold readSerial at h
  by_cases hn : n = 0
  · rw [if_pos hn, Option.some.injEq] at h; subst h; exact ⟨by simp, by simp⟩
  · rw [if_neg hn] at h
    cases hp : parseRows cfg (data.length + 1) (List.replicate n []) 0 data with
    | none => rw [hp] at h; simp at h
    | some r =>
      rw [hp, Option.map_some, Option.some.injEq] at h
      subst h
      refine ⟨by simp, ?_⟩
      intro c hc
      rw [List.mem_singleton] at hc
      subst hc
      by_cases hd : data.length = 0
      · rw [List.length_eq_zero_iff] at hd
        subst hd
        simp only [List.length_nil, Nat.zero_add, parseRows, if_true, Option.some.injEq] at hp
        subst hp
        refine ⟨0, Nat.le_refl _, ?_⟩
        intro col hcol
        rw [List.mem_replicate] at hcol
        rw [hcol.2]; exact ⟨rfl, by simp [textBytes]⟩
      · refine parseChunk_sizes cfg n false data r.1 r.2 ?_
        unfold parseChunk
        dsimp only
        rw [if_neg (by omega)]
        exact hp

/-- Sizes of the chunks of a read: if the ranges (when the file is split at all) are at most `B` bytes and a file that
is not split neither, then no chunk has more rows or more text per column than `B`. -/
theorem readAll_sizes (cfg : ReadCfg) (n threshold chunkSize : Nat)
    (hc : 0 < chunkSize) (file : List UInt8) (start : Nat) (hs : start ≤ file.length) (B : Nat) (ht : threshold ≤ B + 1)
    (hB : threshold ≤ file.length - start → ∀ rs, chunkRanges cfg.cpu cfg.quote file start chunkSize = some rs → ∀ r ∈ rs, r.2 - r.1 ≤ B)
    (res : ReadResult) (h : readAll cfg n threshold chunkSize file start = some res) :
    chunkSize * res.chunks.length ≤ (file.length - start) + chunkSize ∧
    ∀ c ∈ res.chunks, ∃ m, m ≤ B ∧ ∀ col ∈ c, col.length = m ∧ textBytes col ≤ B := by
  have serial : (file.drop start).length ≤ B → readSerial cfg n (file.drop start) = some res →
      chunkSize * res.chunks.length ≤ (file.length - start) + chunkSize ∧
      ∀ c ∈ res.chunks, ∃ m, m ≤ B ∧ ∀ col ∈ c, col.length = m ∧ textBytes col ≤ B := by
    intro hle hser
    obtain ⟨h1, h2⟩ := readSerial_sizes cfg n _ res hser
    refine ⟨Nat.le_trans (Nat.mul_le_mul_left chunkSize h1) (by omega), ?_⟩
    intro c hcm
    obtain ⟨m, e1, e2⟩ := h2 c hcm
    exact ⟨m, by omega, fun col hcol => ⟨(e2 col hcol).1, by have := (e2 col hcol).2; omega⟩⟩
  unfold readAll at h
  by_cases hn : n = 0
  · rw [if_pos hn, Option.some.injEq] at h; subst h; exact ⟨by simp, by simp⟩
  · rw [if_neg hn] at h
    by_cases hlt : file.length - start < threshold
    · rw [if_pos hlt] at h
      exact serial (by rw [List.length_drop]; omega) h
    · rw [if_neg hlt] at h
      obtain ⟨rs, h1, hshort, hcount⟩ := C63_chunks_not_short cfg file start chunkSize hs hc
      obtain ⟨rs', h1', h2⟩ := C06_ranges_tile cfg.cpu cfg.quote file start chunkSize hs hc
      rw [h1, Option.some.injEq] at h1'
      subst h1'
      have hB' := hB (by omega) rs h1
      simp only [h1, Option.bind_eq_bind, Option.bind_some] at h
      by_cases hlen : rs.length ≤ 1
      · rw [if_pos hlen] at h
        refine serial ?_ h
        rw [List.length_drop]
        cases rs with
        | nil => have : start = file.length := h2
                 omega
        | cons r rs =>
          obtain ⟨t1, t2, t3, t4⟩ := h2
          cases rs with
          | nil =>
            have : r.2 = file.length := t4
            have := hB' r (by simp)
            omega
          | cons x xs => simp at hlen
      · rw [if_neg hlen] at h
        unfold readChunks at h
        dsimp only at h
        generalize (analyzeAndLink cfg.cpu cfg.quote (rs.map (slice file))) = link at h
        have key : ∀ (chunks : List Bytes) (sts : List Bool) ps, (∀ c ∈ chunks, c.length ≤ B) →
            (chunks.zip sts).mapM (fun p => parseChunk cfg n p.2 p.1) = some ps →
            ps.length ≤ chunks.length ∧
            ∀ c ∈ ps.map Prod.fst, ∃ m, m ≤ B ∧ ∀ col ∈ c, col.length = m ∧ textBytes col ≤ B := by
          intro chunks
          induction chunks with
          | nil => intro sts ps _ hps; simp at hps; subst hps; exact ⟨by simp, by simp⟩
          | cons c cs ih =>
            intro sts ps hle hps
            cases sts with
            | nil => simp at hps; subst hps; exact ⟨by simp, by simp⟩
            | cons s ss =>
              rw [List.zip_cons_cons, List.mapM_cons] at hps
              cases h3 : parseChunk cfg n s c with
              | none => simp [h3] at hps
              | some r =>
                cases h4 : (cs.zip ss).mapM (fun p => parseChunk cfg n p.2 p.1) with
                | none => simp [h3, h4] at hps
                | some l =>
                  simp only [h3, h4, Option.bind_eq_bind, Option.bind_some, Option.pure_def, Option.some.injEq] at hps
                  subst hps
                  obtain ⟨i1, i2⟩ := ih ss l (fun x hx => hle x (List.mem_cons_of_mem _ hx)) h4
                  refine ⟨by simp only [List.length_cons]; omega, ?_⟩
                  intro x hx
                  rw [List.map_cons, List.mem_cons] at hx
                  rcases hx with rfl | hx
                  · obtain ⟨m, e1, e2⟩ := parseChunk_sizes cfg n s c r.1 r.2 h3
                    have := hle c (by simp)
                    exact ⟨m, by omega, fun col hcol => ⟨(e2 col hcol).1, by have := (e2 col hcol).2; omega⟩⟩
                  · exact i2 x hx
        cases h3 : ((rs.map (slice file)).zip link.1).mapM (fun p => parseChunk cfg n p.2 p.1) with
        | none => rw [h3] at h; simp at h
        | some ps =>
          rw [h3] at h
          have h := Option.some.inj h
          subst h
          obtain ⟨i1, i2⟩ := key _ _ _ (by
            intro c hcm
            obtain ⟨r, hr, rfl⟩ := List.mem_map.1 hcm
            have := hB' r hr
            unfold slice
            rw [List.length_take]
            omega) h3
          refine ⟨?_, i2⟩
          rw [List.length_map] at i1 ⊢
          exact Nat.le_trans (Nat.mul_le_mul_left chunkSize i1) hcount

end Vroom
