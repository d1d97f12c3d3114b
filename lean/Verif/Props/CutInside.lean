import Verif.Lemmas.CutInside
import Verif.Props.ClearPar
/-
C07: exactly when a parallel read of a clear file delivers the table written, which is what the serial read delivers.
-/
namespace Vroom
open Spec

/-- **C07**, exactly: a clear file at or above the parallel threshold, whose rows have at most `n` fields and whose null spellings do not start with a quote, is delivered as the table
written **exactly when** no chunk starts inside quotes. -/
theorem C07_clear_iff (cfg : ReadCfg) (hM : ReadSane cfg.dial) (n threshold chunkSize : Nat) (hn : n ≠ 0) (hc : 0 < chunkSize) (file : List UInt8) (start : Nat) (hs : start ≤ file.length)
    (hbig : threshold ≤ file.length - start) (rows : List WRow) (hne : ∀ r ∈ rows, r.fields ≠ [] ∧ r.fields.length ≤ n)
    (hwf : ∀ r ∈ rows, ∀ f ∈ r.fields, f.WF cfg.dial) (hnull : ∀ v ∈ commaPieces cfg.nullValues, v.head? ≠ some cfg.quote) (hclear : FileClear cfg.dial rows)
    (hfile : file.drop start = renderFile cfg.dial rows) :
    (∃ par, readAll cfg n threshold chunkSize file start = some par ∧
      (wholeCols n par).map (fun col => col.map Cell.toOption) = tableOf cfg.quote (commaPieces cfg.nullValues) n rows) ↔ CutsOutside cfg file start chunkSize := by
  constructor
  · rintro ⟨par, h1, h2⟩
    obtain ⟨rs, g1, g2⟩ := C06_ranges_tile cfg.cpu cfg.quote file start chunkSize hs hc
    unfold readAll at h1
    rw [if_neg hn, if_neg (by omega)] at h1
    simp only [g1, Option.bind_eq_bind, Option.bind_some] at h1
    intro rs' hrs'
    rw [g1, Option.some.injEq] at hrs'
    subst hrs'
    split at h1
    · next hlen =>
      intro r hr
      match rs, hlen, g2, hr with
      | [x], _, g2, hr =>
        rw [List.mem_singleton.1 hr, show x.1 = start from g2.1]
        simp
    · unfold readChunks at h1
      dsimp only at h1
      have hq : cfg.quote ≠ 10 ∧ cfg.quote ≠ 13 := readSane_quote hM
      have hst : (analyzeAndLink cfg.cpu cfg.quote (rs.map (slice file))).1 = Spec.chunkStates cfg.quote false (rs.map (slice file)) := by
        unfold analyzeAndLink
        dsimp only
        rw [linkStates_spec cfg.cpu cfg.quote hq]
      rw [hst] at h1
      cases hps : ((rs.map (slice file)).zip (Spec.chunkStates cfg.quote false (rs.map (slice file)))).mapM (fun p => parseChunk cfg n p.2 p.1) with
      | none => rw [hps] at h1; simp at h1
      | some ps =>
        rw [hps] at h1
        simp only [Option.bind_eq_bind, Option.bind_some, Option.some.injEq] at h1
        subst h1
        refine inside_ranges cfg hM hnull n hn file start rows hne hwf hclear hfile rs g2 (chunkRangesGo_ends _ _ _ _ _ _ g1) ps hps ?_
        intro j hj
        have := congrArg (fun l => l[j]?) h2
        simp only [wholeCols, tableOf, List.map_map, List.getElem?_map, List.getElem?_range hj, Option.map_some, Option.some.injEq, Function.comp, List.map_flatten] at this
        exact this
  · intro hcut
    obtain ⟨ser, par, -, h2, -, -, -, h6⟩ := C07_clear_partial cfg hM n threshold chunkSize hc file start hs rows (fun r hr => (hne r hr).1) hwf hclear hfile hn (fun _ => hcut)
    exact ⟨par, h2, h6⟩

/-- **C07**, as a comparison of the two reads of such a file: the parallel read delivers the columns of the serial read **exactly when** no chunk starts inside quotes. -/
theorem C07_parallel_iff (cfg : ReadCfg) (hM : ReadSane cfg.dial) (n threshold chunkSize : Nat) (hn : n ≠ 0) (hc : 0 < chunkSize) (file : List UInt8) (start : Nat) (hs : start ≤ file.length)
    (hbig : threshold ≤ file.length - start) (rows : List WRow) (hne : ∀ r ∈ rows, r.fields ≠ [] ∧ r.fields.length ≤ n)
    (hwf : ∀ r ∈ rows, ∀ f ∈ r.fields, f.WF cfg.dial) (hnull : ∀ v ∈ commaPieces cfg.nullValues, v.head? ≠ some cfg.quote) (hclear : FileClear cfg.dial rows)
    (hfile : file.drop start = renderFile cfg.dial rows) :
    (∃ ser par, readSerial cfg n (file.drop start) = some ser ∧ readAll cfg n threshold chunkSize file start = some par ∧ wholeCols n par = wholeCols n ser) ↔
      CutsOutside cfg file start chunkSize := by
  rw [← C07_clear_iff cfg hM n threshold chunkSize hn hc file start hs hbig rows hne hwf hnull hclear hfile]
  obtain ⟨ser, s1, s2, s3⟩ := C13_serial_clear cfg hM n hn rows (fun r hr => (hne r hr).1) hwf hclear
  rw [← hfile] at s1
  constructor
  · rintro ⟨ser', par, h1, h2, h3⟩
    rw [s1, Option.some.injEq] at h1
    subst h1
    exact ⟨par, h2, by rw [h3]; exact s2⟩
  · rintro ⟨par, h1, h2⟩
    exact ⟨ser, par, s1, h1, (List.map_injective_iff.2 (List.map_injective_iff.2 toOption_inj)) (h2.trans s2.symm)⟩

/-- Both sides occur: the same five clear rows, with a line end inside quotes, cut outside quotes by one chunk size and inside by another. -/
def cutRows : List WRow :=
  [⟨[.plain [97], .plain [98]], false⟩, ⟨[.quoted [120, 10, 121, 34, 10, 122], .plain [99]], true⟩, ⟨[.plain [100]], false⟩, ⟨[.plain []], true⟩, ⟨[.quoted [44], .quoted []], false⟩]

theorem cutRows_wf : ∀ r ∈ cutRows, r.WF cfg0.dial := by
  intro r hr
  simp only [cutRows, List.mem_cons, List.not_mem_nil, or_false] at hr
  rcases hr with rfl | rfl | rfl | rfl | rfl <;> refine ⟨by simp, ?_, ?_⟩
  all_goals first
    | (intro f hf; simp only [List.mem_cons, List.not_mem_nil, or_false] at hf; rcases hf with rfl | rfl <;> trivial)
    | simp [TameAfterPlain, WField.Tame]

/-- Non-vacuity of `C07_clear_iff` and `C07_parallel_iff`, with the condition met (chunks of 17 bytes) and not met (chunks of 6). -/
example : (∀ r ∈ cutRows, r.fields ≠ [] ∧ r.fields.length ≤ 2) ∧ (∀ r ∈ cutRows, ∀ f ∈ r.fields, f.WF cfg0.dial) ∧
    (∀ v ∈ commaPieces cfg0.nullValues, v.head? ≠ some cfg0.quote) ∧ FileClear cfg0.dial cutRows ∧
    CutsOutside cfg0 (renderFile cfg0.dial cutRows) 0 17 ∧ (readAll cfg0 2 0 17 (renderFile cfg0.dial cutRows) 0).map (fun r => r.chunks.length) = some 2 ∧
    ¬ CutsOutside cfg0 (renderFile cfg0.dial cutRows) 0 6 := by
  refine ⟨by decide +kernel, fun r hr => (cutRows_wf r hr).wf, by decide +kernel, fileClear_tame cfg0 cfg0_sane cutRows cutRows_wf, ?_, by decide +kernel, ?_⟩
  · intro rs h
    rw [show chunkRanges cfg0.cpu cfg0.quote (renderFile cfg0.dial cutRows) 0 17 = some [(0, 19), (19, 27)] by decide +kernel] at h
    cases h
    decide +kernel
  · intro h
    have := h [(0, 7), (7, 17), (17, 27)] (by decide +kernel) (7, 17) (by decide)
    exact absurd this (by decide +kernel)

/-- **C13** At 1 MiB of rows or more, through `open` and `read_all` with the code's own chunk size: a clear CSV file is read back as the table written **exactly when** no chunk starts inside quotes. -/
theorem C13_read_big_iff (o : FileOpts) (data : List UInt8) (names : List (List UInt8)) (rows : List WRow) (hin : CsvInput o data names rows) (hM : ReadSane o.infer.marks)
    (hne : ∀ r ∈ rows, r.fields ≠ [] ∧ r.fields.length ≤ names.length) (hwf : ∀ r ∈ rows, ∀ f ∈ r.fields, f.WF o.infer.marks)
    (hnull : ∀ v ∈ commaPieces o.infer.nullValues, v.head? ≠ some o.infer.quote) (hclear : FileClear o.infer.marks rows) (hbig : 2 ^ 20 ≤ (renderFile o.infer.marks rows).length) :
    (∃ types n, ReadFile o data names types (tableOf o.infer.quote (commaPieces o.infer.nullValues) names.length rows) n) ↔
      CutsOutside o.read data (data.length - (renderFile o.infer.marks rows).length) (calculateChunkSize (renderFile o.infer.marks rows).length names.length o.nThreads) := by
  obtain ⟨st, h1, h2, h3, h4, h5, h6, h7⟩ := csv_opened hin hM (fun r hr => (hne r hr).1) hwf
  have hlen : (renderFile o.infer.marks rows).length = data.length - st.dataStart := by rw [← h5, List.length_drop]
  have hcs : 0 < calculateChunkSize (data.length - st.dataStart) names.length o.nThreads :=
    Nat.lt_of_lt_of_le (by decide) (C50_chunk_size_bounds (data.length - st.dataStart) names.length o.nThreads).1
  rw [hlen, show data.length - (data.length - st.dataStart) = st.dataStart by omega,
    ← C07_clear_iff o.read hM names.length (1024 * 1024) _ h7 hcs data st.dataStart h4 (by omega) rows hne hwf hnull hclear h5]
  constructor
  · rintro ⟨types, n, ⟨st', res, e1, e2, e3, -, e4, -⟩⟩
    rw [h1, Prod.mk.injEq] at e1
    obtain ⟨-, rfl⟩ := e1
    rw [h6] at e2 e4
    exact ⟨res, e2, e4.symm⟩
  · rintro ⟨par, e1, e2⟩
    refine ⟨_, par.totalRows, ⟨st, par, h1, ?_, h2.symm, h3.symm, ?_, rfl⟩⟩
    · unfold readAll'
      rw [h6]
      exact e1
    · rw [h6]; exact e2.symm

end Vroom
