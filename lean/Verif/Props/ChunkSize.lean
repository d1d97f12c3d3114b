import Verif.Lemmas.ChunkSize
import Verif.Props.Reader
/-
C63: how large the pieces of a file get that are parsed in parallel.
-/
namespace Vroom
open Spec

theorem readSane_quote {M : Marks} (hM : ReadSane M) : M.quote ≠ 10 ∧ M.quote ≠ 13 := by
  constructor
  · have := hM.eol_quote; rw [hM.eol_lf] at this; exact this.symm
  · exact hM.quote_cr

/-- **C63** No chunk but the last is shorter than the chunk size, whatever the bytes of the file, so there
are at most `size / chunkSize + 1` chunks. -/
theorem C63_chunks_not_short (cfg : ReadCfg) (file : List UInt8) (start chunkSize : Nat)
    (hs : start ≤ file.length) (hc : 0 < chunkSize) :
    ∃ rs, chunkRanges cfg.cpu cfg.quote file start chunkSize = some rs ∧
      (∀ r ∈ rs, r.2 ≠ file.length → chunkSize < r.2 - r.1) ∧
      chunkSize * rs.length ≤ (file.length - start) + chunkSize := by
  obtain ⟨rs, h1, htiles⟩ := C06_ranges_tile cfg.cpu cfg.quote file start chunkSize hs hc
  have hends := chunkRangesGo_targets _ _ _ (fun s hs => C03_progress cfg.cpu cfg.quote file s hs) _ _ _ h1
  have hbig : ∀ r ∈ rs, r.2 ≠ file.length → chunkSize < r.2 - r.1 := by
    intro r hr hne
    rcases hends r hr with ⟨e1, _⟩ | ⟨e1, e2⟩
    · exact absurd e1 hne
    · have := C03_progress cfg.cpu cfg.quote file _ e1
      omega
  refine ⟨rs, h1, hbig, ?_⟩
  clear h1 hends
  induction rs generalizing start with
  | nil => simp
  | cons r rs ih =>
    obtain ⟨t1, t2, t3, t4⟩ := htiles
    cases rs with
    | nil => simp
    | cons x xs =>
      have hne : r.2 ≠ file.length := by
        obtain ⟨u1, u2, u3, _⟩ := t4
        omega
      have h2 := hbig r (by simp) hne
      have h3 := ih r.2 (by omega) t4 (fun r hr => hbig r (List.mem_cons_of_mem _ hr))
      rw [List.length_cons, Nat.mul_add, Nat.mul_one]
      have : r.1 = start := t1
      generalize chunkSize * (x :: xs).length = y at *
      omega

/-- The full claim: no chunk of a written file is longer than the chunk size plus one row with its line
end. -/
def C63_full : Prop :=
  ∀ (cfg : ReadCfg) (_ : ReadSane cfg.dial) (file : List UInt8) (chunkSize L : Nat) (_ : 0 < chunkSize) (rows : List WRow)
    (_ : ∀ r ∈ rows, r.WF cfg.dial) (_ : file = renderFile cfg.dial rows) (_ : ∀ r ∈ rows, (r.render cfg.dial).length ≤ L)
    (rs : List (Nat × Nat)), chunkRanges cfg.cpu cfg.quote file 0 chunkSize = some rs → ∀ r ∈ rs, r.2 - r.1 ≤ chunkSize + L + 1

/-- **C63** The claim holds if none of the places where a chunk is meant to end (its start plus the chunk size)
is inside quotes; for example if the data has no quote byte. -/
theorem C63_chunk_bound_partial (cfg : ReadCfg) (hM : ReadSane cfg.dial) (file : List UInt8) (start chunkSize L : Nat)
    (hs : start ≤ file.length) (hc : 0 < chunkSize) (rows : List WRow) (hwf : ∀ r ∈ rows, ∀ f ∈ r.fields, f.WF cfg.dial)
    (hdata : file.drop start = renderFile cfg.dial rows) (hL : ∀ r ∈ rows, (r.render cfg.dial).length ≤ L)
    (hT : TargetsOutside cfg file start chunkSize) (rs : List (Nat × Nat))
    (h1 : chunkRanges cfg.cpu cfg.quote file start chunkSize = some rs) :
    ∀ r ∈ rs, r.2 - r.1 ≤ chunkSize + L + 1 := by
  have hq : cfg.quote ≠ 10 ∧ cfg.quote ≠ 13 := readSane_quote hM
  obtain ⟨rs', h1', htiles⟩ := C06_ranges_tile cfg.cpu cfg.quote file start chunkSize hs hc
  rw [h1, Option.some.injEq] at h1'
  subst h1'
  have hends := chunkRangesGo_targets _ _ _ (fun s hs => C03_progress cfg.cpu cfg.quote file s hs) _ _ _ h1
  intro r hr
  have hst := tiles_starts _ _ _ htiles r hr
  rcases hends r hr with ⟨e1, e2⟩ | ⟨e1, e2⟩
  · omega
  · have := rowEnd_near cfg hM file start rows hwf hdata L hL (r.1 + chunkSize) (by omega) e1 (hT rs h1 r hr e1)
    rw [← e2] at this
    omega

/-- In a file without line ends inside quotes every line-end byte is outside quotes. -/
theorem flat_lineEnd_even (M : Marks) (hM : ReadSane M) (rows : List WRow) (h : FlatRows M rows) (k : Nat) (c : UInt8)
    (hk : (renderFile M rows)[k]? = some c) (hc : c = 10 ∨ c = 13) : ((renderFile M rows).take k).count M.quote % 2 = 0 := by
  have hrow : ∀ r ∈ rows, ∀ k c, (r.render M)[k]? = some c → c = 10 ∨ c = 13 → ((r.render M).take k).count M.quote % 2 = 0 := by
    intro r hr k c hk hc
    obtain ⟨h10, h13⟩ := row_flat M hM r (h r hr).1 (h r hr).2
    have hev := row_even M hM r (h r hr).1.wf
    rcases hc with rfl | rfl
    · exact absurd (List.mem_of_getElem? hk) h10
    · have hl := h13 k hk
      have e : r.render M = (r.render M).take k ++ [13] := by
        conv_lhs => rw [← List.take_append_drop k (r.render M)]
        congr 1
        have hd : (r.render M).drop k = (13 : UInt8) :: (r.render M).drop (k + 1) := by
          obtain ⟨hlt, he⟩ := List.getElem?_eq_some_iff.1 hk
          rw [List.drop_eq_getElem_cons hlt, he]
        rw [hd, List.drop_eq_nil_of_le (by omega)]
      rw [e, List.count_append] at hev
      have hz : [(13 : UInt8)].count M.quote = 0 := by simp [Ne.symm hM.quote_cr]
      omega
  induction rows generalizing k with
  | nil => simp [renderFile, joinFields] at hk
  | cons r rows ih =>
    cases rows with
    | nil =>
      simp only [renderFile, List.map_cons, List.map_nil, joinFields] at hk ⊢
      exact hrow r (by simp) k c hk hc
    | cons a l =>
      rw [renderFile_cons2] at hk ⊢
      by_cases hle : k < (r.render M).length
      · rw [List.getElem?_append_left hle] at hk
        rw [List.take_append_of_le_length (by omega)]
        exact hrow r (by simp) k c hk hc
      · obtain ⟨m, rfl⟩ : ∃ m, k = (r.render M).length + m := ⟨k - (r.render M).length, by omega⟩
        cases m with
        | zero =>
          rw [Nat.add_zero, List.take_append_of_le_length (Nat.le_refl _), List.take_length]
          exact row_even M hM r (h r (by simp)).1.wf
        | succ m =>
          rw [count_take_row M hM r (h r (by simp)).1.wf]
          rw [List.getElem?_append_right (by omega), Nat.add_sub_cancel_left, List.getElem?_cons_succ] at hk
          exact ih (fun x hx => h x (List.mem_cons_of_mem _ hx)) m hk (fun x hx => hrow x (List.mem_cons_of_mem _ hx))

/-- **C63 finding** If a chunk is meant to end inside quotes, in a file with no line end inside any quotes, then
the search for the row end counts quotes from there, never sees a line end outside them, and the chunk
takes all the rest of the file: there is no parallel parsing from there on, and the chunk has no size limit. -/
theorem C63_boundary_in_quotes_takes_rest (cfg : ReadCfg) (hM : ReadSane cfg.dial) (file : List UInt8) (start chunkSize : Nat)
    (hs : start ≤ file.length) (hc : 0 < chunkSize) (rows : List WRow) (hflat : FlatRows cfg.dial rows)
    (hdata : file.drop start = renderFile cfg.dial rows) (rs : List (Nat × Nat))
    (h1 : chunkRanges cfg.cpu cfg.quote file start chunkSize = some rs) (r : Nat × Nat) (hr : r ∈ rs)
    (hin : ((file.drop start).take (r.1 + chunkSize - start)).count cfg.quote % 2 = 1) : r.2 = file.length := by
  have hq : cfg.quote ≠ 10 ∧ cfg.quote ≠ 13 := readSane_quote hM
  obtain ⟨rs', h1', htiles⟩ := C06_ranges_tile cfg.cpu cfg.quote file start chunkSize hs hc
  rw [h1, Option.some.injEq] at h1'
  subst h1'
  have hst := tiles_starts _ _ _ htiles r hr
  rcases chunkRangesGo_targets _ _ _ (fun s hs => C03_progress cfg.cpu cfg.quote file s hs) _ _ _ h1 r hr with ⟨e1, e2⟩ | ⟨e1, e2⟩
  · exact e1
  · rw [e2]
    rcases C03_find_row_end cfg.cpu cfg.quote hq file (r.1 + chunkSize) with ⟨i, j1, _, _⟩ | ⟨_, j2⟩
    · exfalso
      unfold isRowEnd insideAt at j1
      rw [Bool.and_eq_true, Bool.or_eq_true, Bool.and_eq_true] at j1
      obtain ⟨j0, j1⟩ := j1
      rw [List.getElem?_drop] at j1
      have hb : ∃ c, (renderFile cfg.dial rows)[r.1 + chunkSize + i - start]? = some c ∧ (c = 10 ∨ c = 13) := by
        rw [← hdata, List.getElem?_drop, show start + (r.1 + chunkSize + i - start) = r.1 + chunkSize + i by omega]
        rcases j1 with j1 | ⟨j1, _⟩
        · exact ⟨10, eq_of_beq j1, .inl rfl⟩
        · exact ⟨13, eq_of_beq j1, .inr rfl⟩
      obtain ⟨c, k1, k2⟩ := hb
      have hev := flat_lineEnd_even cfg.dial hM rows hflat _ c k1 k2
      rw [← hdata] at hev
      have e : (file.drop start).take (r.1 + chunkSize + i - start) =
          (file.drop start).take (r.1 + chunkSize - start) ++ (file.drop (r.1 + chunkSize)).take i := by
        rw [show r.1 + chunkSize + i - start = (r.1 + chunkSize - start) + i by omega, List.take_add, List.drop_drop,
          show start + (r.1 + chunkSize - start) = r.1 + chunkSize by omega]
      rw [e, List.count_append] at hev
      simp only [Bool.bne_false, Bool.not_eq_true', beq_eq_false_iff_ne] at j0
      have hq' : cfg.dial.quote = cfg.quote := rfl
      rw [hq'] at hev
      omega
    · exact j2

/-- Four rows `"a"`; chunks of two bytes. -/
def quotedRows : List WRow := List.replicate 4 { fields := [.quoted [97]] }

theorem quotedRows_flat : FlatRows cfg0.dial quotedRows := by
  have lf : LF = 10 := rfl
  intro r hr
  have : r = { fields := [.quoted [97]] } := List.eq_of_mem_replicate hr
  subst this
  exact ⟨⟨by decide, by intro f hf; simp at hf; subst hf; trivial,
    by simp [TameAfterPlain]⟩, by intro f hf; simp at hf; subst hf; simp [WField.Flat]⟩

/-- **C63 refuted**: four rows of three bytes, chunk size two: the first chunk is the whole file. -/
theorem C63_full_fails : ¬ C63_full := by
  intro h
  have := h cfg0 cfg0_sane (renderFile cfg0.dial quotedRows) 2 3 (by decide) quotedRows (fun r hr => (quotedRows_flat r hr).1) rfl
    (by intro r hr; rw [List.eq_of_mem_replicate hr]; decide) [(0, 15)] (by decide +kernel) (0, 15) (by simp)
  omega

/-- Non-vacuity of `C63_boundary_in_quotes_takes_rest`: that file. -/
example : ∃ rs, chunkRanges cfg0.cpu cfg0.quote (renderFile cfg0.dial quotedRows) 0 2 = some rs ∧ (0, 15) ∈ rs ∧
    (((renderFile cfg0.dial quotedRows).drop 0).take (0 + 2 - 0)).count cfg0.quote % 2 = 1 :=
  ⟨[(0, 15)], by decide +kernel, by simp, by decide +kernel⟩

/-- Non-vacuity of `C63_chunk_bound_partial`: the same file cut in chunks of three bytes, where the ends are meant to be
outside quotes. -/
example : chunkRanges cfg0.cpu cfg0.quote (renderFile cfg0.dial quotedRows) 0 3 = some [(0, 4), (4, 8), (8, 12), (12, 15)] ∧
    TargetsOutside cfg0 (renderFile cfg0.dial quotedRows) 0 3 := by
  have h : chunkRanges cfg0.cpu cfg0.quote (renderFile cfg0.dial quotedRows) 0 3 = some [(0, 4), (4, 8), (8, 12), (12, 15)] := by
    decide +kernel
  refine ⟨h, ?_⟩
  intro rs hrs r hr
  rw [h, Option.some.injEq] at hrs
  subst hrs
  simp only [List.mem_cons, List.not_mem_nil, or_false] at hr
  rcases hr with rfl | rfl | rfl | rfl <;> decide +kernel

end Vroom
