import Verif.Lemmas.ReaderCuts
/- How large the chunks of a file get (C63). -/
namespace Vroom
open Spec

/-- Where a range ends. -/
theorem chunkRangesGo_targets (rowEnd : Nat → Nat) (size chunkSize : Nat)
    (hre : ∀ s, s < size → s < rowEnd s ∧ rowEnd s ≤ size) (fuel offset : Nat) (rs : List (Nat × Nat))
    (h : chunkRangesGo rowEnd size chunkSize fuel offset = some rs) :
    ∀ r ∈ rs, (r.2 = size ∧ size ≤ r.1 + chunkSize) ∨ (r.1 + chunkSize < size ∧ r.2 = rowEnd (r.1 + chunkSize)) := by
  induction fuel generalizing offset rs with
  | zero => simp [chunkRangesGo] at h
  | succ fuel ih =>
    unfold chunkRangesGo at h
    by_cases ho : offset < size
    · rw [if_pos ho] at h
      dsimp only at h
      by_cases ht : min (offset + chunkSize) size ≥ size
      · rw [if_pos ht] at h
        dsimp only at h
        cases hr : chunkRangesGo rowEnd size chunkSize fuel size with
        | none => rw [hr] at h; simp at h
        | some l =>
          rw [hr, Option.map_some, Option.some.injEq] at h
          subst h
          intro r hrm
          rcases List.mem_cons.1 hrm with rfl | hm
          · left; refine ⟨rfl, ?_⟩; dsimp only; omega
          · exact ih _ _ hr r hm
      · rw [if_neg ht] at h
        have hlt : min (offset + chunkSize) size < size := by omega
        have hr := hre _ hlt
        have hu : unstick rowEnd size chunkSize (size + 1) (min (offset + chunkSize) size)
            (rowEnd (min (offset + chunkSize) size)) = some (rowEnd (min (offset + chunkSize) size)) := by
          unfold unstick; rw [if_neg (by omega)]
        rw [hu] at h
        have hmin : min (offset + chunkSize) size = offset + chunkSize := by omega
        rw [hmin] at h
        dsimp only at h
        cases hg : chunkRangesGo rowEnd size chunkSize fuel (rowEnd (offset + chunkSize)) with
        | none => rw [hg] at h; simp at h
        | some l =>
          rw [hg, Option.map_some, Option.some.injEq] at h
          subst h
          intro r hrm
          rcases List.mem_cons.1 hrm with rfl | hm
          · right; refine ⟨?_, rfl⟩; dsimp only; omega
          · exact ih _ _ hg r hm
    · rw [if_neg ho, Option.some.injEq] at h
      subst h; simp

/-- In a written file whose rows are at most `L` bytes long, every position outside quotes is followed, within `L`
bytes, by a line end outside quotes or by the end. -/
theorem near_rowEnd (M : Marks) (hM : ReadSane M) (L : Nat) (rows : List WRow) (hwf : ∀ r ∈ rows, ∀ f ∈ r.fields, f.WF M)
    (hL : ∀ r ∈ rows, (r.render M).length ≤ L) (k : Nat) (hk : k ≤ (renderFile M rows).length)
    (he : ((renderFile M rows).take k).count M.quote % 2 = 0) :
    ∃ i, k ≤ i ∧ i ≤ k + L ∧ (i = (renderFile M rows).length ∨
      ((renderFile M rows)[i]? = some 10 ∧ ((renderFile M rows).take i).count M.quote % 2 = 0)) := by
  induction rows generalizing k with
  | nil =>
    have : (renderFile M []).length = 0 := by simp [renderFile, joinFields]
    exact ⟨k, Nat.le_refl _, by omega, .inl (by omega)⟩
  | cons r rows ih =>
    have hr := hL r (by simp)
    cases rows with
    | nil =>
      have : renderFile M [r] = r.render M := by simp [renderFile, joinFields]
      rw [this] at hk ⊢
      exact ⟨_, hk, by omega, .inl rfl⟩
    | cons a l =>
      rw [renderFile_cons2] at hk he ⊢
      by_cases hle : k ≤ (r.render M).length
      · refine ⟨(r.render M).length, hle, by omega, .inr ⟨?_, ?_⟩⟩
        · rw [List.getElem?_append_right (Nat.le_refl _), Nat.sub_self, hM.eol_lf]; rfl
        · rw [List.take_append_of_le_length (Nat.le_refl _), List.take_length]
          exact row_even M hM r (hwf r (by simp))
      · obtain ⟨m, rfl⟩ : ∃ m, k = (r.render M).length + (m + 1) := ⟨k - (r.render M).length - 1, by omega⟩
        rw [count_take_row M hM r (hwf r (by simp))] at he
        have hm : m ≤ (renderFile M (a :: l)).length := by
          simp only [List.length_append, List.length_cons] at hk; omega
        obtain ⟨i, h1, h2, h3⟩ := ih (fun x hx => hwf x (List.mem_cons_of_mem _ hx)) (fun x hx => hL x (List.mem_cons_of_mem _ hx)) m hm he
        refine ⟨(r.render M).length + (i + 1), by omega, by omega, ?_⟩
        rcases h3 with h3 | ⟨h3, h4⟩
        · left; simp only [List.length_append, List.length_cons]; omega
        · right
          refine ⟨?_, ?_⟩
          · rw [List.getElem?_append_right (by omega), Nat.add_sub_cancel_left]; simpa using h3
          · rw [count_take_row M hM r (hwf r (by simp))]; exact h4

/-- None of the places where a chunk is meant to end (its start plus the chunk size) is inside quotes. -/
def Spec.TargetsOutside (cfg : ReadCfg) (file : Bytes) (start chunkSize : Nat) : Prop :=
  ∀ rs, chunkRanges cfg.cpu cfg.quote file start chunkSize = some rs →
    ∀ r ∈ rs, r.1 + chunkSize < file.length → ((file.drop start).take (r.1 + chunkSize - start)).count cfg.quote % 2 = 0

theorem outsideAt_add (q : UInt8) (file : Bytes) (a b c : Nat) (h1 : a ≤ b) (h2 : b ≤ c) (hab : OutsideAt q file a b)
    (hbc : OutsideAt q file b c) : OutsideAt q file a c := by
  unfold OutsideAt at *
  have e : (file.drop a).take (c - a) = (file.drop a).take (b - a) ++ (file.drop b).take (c - b) := by
    rw [show c - a = (b - a) + (c - b) by omega, List.take_add, List.drop_drop, show a + (b - a) = b by omega]
  rw [e, List.count_append]
  omega

/-- A row end found from a place outside quotes is outside quotes. -/
theorem rowEnd_outside (cpu : Cpu) (q : UInt8) (hq : q ≠ 10 ∧ q ≠ 13) (file : Bytes) (t : Nat)
    (hne : findRowEnd cpu q file t ≠ file.length) : OutsideAt q file t (findRowEnd cpu q file t) := by
  rcases C03_find_row_end cpu q hq file t with ⟨i, h1, _, h3⟩ | ⟨_, h2⟩
  · unfold isRowEnd insideAt at h1
    rw [Bool.and_eq_true, Bool.or_eq_true, Bool.and_eq_true] at h1
    obtain ⟨h0, h1⟩ := h1
    unfold OutsideAt
    rw [h3, show t + i + 1 - t = i + 1 by omega, List.take_add_one, List.count_append]
    have hz : ((file.drop t)[i]?.toList).count q = 0 := by
      rcases h1 with h1 | ⟨h1, _⟩
      · rw [eq_of_beq h1]; simp [Ne.symm hq.1]
      · rw [eq_of_beq h1]; simp [Ne.symm hq.2]
    rw [hz]
    simp only [Bool.bne_false, Bool.not_eq_true', beq_eq_false_iff_ne] at h0
    omega
  · exact absurd h2 hne

theorem tiles_starts (a n : Nat) (rs : List (Nat × Nat)) (h : Spec.Tiles a n rs) (r : Nat × Nat) (hr : r ∈ rs) :
    a ≤ r.1 ∧ r.1 < r.2 ∧ r.2 ≤ n := by
  induction rs generalizing a with
  | nil => simp at hr
  | cons y rs ih =>
    obtain ⟨t1, t2, t3, t4⟩ := h
    rcases List.mem_cons.1 hr with h | h
    · subst h; exact ⟨Nat.le_of_eq t1.symm, by omega, t3⟩
    · have := ih y.2 t4 h
      omega

theorem tiles_first (a n : Nat) (rs : List (Nat × Nat)) (h : Spec.Tiles a n rs) (r : Nat × Nat) (hr : r ∈ rs) :
    r.1 = a ∨ ∃ x ∈ rs, x.2 = r.1 := by
  induction rs generalizing a with
  | nil => simp at hr
  | cons y rs ih =>
    obtain ⟨t1, t2, t3, t4⟩ := h
    rcases List.mem_cons.1 hr with h | h
    · subst h; exact .inl t1
    · rcases ih y.2 t4 h with h' | ⟨x, hx, h'⟩
      · exact .inr ⟨y, by simp, h'.symm⟩
      · exact .inr ⟨x, by simp [hx], h'⟩

/-- Ends meant to be outside quotes are outside quotes. -/
theorem targets_cutsOutside (cfg : ReadCfg) (hq : cfg.quote ≠ 10 ∧ cfg.quote ≠ 13) (file : Bytes) (start chunkSize : Nat)
    (hs : start ≤ file.length) (hc : 0 < chunkSize) (h : TargetsOutside cfg file start chunkSize) :
    CutsOutside cfg file start chunkSize := by
  intro rs h1 r hrm
  obtain ⟨rs', h1', htiles⟩ := C06_ranges_tile cfg.cpu cfg.quote file start chunkSize hs hc
  rw [h1, Option.some.injEq] at h1'
  subst h1'
  have hT := h rs h1
  have hends := chunkRangesGo_targets _ _ _ (fun s hs => C03_progress cfg.cpu cfg.quote file s hs) _ _ _ h1
  rcases tiles_first _ _ _ htiles r hrm with h' | ⟨x, hx, h'⟩
  · rw [h']; simp
  · have hx1 := tiles_starts _ _ _ htiles x hx
    have hr1 := tiles_starts _ _ _ htiles r hrm
    rcases hends x hx with ⟨e1, _⟩ | ⟨e1, e2⟩
    · omega
    · have ho := hT x hx e1
      have hr2 : OutsideAt cfg.quote file (x.1 + chunkSize) r.1 := by
        rw [← h', e2]
        exact rowEnd_outside cfg.cpu cfg.quote hq file _ (by rw [← e2]; omega)
      have hpos := C03_progress cfg.cpu cfg.quote file _ e1
      exact outsideAt_add cfg.quote file start (x.1 + chunkSize) r.1 (by omega) (by omega) ho hr2

/-- Without a quote byte in the data nothing is inside quotes. -/
theorem noQuote_targetsOutside (cfg : ReadCfg) (file : Bytes) (start chunkSize : Nat) (h : cfg.quote ∉ file.drop start) :
    TargetsOutside cfg file start chunkSize := by
  intro rs _ r _ _
  rw [List.count_eq_zero.2 (fun hm => h (List.mem_of_mem_take hm))]

/-- A file no longer than a chunk has nothing to cut. -/
theorem short_targetsOutside (cfg : ReadCfg) (hq : cfg.quote ≠ 10 ∧ cfg.quote ≠ 13) (file : Bytes) (start chunkSize : Nat)
    (hs : start ≤ file.length) (hc : 0 < chunkSize) (h : file.length ≤ start + chunkSize) : TargetsOutside cfg file start chunkSize := by
  intro rs h1 r hrm hlt
  obtain ⟨rs', h1', htiles⟩ := C06_ranges_tile cfg.cpu cfg.quote file start chunkSize hs hc
  rw [h1, Option.some.injEq] at h1'
  subst h1'
  have := tiles_starts _ _ _ htiles r hrm
  omega

/-- From a place outside quotes the search stays within one row. -/
theorem rowEnd_near (cfg : ReadCfg) (hM : ReadSane cfg.dial) (file : Bytes) (start : Nat) (rows : List WRow)
    (hwf : ∀ r ∈ rows, ∀ f ∈ r.fields, f.WF cfg.dial) (hdata : file.drop start = renderFile cfg.dial rows) (L : Nat)
    (hL : ∀ r ∈ rows, (r.render cfg.dial).length ≤ L) (t : Nat) (hst : start ≤ t) (ht : t < file.length)
    (hout : OutsideAt cfg.quote file start t) : findRowEnd cfg.cpu cfg.quote file t ≤ t + L + 1 := by
  have hq : cfg.quote ≠ 10 ∧ cfg.quote ≠ 13 := by
    constructor
    · have := hM.eol_quote; rw [hM.eol_lf] at this; exact this.symm
    · exact hM.quote_cr
  have hlen : (renderFile cfg.dial rows).length = file.length - start := by rw [← hdata, List.length_drop]
  obtain ⟨i, h1, h2, h3⟩ := near_rowEnd cfg.dial hM L rows hwf hL (t - start) (by omega) (by
    unfold OutsideAt at hout; rw [hdata] at hout; exact hout)
  have hspec := C03_find_row_end cfg.cpu cfg.quote hq file t
  have hprog := C03_progress cfg.cpu cfg.quote file t ht
  rcases h3 with h3 | ⟨h3, h4⟩
  · omega
  · have hi : OutsideAt cfg.quote file start (start + i) := by
      unfold OutsideAt
      rw [hdata, Nat.add_sub_cancel_left]; exact h4
    have hti := outsideAt_trans _ _ _ _ _ hst (by omega) hout hi
    have hend : isRowEnd cfg.quote false (file.drop t) (start + i - t) = true := by
      unfold isRowEnd insideAt
      unfold OutsideAt at hti
      rw [hti]
      rw [List.getElem?_drop, show t + (start + i - t) = start + i by omega]
      rw [← hdata, List.getElem?_drop] at h3
      rw [h3]; rfl
    rcases hspec with ⟨j, j1, j2, j3⟩ | ⟨j1, _⟩
    · rcases Nat.lt_or_ge (start + i - t) j with hlt | hge
      · have := j2 _ hlt; rw [hend] at this; simp at this
      · omega
    · rw [j1] at hend; simp at hend

end Vroom
