import Verif.Spec.FirstRows
import Verif.Props.ChunkSize
/- The rows of the first chunk of a file (C70). -/
namespace Vroom
open Spec

theorem beginning_eq (M : Marks) : ∀ (A B : List WRow) (k : Nat), A ≠ [] → k < (renderFile M A).length + 1 →
    (∀ P S, A = P ++ S → P ≠ [] → S ≠ [] → (renderFile M P).length + 1 ≤ k) → rowsBeginning M k (A ++ B) = A
  | [], _, _, h, _, _ => absurd rfl h
  | [r], B, k, _, h, _ => by
    have : ¬ (r.render M).length + 1 ≤ k := by simp [renderFile, joinFields] at h; omega
    simp [rowsBeginning, this]
  | r :: a :: A, B, k, _, h, hp => by
    have h1 : (r.render M).length + 1 ≤ k := by
      have := hp [r] (a :: A) rfl (by simp) (by simp)
      simpa [renderFile, joinFields] using this
    have e : ∀ P : List WRow, P ≠ [] → (renderFile M (r :: P)).length = (r.render M).length + 1 + (renderFile M P).length := by
      intro P hP
      have := renderFile_append M [r] P (by simp) hP
      rw [List.singleton_append] at this
      rw [this, List.length_append, List.length_cons]
      simp [renderFile, joinFields]; omega
    rw [e (a :: A) (by simp)] at h
    have ih := beginning_eq M (a :: A) B (k - ((r.render M).length + 1)) (by simp) (by omega) (by
      intro P S hPS hP hS
      have := hp (r :: P) S (by rw [hPS]; rfl) (by simp) hS
      rw [e P hP] at this
      omega)
    rw [List.cons_append, rowsBeginning, if_pos h1, ih]

theorem blank_of_empty {M : Marks} {r : WRow} (hne : r.fields ≠ []) (h : (r.render M).length = 0) : r.blank = true := by
  obtain ⟨fs, c⟩ := r
  unfold WRow.render at h
  cases fs with
  | nil => exact absurd rfl hne
  | cons f fs =>
    cases fs with
    | nil =>
      cases f with
      | plain s =>
        simp only [List.map_cons, List.map_nil, joinFields, WField.render, List.length_append] at h
        have : s = [] := List.length_eq_zero_iff.1 (by omega)
        subst this
        rfl
      | quoted b => simp [joinFields, WField.render] at h
    | cons g fs => simp [joinFields] at h

theorem beginning_all (M : Marks) : ∀ (rows : List WRow) (k : Nat), (∀ r ∈ rows, r.fields ≠ []) →
    (∀ P S, rows = P ++ S → P ≠ [] → S ≠ [] → k ≤ (renderFile M P).length → (renderFile M S).length = 0) →
    (rowsBeginning M k rows).filter (fun r => !r.blank) = rows.filter (fun r => !r.blank)
  | [], _, _, _ => rfl
  | [r], k, _, _ => by unfold rowsBeginning; split <;> simp [rowsBeginning]
  | r :: a :: rest, k, hne, h => by
    rw [rowsBeginning]
    by_cases hk : (r.render M).length + 1 ≤ k
    · rw [if_pos hk, List.filter_cons, List.filter_cons, beginning_all M (a :: rest) _ (fun x hx => hne x (List.mem_cons_of_mem _ hx))]
      intro P S hPS hP hS hle
      refine h (r :: P) S (by rw [hPS]; rfl) (by simp) hS ?_
      have := renderFile_append M [r] P (by simp) hP
      rw [List.singleton_append] at this
      rw [this, List.length_append, List.length_cons]
      simp [renderFile, joinFields] at hle ⊢; omega
    · rw [if_neg hk]
      have h0 := h [r] (a :: rest) rfl (by simp) (by simp) (by simp [renderFile, joinFields]; omega)
      cases rest with
      | cons b rest => simp [renderFile, joinFields] at h0
      | nil =>
        have hb : a.blank = true := blank_of_empty (M := M) (hne a (by simp)) (by simpa [renderFile, joinFields] using h0)
        rw [List.filter_cons, List.filter_cons]
        simp [hb]

/-- A row that ends at or after `t` bounds the row end found from `t`. -/
theorem rowEnd_prefix (cfg : ReadCfg) (hM : ReadSane cfg.dial) (file : Bytes) (start : Nat) (P S : List WRow) (hP : P ≠ []) (hS : S ≠ [])
    (hwf : ∀ r ∈ P, ∀ f ∈ r.fields, f.WF cfg.dial) (hdata : file.drop start = renderFile cfg.dial (P ++ S)) (t : Nat) (hst : start ≤ t)
    (ht : t < file.length) (hout : OutsideAt cfg.quote file start t) (hle : t ≤ start + (renderFile cfg.dial P).length) :
    findRowEnd cfg.cpu cfg.quote file t ≤ start + (renderFile cfg.dial P).length + 1 := by
  have hq : cfg.quote ≠ 10 ∧ cfg.quote ≠ 13 := readSane_quote hM
  have happ := renderFile_append cfg.dial P S hP hS
  have hspec := C03_find_row_end cfg.cpu cfg.quote hq file t
  generalize hi : (renderFile cfg.dial P).length = i at *
  have hO : OutsideAt cfg.quote file start (start + i) := by
    unfold OutsideAt
    rw [hdata, happ, Nat.add_sub_cancel_left, ← hi, List.take_left']
    · exact file_even cfg.dial hM P hwf
    · rfl
  have hti := outsideAt_trans _ _ _ _ _ hst (by omega) hout hO
  have hend : isRowEnd cfg.quote false (file.drop t) (start + i - t) = true := by
    unfold isRowEnd insideAt
    unfold OutsideAt at hti
    rw [hti]
    rw [List.getElem?_drop, show t + (start + i - t) = start + i by omega]
    have h3 : (file.drop start)[i]? = some 10 := by
      rw [hdata, happ, List.getElem?_append_right (by omega), hi, Nat.sub_self, List.getElem?_cons_zero, hM.eol_lf]
    rw [List.getElem?_drop] at h3
    rw [h3]; rfl
  rcases hspec with ⟨j, j1, j2, j3⟩ | ⟨j1, _⟩
  · rcases Nat.lt_or_ge (start + i - t) j with hlt | hge
    · have := j2 _ hlt; rw [hend] at this; simp at this
    · omega
  · rw [j1] at hend; simp at hend

/-- The first chunk holds the rows that begin in the first `chunkSize` bytes, all rows below the threshold. -/
theorem readAll_first (cfg : ReadCfg) (hM : ReadSane cfg.dial) (n threshold chunkSize : Nat) (hc : 0 < chunkSize) (file : List UInt8) (start : Nat)
    (hs : start ≤ file.length) (rows : List WRow) (hr0 : rows ≠ []) (hwf : ∀ r ∈ rows, r.WF cfg.dial) (hfile : file.drop start = renderFile cfg.dial rows) (hn : n ≠ 0)
    (hT : threshold ≤ file.length - start → TargetsOutside cfg file start chunkSize) (res : ReadResult)
    (h : readAll cfg n threshold chunkSize file start = some res) :
    ∃ c rest, res.chunks = c :: rest ∧ c.map (fun col => col.map Cell.toOption) =
      groupCols cfg n (if file.length - start < threshold then rows else rowsBeginning cfg.dial chunkSize rows) := by
  have hq : cfg.quote ≠ 10 ∧ cfg.quote ≠ 13 := readSane_quote hM
  have hlen : (renderFile cfg.dial rows).length = file.length - start := by rw [← hfile, List.length_drop]
  have serial : ∀ res, readSerial cfg n (file.drop start) = some res → ∃ c rest, res.chunks = c :: rest ∧ c.map (fun col => col.map Cell.toOption) = groupCols cfg n rows := by
    intro res h
    obtain ⟨res', cols, h1, h2, h3, h4, _⟩ := readSerial_rows cfg hM n hn rows hwf
    rw [← hfile, h, Option.some.injEq] at h1
    subst h1
    exact ⟨cols, [], h2, h3⟩
  unfold readAll at h
  rw [if_neg hn] at h
  by_cases hlt : file.length - start < threshold
  · rw [if_pos hlt] at h
    rw [if_pos hlt]
    exact serial res h
  rw [if_neg hlt] at h
  rw [if_neg hlt]
  have hT := hT (by omega)
  obtain ⟨rs, h1, h2⟩ := C06_ranges_tile cfg.cpu cfg.quote file start chunkSize hs hc
  rw [h1] at h
  simp only [Option.bind_eq_bind, Option.bind_some] at h
  have hends := chunkRangesGo_targets _ _ _ (fun s hs => C03_progress cfg.cpu cfg.quote file s hs) _ _ _ h1
  -- no row end before the end of the first range
  have hpre : ∀ r rs', rs = r :: rs' → ∀ P S, rows = P ++ S → P ≠ [] → S ≠ [] → chunkSize ≤ (renderFile cfg.dial P).length →
      r.2 ≤ start + (renderFile cfg.dial P).length + 1 := by
    intro r rs' hrs P S hPS hP hS hle
    have hrm : r ∈ rs := by rw [hrs]; simp
    have hr1 : r.1 = start := by rw [hrs] at h2; exact h2.1
    have hlen2 : (renderFile cfg.dial P).length + 1 ≤ file.length - start := by
      rw [← hlen, hPS, renderFile_append _ P S hP hS, List.length_append, List.length_cons]; omega
    rcases hends r hrm with ⟨e1, e2⟩ | ⟨e1, e2⟩
    · omega
    · rw [e2, hr1]
      have hO := hT rs h1 r hrm e1
      rw [hr1] at hO e1
      exact rowEnd_prefix cfg hM file start P S hP hS (fun x hx => (hwf x (by rw [hPS]; simp [hx])).wf) (by rw [hfile, hPS]) (start + chunkSize) (by omega) e1 hO (by omega)
  by_cases hle : rs.length ≤ 1
  · rw [if_pos hle] at h
    obtain ⟨c, rest, e1, e2⟩ := serial res h
    refine ⟨c, rest, e1, ?_⟩
    rw [e2]
    unfold groupCols
    rw [beginning_all cfg.dial rows chunkSize (fun r hr => (hwf r hr).ne)]
    intro P S hPS hP hS hk
    have hl : (renderFile cfg.dial rows).length = (renderFile cfg.dial P).length + 1 + (renderFile cfg.dial S).length := by
      rw [hPS, renderFile_append _ P S hP hS, List.length_append, List.length_cons]; omega
    match rs, hle with
    | [], _ =>
      have : start = file.length := h2
      omega
    | [r], _ =>
      have := hpre r [] rfl P S hPS hP hS hk
      have h22 : r.2 = file.length := h2.2.2.2
      omega
  · rw [if_neg hle] at h
    obtain ⟨gs, g1, g2, g3⟩ := cuts_groups cfg hM file start chunkSize rows hr0 (fun r hr => (hwf r hr).wf) hfile rs h1 h2
      (by intro hz; rw [hz] at hle; simp at hle) (targets_cutsOutside cfg hq file start chunkSize hs hc hT)
    have gwf : ∀ g ∈ gs, ∀ r ∈ g, r.WF cfg.dial := by
      intro g hg r hr
      apply hwf r
      rw [← g2]
      exact List.mem_flatten.2 ⟨g, hg, hr⟩
    obtain ⟨res', r1, r2, -⟩ := readChunks_groups cfg hM n hn gs g3 gwf
    rw [g1, r1, Option.some.injEq] at h
    subst h
    match gs, rs with
    | [], rs => simp [groupTexts] at g1; subst g1; simp at hle
    | [g], rs => 
      have := congrArg List.length g1
      simp [groupTexts] at this; omega
    | g :: g' :: gs, [] => simp at hle
    | g :: g' :: gs, r :: rs =>
      simp only [List.map_cons, groupTexts, List.cons.injEq] at g1 r2
      cases hch : res'.chunks with
      | nil => rw [hch] at r2; simp at r2
      | cons c rest =>
        rw [hch, List.map_cons, List.cons.injEq] at r2
        refine ⟨c, rest, rfl, ?_⟩
        rw [r2.1]
        congr 1
        have hrows : rows = g ++ (g' ++ gs.flatten) := by rw [← g2]; simp
        have hB : g' ++ gs.flatten ≠ [] := by simp [g3 g' (by simp)]
        have hr1 : r.1 = start := h2.1
        have hlenr : (renderFile cfg.dial g).length + 1 = r.2 - start := by
          have := congrArg List.length g1.1
          unfold slice at this
          rw [List.length_take, List.length_drop, List.length_append, List.length_singleton, hr1] at this
          have hr2 : r.2 ≤ file.length := by
            rcases hends r (by simp) with ⟨e1, e2⟩ | ⟨e1, e2⟩
            · omega
            · rw [e2]; exact (C03_progress cfg.cpu cfg.quote file _ e1).2
          omega
        rw [hrows]
        refine (beginning_eq cfg.dial g _ chunkSize (g3 g (by simp)) ?_ ?_).symm
        · rcases hends r (by simp) with ⟨e1, e2⟩ | ⟨e1, e2⟩
          · exfalso
            have : (renderFile cfg.dial rows).length = (renderFile cfg.dial g).length + 1 + (renderFile cfg.dial (g' ++ gs.flatten)).length := by
              rw [hrows, renderFile_append _ _ _ (g3 g (by simp)) hB, List.length_append, List.length_cons]; omega
            have hnx := h2.2.2.2
            match rs, hnx with
            | [], _ => simp at hle
            | x :: xs, hnx =>
              have q1 := hnx.1
              have q2 := hnx.2.1
              have q3 : x.2 ≤ file.length := by
                rcases hends x (by simp) with ⟨e1, e2⟩ | ⟨e1, e2⟩
                · omega
                · rw [e2]; exact (C03_progress cfg.cpu cfg.quote file _ e1).2
              omega
          · have := (C03_progress cfg.cpu cfg.quote file _ e1).1
            rw [← e2] at this
            omega
        · intro P S hPS hP hS
          by_contra hcon
          have := hpre r rs rfl P (S ++ (g' ++ gs.flatten)) (by rw [hrows, hPS, List.append_assoc]) hP (by simp [hS]) (by omega)
          have hl : (renderFile cfg.dial g).length = (renderFile cfg.dial P).length + 1 + (renderFile cfg.dial S).length := by
            rw [hPS, renderFile_append _ P S hP hS, List.length_append, List.length_cons]; omega
          omega

end Vroom
