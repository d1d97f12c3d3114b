import Verif.Lemmas.MemRead2
import Verif.Props.RowScan
/-
The checked loads of `Model/MemRead` against the byte lists: type inference, `open` and `read_all`.
-/
namespace Vroom.Mem
open Vroom

theorem dateShape_eq (v : Bytes) : dateShapeM v = some (dateShape v) := by
  unfold dateShapeM
  by_cases h : v.length ≠ 10
  · rw [if_pos h]
    congr 1
    unfold dateShape
    split
    · exact absurd rfl h
    · rfl
  · rw [if_neg h]
    have h : v.length = 10 := by omega
    match v, h with
    | [a0, a1, a2, a3, a4, a5, a6, a7, a8, a9], _ =>
      have hm : [0, 1, 2, 3, 5, 6, 8, 9].mapM (ld [a0, a1, a2, a3, a4, a5, a6, a7, a8, a9]) = some [a0, a1, a2, a3, a5, a6, a8, a9] := rfl
      have h4 : ld [a0, a1, a2, a3, a4, a5, a6, a7, a8, a9] 4 = some a4 := rfl
      have h7 : ld [a0, a1, a2, a3, a4, a5, a6, a7, a8, a9] 7 = some a7 := rfl
      rw [hm, h4, h7]
      simp only [Option.bind_some, Option.map_some, dateShape]
      generalize [a0, a1, a2, a3, a5, a6, a8, a9].all isDigitB = x
      generalize (a4 == 45 || a4 == 47) = y
      generalize (a7 == a4) = z
      cases x <;> cases y <;> cases z <;> rfl

theorem timestampShape_eq (v : Bytes) : timestampShapeM v = some (timestampShape v) := by
  unfold timestampShapeM
  by_cases h : v.length < 19
  · rw [if_pos h]
    congr 1
    unfold timestampShape
    split
    · simp at h; omega
    · rfl
  · rw [if_neg h]
    rcases v with _ | ⟨a0, _ | ⟨a1, _ | ⟨a2, _ | ⟨a3, _ | ⟨a4, _ | ⟨a5, _ | ⟨a6, _ | ⟨a7, _ | ⟨a8, _ | ⟨a9, _ | ⟨a10, _ | ⟨a11, _ | ⟨a12, _ | ⟨a13, _ | ⟨a14, _ | ⟨a15, _ | ⟨a16, _ | ⟨a17, _ | ⟨a18, tl⟩⟩⟩⟩⟩⟩⟩⟩⟩⟩⟩⟩⟩⟩⟩⟩⟩⟩⟩
    case cons.cons.cons.cons.cons.cons.cons.cons.cons.cons.cons.cons.cons.cons.cons.cons.cons.cons.cons =>
      generalize hv : a0 :: a1 :: a2 :: a3 :: a4 :: a5 :: a6 :: a7 :: a8 :: a9 :: a10 :: a11 :: a12 :: a13 :: a14 :: a15 :: a16 :: a17 :: a18 :: tl = v
      have hm : [11, 12, 14, 15, 17, 18].mapM (ld v) = some [a11, a12, a14, a15, a17, a18] := by rw [← hv]; rfl
      have h4 : ld v 4 = some a4 := by rw [← hv]; rfl
      have h7 : ld v 7 = some a7 := by rw [← hv]; rfl
      have h10 : ld v 10 = some a10 := by rw [← hv]; rfl
      have h13 : ld v 13 = some a13 := by rw [← hv]; rfl
      have h16 : ld v 16 = some a16 := by rw [← hv]; rfl
      rw [hm, h4, h7, h10, h13, h16, ← hv]
      simp only [Option.bind_some, Option.map_some, timestampShape]
      generalize [a11, a12, a14, a15, a17, a18].all isDigitB = x
      generalize ((a4 == 45 || a4 == 47) && a7 == a4 && (a10 == 84 || a10 == 32) && a13 == 58 && a16 == 58) = y
      cases x <;> cases y <;> rfl
    all_goals (exfalso; apply h; simp)

theorem inferField_eq (cfg : InferCfg) (v : Bytes) : inferFieldM cfg v = some (inferField cfg v) := by
  unfold inferFieldM inferField
  rw [dateShape_eq, timestampShape_eq]
  cases inferInt v with
  | some t => dsimp only; split_ifs <;> rfl
  | none =>
    dsimp only [Option.bind_some, Option.map_some]
    split_ifs <;> rfl

theorem updateTypes_eq (cfg : InferCfg) : ∀ (types : List DataType) (fields : List Bytes), updateTypesM cfg types fields = some (updateTypes cfg types fields) := by
  intro types
  induction types with
  | nil => intro fields; cases fields <;> rfl
  | cons t ts ih =>
    intro fields
    cases fields with
    | nil =>
      simp only [updateTypesM, updateTypes]
      congr 1
      symm
      apply List.ext_getElem?
      intro i
      rw [List.getElem?_mapIdx]
      cases (t :: ts)[i]? <;> simp
    | cons f fs =>
      simp only [updateTypesM, inferField_eq, Option.bind_some, ih, Option.map_some, updateTypes, List.mapIdx_cons, List.getElem?_cons_zero, List.getElem?_cons_succ]

theorem sampleLoop_eq {t : Target} {cfg : InferCfg} (ht : t.Is cfg.cpu) {p : Bytes} {size : Nat} (hs : size ≤ p.length) (maxRows : Nat) :
    ∀ (fuel offset rows : Nat) (types : List DataType),
    sampleLoopM t cfg p size maxRows fuel offset rows types = some (sampleLoop cfg (p.take size) maxRows fuel offset rows types) := by
  have hl : (p.take size).length = size := by simp; omega
  intro fuel
  induction fuel with
  | zero => intro _ _ _; rfl
  | succ fuel ih =>
    intro offset rows types
    simp only [sampleLoopM, sampleLoop, findRowEnd_eq ht hs, Option.bind_some, hl]
    have hle := findRowEnd_le cfg.cpu cfg.quote (p.take size) offset
    rw [hl] at hle
    generalize findRowEnd cfg.cpu cfg.quote (p.take size) offset = e at hle ⊢
    by_cases h1 : offset < size ∧ rows < maxRows
    · rw [if_pos h1, if_pos h1]
      by_cases h2 : e - offset = 0
      · rw [if_pos h2, if_pos h2, ih]
      · rw [if_neg h2, if_neg h2]
        have hrow : sampleRowM p e cfg.sep cfg.quote false [] [] offset = some (sampleRow cfg.sep cfg.quote false [] [] (((p.take size).drop offset).take (e - offset))) := by
          rw [sampleRow_eq (show e ≤ p.length by omega) cfg.sep cfg.quote _ false [] [] offset (by omega) (Nat.le_refl _)]
          congr 2
          rw [List.drop_take, List.drop_take, List.take_take, Nat.min_eq_left (by omega)]
        rw [hrow, Option.bind_some, updateTypes_eq, Option.bind_some, ih]
    · rw [if_neg h1, if_neg h1]

theorem inferFromSample_eq {t : Target} {cfg : InferCfg} (ht : t.Is cfg.cpu) {p : Bytes} {size : Nat} (hs : size ≤ p.length) (nCols maxRows : Nat) :
    inferFromSampleM t cfg p size nCols maxRows = some (inferFromSample cfg (p.take size) nCols maxRows) := by
  have hl : (p.take size).length = size := by simp; omega
  unfold inferFromSampleM inferFromSample
  dsimp only
  rw [hl]
  by_cases h0 : size = 0 ∨ nCols = 0
  · rw [if_pos h0, if_pos h0]
  · rw [if_neg h0, if_neg h0, findRowEnd_eq ht hs]
    cases cfg.hasHeader <;> simp only [Bool.false_eq_true, if_false, if_true, Option.bind_some, sampleLoop_eq ht hs, Option.map_some]

theorem openData_eq {t : Target} {cfg : InferCfg} (ht : t.Is cfg.cpu) (sampleRows : Nat) (st : ReaderState) {m : Bytes} {size : Nat} (hs : size ≤ m.length) :
    openDataM t cfg sampleRows st m size = some (openData cfg sampleRows st (m.take size)) := by
  have hl : (m.take size).length = size := by simp; omega
  unfold openDataM openData
  dsimp only
  rw [hl]
  by_cases h0 : size = 0
  · rw [if_pos h0, if_pos h0]
  · rw [if_neg h0, if_neg h0, findRowEnd_eq ht hs, Option.bind_some]
    have hle := findRowEnd_le cfg.cpu cfg.quote (m.take size) 0
    rw [hl] at hle
    generalize findRowEnd cfg.cpu cfg.quote (m.take size) 0 = e at hle ⊢
    have htake : (m.take size).take e = m.take e := by rw [List.take_take, Nat.min_eq_left hle]
    have hle' : e ≤ m.length := by omega
    have hel : (m.take e).length = e := by simp; omega
    cases cfg.hasHeader with
    | true =>
      simp only [if_true]
      have hh : parseHeaderM m e cfg.sep cfg.quote = some (parseHeader cfg.sep cfg.quote (m.take e)) := by
        unfold parseHeaderM parseHeader
        rw [hel]
        by_cases he : e = 0
        · rw [if_pos he, if_pos he]
        · rw [if_neg he, if_neg he]
          have := headerGo_eq hle' cfg.sep cfg.quote _ false [] [] 0 (by omega) (Nat.le_refl _)
          rwa [List.drop_zero] at this
      rw [hh, Option.bind_some, htake]
      generalize parseHeader cfg.sep cfg.quote (m.take e) = names
      by_cases hc : (checkHeader st.collector names).1 = true
      · rw [if_pos hc, if_pos hc]
      · rw [if_neg hc, if_neg hc, if_neg (by omega)]
        have hd : (m.take size).drop e = (m.drop e).take (size - e) := List.drop_take ..
        rw [inferFromSample_eq ht (show size - e ≤ (m.drop e).length by rw [List.length_drop]; omega), hd]
        rfl
    | false =>
      simp only [Bool.false_eq_true, if_false]
      have hcc := countCols_eq hle' cfg.sep cfg.quote _ false 1 0 (by omega) (Nat.le_refl _)
      rw [List.drop_zero] at hcc
      rw [hcc, Option.bind_some, htake, inferFromSample_eq ht hs]
      rfl

theorem mapM_eq {α β : Type} (f : α → Option β) (g : α → β) : ∀ l : List α, (∀ x ∈ l, f x = some (g x)) → l.mapM f = some (l.map g) := by
  intro l
  induction l with
  | nil => intro _; rfl
  | cons a l ih =>
    intro h
    rw [List.mapM_cons, h a (by simp), ih (fun x hx => h x (by simp [hx]))]
    rfl

theorem mapM_lift {α β γ : Type} (f : α → Option γ) (g : β → Option γ) (φ : α → β) : ∀ (l : List α) (r : List γ), (∀ x ∈ l, ∀ y, g (φ x) = some y → f x = some y) →
    (l.map φ).mapM g = some r → l.mapM f = some r := by
  intro l
  induction l with
  | nil => intro r _ h; exact h
  | cons a l ih =>
    intro r h hr
    rw [List.map_cons, List.mapM_cons] at hr
    simp only [Option.bind_eq_bind, Option.bind_eq_some_iff, Option.pure_def] at hr
    obtain ⟨y, h1, ys, h2, h3⟩ := hr
    rw [List.mapM_cons, h a (by simp) y h1, ih ys (fun x hx => h x (by simp [hx])) h2]
    exact h3

theorem slice_eq {m : Bytes} {size : Nat} (hs : size ≤ m.length) {r : Nat × Nat} (h1 : r.1 ≤ r.2) (h2 : r.2 ≤ size) :
    sliceM m r = some (m.drop r.1, r.2 - r.1) ∧ (m.drop r.1).take (r.2 - r.1) = slice (m.take size) r ∧ r.2 - r.1 ≤ (m.drop r.1).length := by
  refine ⟨?_, ?_, ?_⟩
  · unfold sliceM; rw [if_pos ⟨h1, by omega⟩]
  · unfold slice
    rw [List.drop_take, List.take_take, Nat.min_eq_left (by omega)]
  · rw [List.length_drop]; omega

theorem readChunks_eq {t : Target} {cfg : ReadCfg} (ht : t.Is cfg.cpu) (n : Nat) {m : Bytes} {size : Nat} (hs : size ≤ m.length) (ranges : List (Nat × Nat))
    (hr : ∀ r ∈ ranges, r.1 ≤ r.2 ∧ r.2 ≤ size) {res : ReadResult} (h : readChunks cfg n (ranges.map (slice (m.take size))) = some res) :
    readChunksM t cfg n m ranges = some res := by
  unfold readChunks analyzeAndLink at h
  unfold readChunksM
  have ha : ranges.mapM (fun r => (sliceM m r).bind fun x => analyzeDualM t x.1 x.2 cfg.quote) =
      some ((ranges.map (slice (m.take size))).map (analyzeDual cfg.cpu cfg.quote)) := by
    rw [List.map_map]
    apply mapM_eq
    intro r hrm
    obtain ⟨e1, e2, e3⟩ := slice_eq hs (hr r hrm).1 (hr r hrm).2
    rw [e1, Option.bind_some]
    dsimp only
    rw [analyzeDual_eq ht e3, e2]; rfl
  rw [ha, Option.bind_some]
  dsimp only at h ⊢
  generalize (ranges.map (slice (m.take size))).map (analyzeDual cfg.cpu cfg.quote) = as at h ⊢
  generalize linkStates false as = use at h ⊢
  simp only [Option.bind_eq_bind, Option.bind_eq_some_iff] at h
  obtain ⟨parsed, h1, h2⟩ := h
  have hz : (ranges.map (slice (m.take size))).zip use = (ranges.zip use).map (fun x => (slice (m.take size) x.1, x.2)) := by
    rw [List.zip_map_left]; rfl
  rw [hz] at h1
  have := mapM_lift (fun x : (Nat × Nat) × Bool => (sliceM m x.1).bind fun y => parseChunkM t cfg n x.2 y.1 y.2)
    (fun p : Bytes × Bool => parseChunk cfg n p.2 p.1) (fun x => (slice (m.take size) x.1, x.2)) (ranges.zip use) parsed ?_ h1
  · rw [this, Option.map_some]
    simpa using h2
  · intro x hx y hy
    have hxm : x.1 ∈ ranges := (List.of_mem_zip (a := x.1) (b := x.2) hx).1
    obtain ⟨e1, e2, e3⟩ := slice_eq hs (hr _ hxm).1 (hr _ hxm).2
    rw [e1, Option.bind_some]
    dsimp only at hy ⊢
    rw [← e2] at hy
    exact parseChunk_eq ht n x.2 e3 hy

end Vroom.Mem
