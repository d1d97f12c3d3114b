import Verif.Lemmas.ReaderFile
import Verif.Spec.Convert
import Verif.Props.ParquetFile
import Verif.Props.Queue
/-
Conversion of a table read from CSV to row groups (C34, C52).
-/
namespace Vroom
open Parquet

theorem colsAre_length {n : Nat} {css cols rowss} (h : ColsAre n css cols rowss) :
    css.length = cols.length ∧ css.length = rowss.length := by
  induction h with
  | nil => exact ⟨rfl, rfl⟩
  | cons _ _ _ _ ih => simp only [List.length_cons]; omega

/-- Freshly created builders. -/
theorem create_are (schema : List ColSchema) :
    ColsAre 0 schema (schema.map (fun c => ArrowColumn.create c.type)) (schema.map (fun _ => [])) := by
  induction schema with
  | nil => exact .nil
  | cons c cs ih =>
    refine .cons ?_ ?_ rfl ih
    · show ColHist (ArrowColumn.create c.type) []
      cases ht : c.type with
      | int32 => exact .int32 (xs := []) .new
      | int64 => exact .int64 (xs := []) .new
      | float64 => exact .float64 (xs := []) .new
      | bool => exact .bool (xs := []) .new
      | date => exact .date (xs := []) .new
      | timestamp => exact .timestamp (xs := []) .new
      | string | na | unknown => exact .string (xs := []) .new (by decide)
    · cases ht : c.type <;> (dsimp only; rw [ht]; rfl)

theorem valBytes_bytes (xs : List (Option (List UInt8))) : valBytes (xs.map (·.map .bytes)) = totalBytes xs := by
  simp only [valBytes, totalBytes, List.map_map]
  congr 1
  apply List.map_congr_left
  intro x _
  cases x <;> rfl

theorem valBytes_append (xs ys : List (Option Val)) : valBytes (xs ++ ys) = valBytes xs + valBytes ys := by
  simp [valBytes]

theorem merge_hist {a b : ArrowColumn} {xs ys : List (Option Val)} (ha : ColHist a xs) (hb : ColHist b ys) (ht : a.type = b.type)
    (hb' : a.type = .string → valBytes (xs ++ ys) < 2 ^ 32) : ∃ c, a.mergeFrom b = some c ∧ c.type = a.type ∧ ColHist c (xs ++ ys) := by
  cases ha with
  | int32 ha | int64 ha | float64 ha | bool ha | date ha | timestamp ha =>
    cases hb <;> simp [ArrowColumn.type] at ht
    rename_i h
    refine ⟨_, rfl, rfl, ?_⟩
    rw [← List.map_append]
    constructor
    exact .merge ha h
  | string ha _ =>
    cases hb <;> simp [ArrowColumn.type] at ht
    rename_i h _
    have hv := hb' rfl
    rw [← List.map_append] at hv ⊢
    rw [valBytes_bytes] at hv
    exact ⟨_, rfl, rfl, .string (.merge ha h) hv⟩

theorem mergeColumns_are {n m : Nat} {schema : List ColSchema} {as bs : List ArrowColumn} {xs ys : List (List (Option Val))}
    (ha : ColsAre n schema as xs) (hb : ColsAre m schema bs ys)
    (hs : ∀ j cs, schema[j]? = some cs → stored cs.type = .string →
      valBytes ((List.zipWith (· ++ ·) xs ys).getD j []) < 2 ^ 32) :
    ∃ cs, mergeColumns as bs = some cs ∧ ColsAre (n + m) schema cs (List.zipWith (· ++ ·) xs ys) := by
  induction ha generalizing bs ys with
  | nil => cases hb; exact ⟨[], rfl, .nil⟩
  | @cons c col rows css cols rowss h1 h2 h3 _ ih =>
    cases hb with
    | @cons _ col' rows' _ cols' rowss' k1 k2 k3 k4 =>
      obtain ⟨r, e1, e2, e3⟩ := merge_hist h1 k1 (by rw [h2, k2]) (by rw [h2]; exact hs 0 c rfl)
      obtain ⟨rs, f1, f2⟩ := ih k4 (fun j cs hj ht => hs (j + 1) cs hj ht)
      refine ⟨r :: rs, ?_, .cons e3 (by rw [e2, h2]) (by simp [h3, k3]) f2⟩
      simp [mergeColumns, e1, f1]

/-- Columns of a list of chunks, side by side. -/
def concatCells (init : List (List (Option Val))) (cellss : List (List (List (Option Val)))) : List (List (Option Val)) :=
  cellss.foldl (List.zipWith (· ++ ·)) init

theorem getD_zipWith_append (xs ys : List (List (Option Val))) (h : xs.length = ys.length) (j : Nat) :
    (List.zipWith (· ++ ·) xs ys).getD j [] = xs.getD j [] ++ ys.getD j [] := by
  induction xs generalizing ys j with
  | nil => cases ys with
    | nil => simp
    | cons y ys => simp at h
  | cons x xs ih =>
    cases ys with
    | nil => simp at h
    | cons y ys =>
      cases j with
      | zero => rfl
      | succ j => simpa using ih ys (by simpa using h) j

theorem concatCells_getD {schema : List ColSchema} {chunks : List (List ArrowColumn)} {cellss : List (List (List (Option Val)))}
    (h : ChunksAre schema chunks cellss) : ∀ (xs : List (List (Option Val))) (_ : xs.length = schema.length) (j : Nat),
    (concatCells xs cellss).getD j [] = xs.getD j [] ++ tableColumn cellss j := by
  induction h with
  | nil => intro xs _ j; simp [concatCells, tableColumn]
  | @cons c cells cs cellss k h1 _ ih =>
    intro xs hx j
    have hl := (colsAre_length h1).2
    have := ih (List.zipWith (· ++ ·) xs cells) (by simp; omega) j
    simp only [concatCells, List.foldl_cons, tableColumn, List.map_cons, List.flatten_cons] at this ⊢
    rw [this, getD_zipWith_append xs cells (by omega), List.append_assoc]

theorem mergeAll_are {schema : List ColSchema} {chunks : List (List ArrowColumn)}
    {cellss : List (List (List (Option Val)))} (h : ChunksAre schema chunks cellss) :
    ∀ {n : Nat} {as : List ArrowColumn} {xs : List (List (Option Val))}, ColsAre n schema as xs →
      (∀ j cs, schema[j]? = some cs → stored cs.type = .string → valBytes ((concatCells xs cellss).getD j []) < 2 ^ 32) →
      ∃ cs, chunks.foldlM mergeColumns as = some cs ∧ ∃ m, ColsAre m schema cs (concatCells xs cellss) := by
  induction h with
  | nil => intro n as xs ha _; exact ⟨as, rfl, n, ha⟩
  | @cons c cells cs cellss k h1 h2 ih =>
    intro n as xs ha hs
    have hl := (colsAre_length ha).2
    have hl' := (colsAre_length h1).2
    obtain ⟨r, e1, e2⟩ := mergeColumns_are ha h1 (by
      intro j cs hj ht
      have := hs j cs hj ht
      simp only [concatCells, List.foldl_cons] at this
      have h3 := concatCells_getD h2 (List.zipWith (· ++ ·) xs cells) (by simp; omega) j
      simp only [concatCells] at h3
      rw [h3, valBytes_append] at this
      omega)
    obtain ⟨rs, f1, f2⟩ := ih e2 hs
    refine ⟨rs, ?_, f2⟩
    rw [List.foldlM_cons, e1]
    exact f1

/-! ### Batches -/

theorem chunksAre_length {schema : List ColSchema} {chunks cellss} (h : ChunksAre schema chunks cellss) :
    chunks.length = cellss.length := by
  induction h with
  | nil => rfl
  | cons _ _ _ ih => simp [ih]

theorem chunksAre_drop {schema : List ColSchema} {chunks cellss} (h : ChunksAre schema chunks cellss) (n : Nat) :
    ChunksAre schema (chunks.drop n) (cellss.drop n) := by
  induction n generalizing chunks cellss with
  | zero => exact h
  | succ n ih =>
    cases h with
    | nil => exact .nil
    | cons _ _ h2 => exact ih h2

theorem chunksAre_take {schema : List ColSchema} {chunks cellss} (h : ChunksAre schema chunks cellss) (n : Nat) :
    ChunksAre schema (chunks.take n) (cellss.take n) := by
  induction n generalizing chunks cellss with
  | zero => exact .nil
  | succ n ih =>
    cases h with
    | nil => exact .nil
    | cons k h1 h2 => exact .cons k h1 (ih h2)

theorem chunksAre_append {schema : List ColSchema} {a b x y} (h : ChunksAre schema a x) (h' : ChunksAre schema b y) :
    ChunksAre schema (a ++ b) (x ++ y) := by
  induction h with
  | nil => exact h'
  | cons k h1 _ ih => exact .cons k h1 ih

/-- The slices of consecutive batches put together are the chunks from the first start on. -/
theorem batchGo_cover {α : Type} (target : Nat) (all : List α) (rest : List (List ArrowColumn)) :
    ∀ (i start rows : Nat), start ≤ i → i + rest.length = all.length →
      ((batchGo target i start rows rest).map (fun b => (all.drop b.1).take (b.2 - b.1))).flatten = all.drop start := by
  induction rest with
  | nil =>
    intro i start rows hs hl
    simp only [batchGo]
    simp only [List.length_nil, Nat.add_zero] at hl
    by_cases h : start < i
    · rw [if_pos h]
      rw [List.map_singleton, List.flatten_singleton, hl]
      exact List.take_of_length_le (by simp)
    · rw [if_neg h]
      simp; omega
  | cons c cs ih =>
    intro i start rows hs hl
    simp only [List.length_cons] at hl
    cases c with
    | nil => exact ih (i + 1) start rows (by omega) (by omega)
    | cons col cols =>
      simp only [batchGo]
      by_cases h : rows + col.size ≥ target
      · rw [if_pos h]
        simp only [List.map_cons, List.flatten_cons]
        rw [ih (i + 1) (i + 1) 0 (by omega) (by omega)]
        conv_rhs => rw [← List.take_append_drop (i + 1 - start) (all.drop start)]
        rw [List.drop_drop, show start + (i + 1 - start) = i + 1 by omega]
      · rw [if_neg h]
        exact ih (i + 1) start _ (by omega) (by omega)

theorem valBytes_slice (cellss : List (List (List (Option Val)))) (a n j : Nat) :
    valBytes (tableColumn ((cellss.drop a).take n) j) ≤ valBytes (tableColumn cellss j) := by
  have e : tableColumn cellss j = tableColumn (cellss.take a) j ++
      (tableColumn ((cellss.drop a).take n) j ++ tableColumn ((cellss.drop a).drop n) j) := by
    simp only [tableColumn, ← List.flatten_append, ← List.map_append, List.take_append_drop]
  rw [e, valBytes_append, valBytes_append]
  omega

theorem mergeBatches {schema : List ColSchema}
    {chunks : List (List ArrowColumn)} {cellss : List (List (List (Option Val)))} (h : ChunksAre schema chunks cellss)
    (hs : ∀ j cs, schema[j]? = some cs → stored cs.type = .string → valBytes (tableColumn cellss j) < 2 ^ 32)
    (bs : List (Nat × Nat)) :
    ∃ gs gcells, bs.mapM (mergeBatch schema chunks) = some gs ∧ ChunksAre schema gs gcells ∧
      ∀ j, tableColumn gcells j = ((bs.map (fun b => (cellss.drop b.1).take (b.2 - b.1))).map (fun cs => tableColumn cs j)).flatten := by
  induction bs with
  | nil => exact ⟨[], [], rfl, .nil, fun j => rfl⟩
  | cons b bs ih =>
    obtain ⟨gs, gcells, e1, e2, e3⟩ := ih
    have hc := create_are schema
    have hsl := chunksAre_take (chunksAre_drop h b.1) (b.2 - b.1)
    obtain ⟨g, f1, m, f2⟩ := mergeAll_are hsl hc (by
      intro j cs hj ht
      rw [concatCells_getD hsl (schema.map (fun _ => [])) (by simp) j, valBytes_append]
      have h0 : (schema.map (fun _ => ([] : List (Option Val)))).getD j [] = [] := by
        simp only [List.getD_eq_getElem?_getD, List.getElem?_map]
        cases schema[j]? <;> simp
      rw [h0]
      have := valBytes_slice cellss b.1 (b.2 - b.1) j
      have := hs j cs hj ht
      simp only [valBytes, List.map_nil, List.sum_nil] at *
      omega)
    refine ⟨g :: gs, _ :: gcells, ?_, .cons m f2 e2, ?_⟩
    · rw [List.mapM_cons]
      rw [e1, show mergeBatch schema chunks b = some g from f1]; rfl
    · intro j
      have := concatCells_getD hsl (schema.map (fun _ => [])) (by simp) j
      simp only [List.map_cons, List.flatten_cons]
      rw [← e3 j]
      simp only [tableColumn, List.map_cons, List.flatten_cons] at this ⊢
      rw [this]
      congr 1
      simp only [List.getD_eq_getElem?_getD, List.getElem?_map]
      cases schema[j]? <;> simp

theorem flatten_tableColumn (css : List (List (List (List (Option Val))))) (j : Nat) :
    (css.map (fun cs => tableColumn cs j)).flatten = tableColumn css.flatten j := by
  induction css with
  | nil => rfl
  | cons c cs ih => simp [tableColumn] at ih ⊢; rw [ih]

theorem filter_nonempty {schema : List ColSchema} (hne : schema ≠ []) {chunks cellss} (h : ChunksAre schema chunks cellss) :
    chunks.filter (fun c => !c.isEmpty) = chunks := by
  induction h with
  | nil => rfl
  | @cons c cells cs cellss k h1 _ ih =>
    have := (colsAre_length h1).1
    have hc : c ≠ [] := by
      intro hz; rw [hz] at this; exact hne (List.length_eq_zero_iff.1 this)
    have hc' : c.isEmpty = false := by simpa using hc
    rw [List.filter_cons, hc', ih]; rfl

/-- **C34** The row groups handed to the writer contain the table: whatever the chunks, every column of
the row groups put together is the column of the chunks put together; nothing lost, duplicated or
reordered; every row group has one builder of the right type per schema column.  (A column whose type is not known is text; its text in all chunks
together stays below 4 GiB, C25.) -/
theorem C34_rows (target : Nat) (schema : List ColSchema) (hne : schema ≠ [])
    {chunks : List (List ArrowColumn)} {cells : List (List (List (Option Val)))} (h : ChunksAre schema chunks cells)
    (hs : ∀ j cs, schema[j]? = some cs → cs.type = .na ∨ cs.type = .unknown → valBytes (tableColumn cells j) < 2 ^ 32) :
    ∃ groups gcells, rowGroupsOf target schema chunks = some groups ∧ ChunksAre schema groups gcells ∧
      ∀ j, tableColumn gcells j = tableColumn cells j := by
  cases h with
  | nil => exact ⟨[], [], rfl, .nil, fun _ => rfl⟩
  | @cons c cell cs cellss k h1 h2 =>
    cases h2 with
    | nil => exact ⟨[c], [cell], rfl, .cons k h1 .nil, fun _ => rfl⟩
    | @cons c' cell' cs' cellss' k' h1' h2' =>
      have hall : ChunksAre schema (c :: c' :: cs') (cell :: cell' :: cellss') := .cons k h1 (.cons k' h1' h2')
      simp only [rowGroupsOf]
      by_cases hstr : schema.any (fun c => c.type == .string) = true
      · rw [if_pos hstr, filter_nonempty hne hall]
        exact ⟨_, _, rfl, hall, fun _ => rfl⟩
      · rw [if_neg hstr]
        have hs' : ∀ j cs, schema[j]? = some cs → stored cs.type = .string →
            valBytes (tableColumn (cell :: cell' :: cellss') j) < 2 ^ 32 := by
          intro j c hj ht
          apply hs j c hj
          have hns : c.type ≠ .string := fun ht => hstr (List.any_eq_true.2 ⟨c, List.mem_of_getElem? hj, by simp [ht]⟩)
          cases hc : c.type <;> simp_all [stored]
        obtain ⟨gs, gcells, e1, e2, e3⟩ := mergeBatches hall hs' (batchGo target 0 0 0 (c :: c' :: cs'))
        refine ⟨gs, gcells, e1, e2, ?_⟩
        intro j
        rw [e3 j, flatten_tableColumn, batchGo_cover target (cell :: cell' :: cellss') _ 0 0 0 (by omega)
          (by rw [Nat.zero_add]; exact chunksAre_length hall)]
        rfl

end Vroom

namespace Vroom
open Parquet

/-! ### Row group sizes -/

/-- Rows of a chunk as the batching loop counts them. -/
def colRows : List ArrowColumn → Nat
  | [] => 0
  | c :: _ => c.size

theorem batchGo_sizes (target : Nat) (all : List (List ArrowColumn)) (rest : List (List ArrowColumn)) :
    ∀ (i start rows : Nat), start ≤ i → all.drop i = rest → rows = (((all.drop start).take (i - start)).map colRows).sum →
      ∀ b ∈ (batchGo target i start rows rest).dropLast, target ≤ (((all.drop b.1).take (b.2 - b.1)).map colRows).sum := by
  induction rest with
  | nil =>
    intro i start rows hs hr hsum b hb
    simp only [batchGo] at hb
    split at hb <;> simp at hb
  | cons c cs ih =>
    intro i start rows hs hr hsum b hb
    have hnext : all.drop (i + 1) = cs := by
      rw [← List.drop_drop, hr]; rfl
    have hstep : (((all.drop start).take (i + 1 - start)).map colRows).sum = rows + colRows c := by
      have e : (all.drop start).take (i + 1 - start) = (all.drop start).take (i - start) ++ [c] := by
        rw [show i + 1 - start = (i - start) + 1 by omega, List.take_add_one]
        congr 1
        rw [List.getElem?_drop, show start + (i - start) = i by omega]
        have : all[i]? = some c := by
          have := congrArg (fun l => l[0]?) hr
          simpa [List.getElem?_drop] using this
        rw [this]; rfl
      rw [e, List.map_append, List.sum_append, hsum]; simp
    cases c with
    | nil =>
      simp only [batchGo] at hb
      exact ih (i + 1) start rows (by omega) hnext (by simpa [colRows] using hstep.symm) b hb
    | cons col cols =>
      simp only [batchGo] at hb
      by_cases h : rows + col.size ≥ target
      · rw [if_pos h] at hb
        cases hbs : batchGo target (i + 1) (i + 1) 0 cs with
        | nil => rw [hbs] at hb; simp at hb
        | cons x xs =>
          rw [hbs, List.dropLast_cons_cons, List.mem_cons] at hb
          rcases hb with rfl | hb
          · simp only [hstep, colRows]; exact h
          · exact ih (i + 1) (i + 1) 0 (Nat.le_refl _) hnext (by simp) b (by rw [hbs]; exact hb)
      · rw [if_neg h] at hb
        exact ih (i + 1) start _ (by omega) hnext (by simpa [colRows] using hstep.symm) b hb

/-- **C34** Without string columns, every batch except possibly the last has at least the target number of
rows. -/
theorem C34_batch_sizes (target : Nat) (chunks : List (List ArrowColumn)) :
    ∀ b ∈ (batchGo target 0 0 0 chunks).dropLast, target ≤ (((chunks.drop b.1).take (b.2 - b.1)).map colRows).sum :=
  batchGo_sizes target chunks chunks 0 0 0 (Nat.le_refl _) rfl (by simp)

/-! ### C52 -/

/-- Every failing step has something to say. -/
def Spoken (w : ConvWorld) : Prop :=
  w.openErr ≠ some [] ∧ w.readErr ≠ some [] ∧ w.writerOpenErr ≠ some [] ∧ ¬ w.whats []

theorem convertResult_ok_iff (w : ConvWorld) (hw : Spoken w) (a b : Nat) (e : Option (List UInt8)) (he : e ≠ some []) :
    (convertResult w a b e).ok = true ↔ w.reachesWrite = true ∧ e = none := by
  obtain ⟨h1, h2, h3, -⟩ := hw
  simp only [convertResult, ConvWorld.reachesWrite]
  cases ho : w.openErr with
  | some m => rw [ho] at h1; simp [ConvResult.ok]; simpa using h1
  | none =>
    cases hrd : w.readErr with
    | some m => rw [hrd] at h2; simp [ConvResult.ok]; simpa using h2
    | none =>
      cases hw : w.writerOpenErr with
      | some m =>
        rw [hw] at h3
        rcases hp : w.progress50 with _ | b
        · simp [ConvResult.ok]; simpa using h3
        · cases b
          · simp [ConvResult.ok]; intro h; exact absurd h (by decide +kernel)
          · simp [ConvResult.ok]; simpa using h3
      | none =>
        rcases hp : w.progress50 with _ | b
        · cases e <;> simp [ConvResult.ok]; simpa using he
        · cases b
          · simp [ConvResult.ok]; intro h; exact absurd h (by decide +kernel)
          · cases e <;> simp [ConvResult.ok]; simpa using he

theorem writePhase_msg {env : WEnv} {whats : List UInt8 → Prop} {p : PWriter} {n : Nat} {groups err p'}
    (h : WritePhase env whats p n groups err p') (hw : ¬ whats []) : err ≠ some [] := by
  cases h with
  | direct | finished => simp
  | finishErr what _ h => intro hc; rw [Option.some.injEq] at hc; rw [hc] at h; exact hw h
  | submitErr msg _ _ _ _ h =>
    intro hc
    rw [Option.some.injEq] at hc
    rw [hc] at h
    rcases h with h | h <;> exact absurd h (by decide +kernel)

/-- **C52** A conversion reports success only if the input was opened and read, it was not cancelled, the
output was opened, and every row group was written to the output, which was then closed.  Every failing
step is assumed to come with a non-empty message (see the refutation below). -/
theorem C52_ok_means_done_partial {C : ConvCfg} {w : ConvWorld} {file : Bytes} {start : Nat} {r : ConvResult} {out}
    (h : Converted C w file start r out) (hw : Spoken w) (hok : r.ok = true) :
    w.openErr = none ∧ w.readErr = none ∧ w.progress50 ≠ some false ∧ w.writerOpenErr = none ∧
    ∃ res chunks groups p, readAll C.read C.schema.length C.threshold C.chunkSize file start = some res ∧
      C.typed res.chunks = some chunks ∧ rowGroupsOf C.target C.schema chunks = some groups ∧
      groups.foldlM (PWriter.write C.env) ({ schema := C.schema } : PWriter).openFile = some p ∧ out = some p.close.file ∧
      r.rows = res.rowCount ∧ r.cols = C.schema.length := by
  have hreach : ∀ w : ConvWorld, w.reachesWrite = true →
      w.openErr = none ∧ w.readErr = none ∧ w.progress50 ≠ some false ∧ w.writerOpenErr = none := by
    intro w h
    simpa [ConvWorld.reachesWrite, and_assoc] using h
  cases h with
  | early a b he =>
    have := (convertResult_ok_iff w hw a b none (by simp)).1 hok
    rw [he] at this; simp at this
  | @wrote res chunks groups err p h1 h2 h3 h4 h5 =>
    have hmsg := writePhase_msg h5 hw.2.2.2
    obtain ⟨-, rfl⟩ := (convertResult_ok_iff w hw _ _ _ hmsg).1 hok
    obtain ⟨k1, k2, k3, k4⟩ := hreach w h1
    refine ⟨k1, k2, k3, k4, res, chunks, groups, p, h2, h3, h4, ?_, by simp, ?_, ?_⟩
    · cases h5 with
      | direct _ h => exact h
      | @finished es n k s hn he hrun hf =>
        rw [(C38_success_complete hrun hf).1]
        clear hrun hf h4
        have key : ∀ (gs : List (List ArrowColumn)) (es : List EncodedRowGroup) (q : PWriter), q.schema = C.schema →
            (gs.filter (fun g => !g.isEmpty)).mapM (encodeRowGroup C.env C.schema) = some es →
            gs.foldlM (PWriter.write C.env) q = some (es.foldl PWriter.writeEncoded q) := by
          intro gs
          induction gs with
          | nil => intro es q hq he; simp at he; subst he; rfl
          | cons g gs ih =>
            intro es q hq he
            rw [List.filter_cons] at he
            rw [List.foldlM_cons]
            cases hg : g.isEmpty with
            | true =>
              rw [hg] at he
              have hw : q.write C.env g = some q := by simp only [PWriter.write]; rw [if_pos hg]
              rw [hw]
              exact ih es q hq (by simpa using he)
            | false =>
              rw [hg] at he
              simp only [Bool.not_false, if_true, List.mapM_cons] at he
              cases hx : encodeRowGroup C.env C.schema g with
              | none => rw [hx] at he; simp at he
              | some e =>
                rw [hx] at he
                cases hy : (gs.filter (fun g => !g.isEmpty)).mapM (encodeRowGroup C.env C.schema) with
                | none => rw [hy] at he; simp at he
                | some es' =>
                  rw [hy] at he
                  simp at he
                  subst he
                  have hw : q.write C.env g = some (q.writeEncoded e) := by
                    simp only [PWriter.write, hq, hx]; rw [if_neg (by simp [hg])]; rfl
                  rw [hw]
                  exact ih es' _ (by rw [writeEncoded_eq]; exact hq) hy
        exact key groups es _ rfl he
    · simp only [convertResult, k1, k2, k4]
    · simp only [convertResult, k1, k2, k4]

end Vroom

namespace Vroom
open Parquet

/-! ### Columns built from cells -/

theorem toNat_ofInt32 (i : Int) : (Int32.ofInt i).toUInt32.toNat = (i % 2 ^ 32).toNat := by
  show (BitVec.ofInt 32 i).toNat = _
  simp [BitVec.toNat_ofInt]

theorem toNat_ofInt64 (i : Int) : (Int64.ofInt i).toUInt64.toNat = (i % 2 ^ 64).toNat := by
  show (BitVec.ofInt 64 i).toNat = _
  simp [BitVec.toNat_ofInt]

/-- Like `ColHist`, without the bound on the bytes of string columns. -/
inductive ColHist0 : ArrowColumn → List (Option Val) → Prop
  | int32 {c xs} (h : NumHist UInt32 0 c xs) : ColHist0 (.int32 c) (xs.map (·.map (fun v => .num v.toNat)))
  | int64 {c xs} (h : NumHist UInt64 0 c xs) : ColHist0 (.int64 c) (xs.map (·.map (fun v => .num v.toNat)))
  | float64 {c xs} (h : NumHist UInt64 quietNaN c xs) : ColHist0 (.float64 c) (xs.map (·.map (fun v => .num v.toNat)))
  | date {c xs} (h : NumHist UInt32 0 c xs) : ColHist0 (.date c) (xs.map (·.map (fun v => .num v.toNat)))
  | timestamp {c xs} (h : NumHist UInt64 0 c xs) : ColHist0 (.timestamp c) (xs.map (·.map (fun v => .num v.toNat)))
  | bool {c xs} (h : NumHist UInt8 0 c xs) : ColHist0 (.bool c) (xs.map (·.map (fun v => .bool (v != 0))))
  | string {c xs} (h : StrHist c xs) : ColHist0 (.string c) (xs.map (·.map .bytes))

theorem appendNull_hist {col : ArrowColumn} {xs : List (Option Val)} (h : ColHist0 col xs) :
    col.appendNull.type = col.type ∧ ColHist0 col.appendNull (xs ++ [none]) := by
  cases h with
  | int32 h => exact ⟨rfl, by simpa [ArrowColumn.appendNull] using ColHist0.int32 h.appendNull⟩
  | int64 h => exact ⟨rfl, by simpa [ArrowColumn.appendNull] using ColHist0.int64 h.appendNull⟩
  | float64 h => exact ⟨rfl, by simpa [ArrowColumn.appendNull] using ColHist0.float64 h.appendNull⟩
  | date h => exact ⟨rfl, by simpa [ArrowColumn.appendNull] using ColHist0.date h.appendNull⟩
  | timestamp h => exact ⟨rfl, by simpa [ArrowColumn.appendNull] using ColHist0.timestamp h.appendNull⟩
  | bool h => exact ⟨rfl, by simpa [ArrowColumn.appendNull] using ColHist0.bool h.appendNull⟩
  | string h => exact ⟨rfl, by simpa [ArrowColumn.appendNull] using ColHist0.string h.appendNull⟩

/-- Storing has undefined behaviour for this text (integer minimum, see C17). -/
def StoresUB (lanes : Nat) (floatBits : Bytes → Option UInt64) (t : DataType) (v : Bytes) : Prop :=
  storeText lanes (fun v => (floatBits v).isSome) t v = .ub

theorem appendCell_hist (lanes : Nat) (fb : Bytes → Option UInt64) {col : ArrowColumn} {xs : List (Option Val)} (h : ColHist0 col xs)
    (c : Cell) (hub : ∀ v, c = .text v → ¬ StoresUB lanes fb col.type v) :
    ∃ col', col.appendCell lanes fb c = some col' ∧ col'.type = col.type ∧
      ColHist0 col' (xs ++ [cellVal lanes fb col.type c.toOption]) := by
  cases c with
  | null => exact ⟨_, rfl, appendNull_hist h⟩
  | text v =>
    have hu := hub v rfl
    simp only [StoresUB] at hu
    simp only [ArrowColumn.appendCell, ArrowColumn.appendText, Cell.toOption, cellVal]
    have hnull := appendNull_hist h
    cases h with
    | int32 h =>
      simp only [ArrowColumn.type] at hu ⊢
      simp only [storeText] at hu ⊢
      cases hp : parseInt32Simd lanes v with
      | ok i =>
        refine ⟨_, rfl, rfl, ?_⟩
        have := ColHist0.int32 (h.append (Int32.ofInt i).toUInt32)
        simpa [Outcome.stored, toNat_ofInt32] using this
      | reject => exact ⟨_, rfl, hnull⟩
      | ub => rw [hp] at hu; exact absurd rfl hu
    | int64 h =>
      simp only [ArrowColumn.type] at hu ⊢
      simp only [storeText] at hu ⊢
      cases hp : parseInt64Simd lanes v with
      | ok i =>
        refine ⟨_, rfl, rfl, ?_⟩
        have := ColHist0.int64 (h.append (Int64.ofInt i).toUInt64)
        simpa [Outcome.stored, toNat_ofInt64] using this
      | reject => exact ⟨_, rfl, hnull⟩
      | ub => rw [hp] at hu; exact absurd rfl hu
    | float64 h =>
      simp only [ArrowColumn.type] at hu ⊢
      simp only [storeText] at hu ⊢
      by_cases hf : (fb v).isSome = true
      · rw [if_pos hf]
        obtain ⟨b, hb⟩ := Option.isSome_iff_exists.1 hf
        simp only [hb]
        refine ⟨_, rfl, rfl, ?_⟩
        have := ColHist0.float64 (h.append b)
        simpa using this
      · rw [if_neg hf]
        exact ⟨_, rfl, hnull⟩
    | bool h =>
      simp only [ArrowColumn.type] at hu ⊢
      simp only [storeText] at hu ⊢
      by_cases h1 : v ∈ trueTokens
      · rw [if_pos h1]
        refine ⟨_, rfl, rfl, ?_⟩
        have := ColHist0.bool (h.append 1)
        simpa using this
      · rw [if_neg h1]
        by_cases h2 : v ∈ falseTokens
        · rw [if_pos h2]
          refine ⟨_, rfl, rfl, ?_⟩
          have := ColHist0.bool (h.append 0)
          simpa using this
        · rw [if_neg h2]
          exact ⟨_, rfl, hnull⟩
    | date h =>
      simp only [ArrowColumn.type] at hu ⊢
      simp only [storeText] at hu ⊢
      by_cases h1 : v = []
      · rw [if_pos h1]; exact ⟨_, rfl, hnull⟩
      · rw [if_neg h1]
        cases hp : parseDate v with
        | none => exact ⟨_, rfl, hnull⟩
        | some i =>
          refine ⟨_, rfl, rfl, ?_⟩
          have := ColHist0.date (h.append (Int32.ofInt i).toUInt32)
          simpa [toNat_ofInt32] using this
    | timestamp h =>
      simp only [ArrowColumn.type] at hu ⊢
      simp only [storeText] at hu ⊢
      by_cases h1 : v = []
      · rw [if_pos h1]; exact ⟨_, rfl, hnull⟩
      · rw [if_neg h1]
        cases hp : parseTimestamp v with
        | none => exact ⟨_, rfl, hnull⟩
        | some i =>
          refine ⟨_, rfl, rfl, ?_⟩
          have := ColHist0.timestamp (h.append (Int64.ofInt i).toUInt64)
          simpa [toNat_ofInt64] using this
    | string h =>
      simp only [ArrowColumn.type, storeText]
      refine ⟨_, rfl, rfl, ?_⟩
      have := ColHist0.string (h.append v)
      simpa using this

theorem build_hist0 (lanes : Nat) (fb : Bytes → Option UInt64) (cells : List Cell) :
    ∀ {col : ArrowColumn} {xs : List (Option Val)}, ColHist0 col xs →
    (∀ v, Cell.text v ∈ cells → ¬ StoresUB lanes fb col.type v) →
    ∃ col', cells.foldlM (ArrowColumn.appendCell lanes fb) col = some col' ∧ col'.type = col.type ∧
      ColHist0 col' (xs ++ cells.map (fun c => cellVal lanes fb col.type c.toOption)) := by
  induction cells with
  | nil => intro col xs h _; exact ⟨col, rfl, rfl, by simpa using h⟩
  | cons c cs ih =>
    intro col xs h hub
    obtain ⟨c1, e1, e2, e3⟩ := appendCell_hist lanes fb h c (fun v hv => hub v (by simp [hv]))
    obtain ⟨c2, f1, f2, f3⟩ := ih e3 (fun v hv => by rw [e2]; exact hub v (List.mem_cons_of_mem _ hv))
    refine ⟨c2, ?_, by rw [f2, e2], ?_⟩
    · rw [List.foldlM_cons, e1]; exact f1
    · rw [e2] at f3
      simpa using f3

theorem create_hist0 (t : DataType) :
    (ArrowColumn.create t).type = stored t ∧ ColHist0 (ArrowColumn.create t) [] := by
  cases t with
  | int32 => exact ⟨rfl, .int32 (xs := []) .new⟩
  | int64 => exact ⟨rfl, .int64 (xs := []) .new⟩
  | float64 => exact ⟨rfl, .float64 (xs := []) .new⟩
  | bool => exact ⟨rfl, .bool (xs := []) .new⟩
  | date => exact ⟨rfl, .date (xs := []) .new⟩
  | timestamp => exact ⟨rfl, .timestamp (xs := []) .new⟩
  | string | na | unknown => exact ⟨rfl, .string (xs := []) .new⟩

/-- Bytes of the text cells of a column. -/
def cellBytes (cells : List Cell) : Nat := (cells.map (fun c => (c.toOption.getD []).length)).sum

/-- A builder fed with cells holds their typed values. -/
theorem build_hist (lanes : Nat) (fb : Bytes → Option UInt64) (t' : DataType) (cells : List Cell)
    (hub : ∀ v, Cell.text v ∈ cells → ¬ StoresUB lanes fb (stored t') v) (hb : stored t' = .string → cellBytes cells < 2 ^ 32) :
    ∃ col, ArrowColumn.build lanes fb t' cells = some col ∧ col.type = stored t' ∧
      ColHist col (cells.map (fun c => cellVal lanes fb (stored t') c.toOption)) := by
  obtain ⟨h1, h2⟩ := create_hist0 t'
  generalize stored t' = t at *
  obtain ⟨col, e1, e2, e3⟩ := build_hist0 lanes fb cells h2 (by rw [h1]; exact hub)
  rw [h1] at e2 e3
  refine ⟨col, e1, e2, ?_⟩
  rw [List.nil_append] at e3
  generalize hxs : cells.map (fun c => cellVal lanes fb t c.toOption) = xs at e3
  cases e3 with
  | int32 h => exact .int32 h
  | int64 h => exact .int64 h
  | float64 h => exact .float64 h
  | bool h => exact .bool h
  | date h => exact .date h
  | timestamp h => exact .timestamp h
  | @string c ys h =>
    refine .string h ?_
    have hts : t = .string := by rw [← e2]; rfl
    subst hts
    have hb := hb rfl
    have hys : ys = cells.map Cell.toOption := by
      have hi : Function.Injective (fun o : Option Bytes => o.map Val.bytes) := by
        intro a b hab
        cases a <;> cases b <;> simp_all
      apply List.map_injective_iff.2 hi
      rw [← hxs, List.map_map]
      apply List.map_congr_left
      intro c _
      cases c <;> rfl
    rw [hys]
    simpa [totalBytes, cellBytes, Function.comp_def] using hb

/- A run that meets the hypotheses, with its file, is built in Props/EndToEnd (namespace `Demo`). -/

end Vroom
