import Verif.Lemmas.Statistics
import Mathlib.Tactic.ByContra

/-!
C39: column statistics are exact.
-/
namespace Vroom

theorem reports_of_exact {α : Type} {o : StatOps α} {cells : List (Option α)} {s : Stats α} (h : ExactStats o cells s) :
    Reports o.lt cells s.nulls s.values s.has s.min s.max := ⟨h.nulls, h.values, h.brackets.1, h.brackets.2⟩

theorem intOps_cmp (n : Nat) : CmpOk (intOps n).lt (intOps n).nan :=
  ⟨by simp [intOps], by simp [intOps]; omega, by simp [intOps]; omega⟩

theorem intOps_min (n : Nat) : LaneOk (intOps n).lt (intOps n).nan (intOps n).hmin := by
  intro a b _ _; simp [intOps]; omega

theorem intOps_max (n : Nat) : LaneOk (fun a b => (intOps n).lt b a) (intOps n).nan (intOps n).hmax := by
  intro a b _ _; simp [intOps]; omega

theorem bytes_lt_asymm {a b : List UInt8} (h : a < b) : ¬ b < a := List.lt_asymm h
theorem bytes_trans {a b c : List UInt8} (h1 : ¬ a < b) (h2 : ¬ b < c) : ¬ a < c := by
  rw [List.not_lt] at *; exact List.le_trans h2 h1

theorem strOps_cmp : CmpOk strOps.lt strOps.nan :=
  ⟨fun a => by simp [strOps, List.lt_irrefl], fun a b h => by simp [strOps] at *; exact List.le_of_lt h,
   fun a b c _ h1 h2 => by simp [strOps] at *; exact List.le_trans h2 h1⟩

theorem f64_cmp (hmin hmax : UInt64 → UInt64 → UInt64) (n : Nat) : CmpOk (f64Ops hmin hmax n).lt (f64Ops hmin hmax n).nan := by
  refine ⟨?_, ?_, ?_⟩
  · intro a; simp [f64Ops, f64Lt]
  · intro a b; simp [f64Ops, f64Lt]; omega
  · intro a b c hb h1 h2
    simp only [f64Ops] at *
    simp only [f64Lt, hb, Bool.not_false, Bool.true_and, Bool.and_true, Bool.and_eq_false_iff, decide_eq_false_iff_not] at *
    rcases h1 with h1 | h1
    · exact .inl (.inl h1)
    rcases h2 with h2 | h2
    · exact .inl (.inr h2)
    exact .inr (by omega)

/-- Integer statistics, vectorised batches included: for every history of calls, any vector width. -/
theorem C39_int (lanes : Nat) (hl : 0 < lanes) (filler : Int) (h : StatHistory Int) :
    let s := Stats.runInt (intOps lanes) filler h
    Reports (fun a b => decide (a < b)) (h.cells (fun _ => false)) s.nulls s.values s.has s.min s.max := by
  apply reports_of_exact (o := intOps lanes)
  have hc := intOps_cmp lanes
  induction h with
  | new => exact exact_new _
  | value h v ih => exact exact_value hc v (clean_cells _ h) ih
  | null h ih => exact exact_null ih
  | batch h vs ih =>
    have := exact_batchInt hc (intOps_min lanes) (intOps_max lanes) hl vs (fun _ _ => rfl) _ _ (clean_cells _ h) ih
    exact this
  | batchNulls h vs bm ih =>
    simp only [Stats.runInt, Stats.updateBatchNullsInt, splitNulls_eq]
    have h1 := exact_nullsN (nullCount (bitmapCells vs bm)) ih
    have hcl : Clean (intOps lanes).nan (h.cells (fun _ => false) ++ List.replicate (nullCount (bitmapCells vs bm)) none) := fun _ _ => rfl
    have h2 := exact_batchInt hc (intOps_min lanes) (intOps_max lanes) hl (present (bitmapCells vs bm)) (fun _ _ => rfl) _ _ hcl h1
    refine exact_congr_perm ?_ ?_ h2
    · rw [StatHistory.cells, nullCount_append, nullCount_append, nullCount_append, nullCount_filter, nullCount_map_some, nullCount_replicate]
      simp
    · rw [StatHistory.cells, present_append, present_append, present_append, present_filter, present_map_some, present_replicate]
      simp
  | merge h k ih1 ih2 => exact exact_merge hc (clean_cells _ h) (clean_cells _ k) ih1 ih2
  | reset h ih => exact exact_new _

/-- String statistics (bytewise lexicographic order). -/
theorem C39_string (filler : List UInt8) (h : StatHistory (List UInt8)) :
    let s := Stats.runPlain strOps filler h
    Reports (fun a b => decide (a < b)) (h.cells (fun _ => false)) s.nulls s.values s.has s.min s.max := by
  apply reports_of_exact (o := strOps)
  have hc := strOps_cmp
  induction h with
  | new => exact exact_new _
  | value h v ih => exact exact_value hc v (clean_cells _ h) ih
  | null h ih => exact exact_null ih
  | batch h vs ih => exact exact_updateBatch hc vs _ _ (clean_cells _ h) ih
  | batchNulls h vs bm ih => exact exact_updateBatchNulls hc vs bm _ _ (clean_cells _ h) ih
  | merge h k ih1 ih2 => exact exact_merge hc (clean_cells _ h) (clean_cells _ k) ih1 ih2
  | reset h ih => exact exact_new _

/-- Floating-point statistics: NaN counts as null. Batches without bitmap must not contain NaN (see the refutations
below). The lane operations are only assumed to be right on numbers. -/
theorem C39_double_partial (hmin hmax : UInt64 → UInt64 → UInt64) (lanes : Nat) (hl : 0 < lanes)
    (hmin_ok : ∀ a b, f64NaN a = false → f64NaN b = false →
      (hmin a b = a ∨ hmin a b = b) ∧ f64Lt a (hmin a b) = false ∧ f64Lt b (hmin a b) = false)
    (hmax_ok : ∀ a b, f64NaN a = false → f64NaN b = false →
      (hmax a b = a ∨ hmax a b = b) ∧ f64Lt (hmax a b) a = false ∧ f64Lt (hmax a b) b = false)
    (filler : UInt64) (h : StatHistory UInt64) (hn : h.NoNanBatch f64NaN) :
    let s := Stats.runFloat (f64Ops hmin hmax lanes) filler h
    Reports f64Lt (h.cells f64NaN) s.nulls s.values s.has s.min s.max := by
  apply reports_of_exact (o := f64Ops hmin hmax lanes)
  have hc := f64_cmp hmin hmax lanes
  induction h with
  | new => exact exact_new _
  | value h v ih => exact exact_value hc v (clean_cells _ h) (ih hn)
  | null h ih => exact exact_null (ih hn)
  | batch h vs ih =>
    have := exact_batchFloat hc hmin_ok hmax_ok hl vs hn.2 _ _ (clean_cells _ h) (ih hn.1)
    rw [StatHistory.cells, map_some_clean _ vs hn.2]
    exact this
  | batchNulls h vs bm ih =>
    have ih := ih hn
    obtain ⟨cs, hcs⟩ : ∃ cs, cs = bitmapCells vs bm := ⟨_, rfl⟩
    have hp := present_filter f64NaN cs
    have hnc := nullCount_filter f64NaN cs
    have h1 := exact_nullsN (nullCount cs + ((present cs).filter f64NaN).length) ih
    have hcl : Clean f64NaN (h.cells f64NaN ++ List.replicate (nullCount cs + ((present cs).filter f64NaN).length) none) :=
      clean_append (clean_cells _ h) (by intro x hx; simp [present] at hx)
    have hvs : ∀ v ∈ (present cs).filter (fun v => !f64NaN v), f64NaN v = false := by intro v hv; simpa using (List.mem_filter.1 hv).2
    have h2 := exact_batchFloat hc hmin_ok hmax_ok hl _ hvs _ _ hcl h1
    have h3 := fun hn hp => exact_congr_perm (b := (h.batchNulls vs bm).cells f64NaN) hn hp h2
    have h3 := h3
      (by rw [StatHistory.cells, ← hcs, nullCount_append, nullCount_append, nullCount_append, hnc, nullCount_map_some, nullCount_replicate]
          simp)
      (by rw [StatHistory.cells, ← hcs, present_append, present_append, present_append, hp, present_map_some, present_replicate]
          simp)
    simp only [Stats.runFloat, Stats.updateBatchNullsFloat, splitNulls_eq, ← hcs]
    simp only [Stats.updateBatchFloat, Nat.add_assoc] at h3 ⊢
    exact h3
  | merge h k ih1 ih2 => exact exact_merge hc (clean_cells _ h) (clean_cells _ k) (ih1 hn.1) (ih2 hn.2)
  | reset h ih => exact exact_new _

/-- Highway's minimum and maximum on x86 meet the contract. -/
theorem C39_double_x86_partial (lanes : Nat) (hl : 0 < lanes) (filler : UInt64) (h : StatHistory UInt64) (hn : h.NoNanBatch f64NaN) :
    let s := Stats.runFloat (f64Ops x86Min x86Max lanes) filler h
    Reports f64Lt (h.cells f64NaN) s.nulls s.values s.has s.min s.max := by
  have hc := f64_cmp x86Min x86Max lanes
  refine C39_double_partial x86Min x86Max lanes hl ?_ ?_ filler h hn
  · intro a b _ _
    simp only [x86Min]
    by_cases hab : f64Lt a b = true
    · rw [if_pos hab]; exact ⟨.inl rfl, hc.irrefl a, hc.asymm a b hab⟩
    · rw [if_neg hab]; exact ⟨.inr rfl, by simpa using hab, hc.irrefl b⟩
  · intro a b _ _
    simp only [x86Max]
    by_cases hab : f64Lt b a = true
    · rw [if_pos hab]; exact ⟨.inl rfl, hc.irrefl a, hc.asymm b a hab⟩
    · rw [if_neg hab]; exact ⟨.inr rfl, by simpa using hab, hc.irrefl b⟩

/-! ### Booleans -/

/-- The flags say which values occurred. -/
structure BoolExact (cells : List (Option Bool)) (s : BoolStats) : Prop where
  nulls : s.nulls = nullCount cells
  values : s.values = (present cells).length
  t : s.hasTrue = true ↔ true ∈ present cells
  f : s.hasFalse = true ↔ false ∈ present cells

theorem boolExact_value {cells : List (Option Bool)} {s : BoolStats} (v : Bool) (h : BoolExact cells s) :
    BoolExact (cells ++ [some v]) (s.update v) := by
  obtain ⟨h1, h2, h3, h4⟩ := h
  have e1 : nullCount (cells ++ [some v]) = nullCount cells := by rw [nullCount_append]; rfl
  have e2 : present (cells ++ [some v]) = present cells ++ [v] := by rw [present_append]; rfl
  cases v <;> constructor <;> simp [BoolStats.update, e1, e2, h1, h2, h3, h4]

theorem boolExact_null {cells : List (Option Bool)} {s : BoolStats} (h : BoolExact cells s) : BoolExact (cells ++ [none]) s.updateNull := by
  obtain ⟨h1, h2, h3, h4⟩ := h
  have e1 : nullCount (cells ++ [none]) = nullCount cells + 1 := by rw [nullCount_append]; rfl
  have e2 : present (cells ++ [none]) = present cells := by rw [present_append]; simp [present]
  constructor <;> simp [BoolStats.updateNull, e1, e2, h1, h2, h3, h4]

theorem boolExact_run (h : StatHistory Bool) : BoolExact (h.cells (fun _ => false)) (BoolStats.run h) := by
  induction h with
  | new => constructor <;> simp [BoolStats.run, StatHistory.cells, nullCount, present]
  | value h v ih => exact boolExact_value v ih
  | null h ih => exact boolExact_null ih
  | batch h vs ih =>
    simp only [StatHistory.cells, BoolStats.run, BoolStats.updateBatch]
    generalize h.cells (fun _ => false) = cells at *
    generalize BoolStats.run h = s at *
    induction vs generalizing cells s with
    | nil => simpa using ih
    | cons v vs ihv => simpa using ihv _ _ (boolExact_value v ih)
  | batchNulls h vs bm ih =>
    simp only [StatHistory.cells, BoolStats.run, BoolStats.updateBatchNulls]
    have hz := zipIdx_bitmap bm vs 0
    rw [List.drop_zero] at hz
    rw [← hz]
    generalize h.cells (fun _ => false) = cells at *
    generalize BoolStats.run h = s at *
    generalize vs.zipIdx = ps
    clear hz
    induction ps generalizing cells s with
    | nil => simpa using ih
    | cons p ps ihv =>
      rw [List.foldl_cons, List.map_cons, List.map_cons]
      by_cases hp : Stats.nullAt bm p.2 = true
      · rw [if_pos hp, if_pos hp]; simpa using ihv _ _ (boolExact_null ih)
      · rw [if_neg hp, if_neg hp, filter_some_eq (fun _ : Bool => false)]; simpa using ihv _ _ (boolExact_value p.1 ih)
  | merge h k ih1 ih2 =>
    obtain ⟨h1, h2, h3, h4⟩ := ih1
    obtain ⟨k1, k2, k3, k4⟩ := ih2
    constructor <;> simp [BoolStats.run, BoolStats.merge, StatHistory.cells, nullCount_append, present_append, h1, h2, h3, h4, k1, k2, k3, k4]
  | reset h ih => constructor <;> simp [BoolStats.run, StatHistory.cells, nullCount, present]

/-- Boolean statistics, with false below true. -/
theorem C39_bool (h : StatHistory Bool) :
    let s := BoolStats.run h
    Reports (fun a b => !a && b) (h.cells (fun _ => false)) s.nulls s.values s.has s.min s.max := by
  obtain ⟨h1, h2, h3, h4⟩ := boolExact_run h
  generalize BoolStats.run h = s at *
  generalize h.cells (fun _ => false) = cells at *
  refine ⟨h1, h2, ?_, ?_⟩
  · simp only [BoolStats.has, Bool.or_eq_true, h3, h4]
    constructor
    · rintro (h | h) <;> intro he <;> rw [he] at h <;> simp at h
    · intro hne
      cases hp : present cells with
      | nil => exact absurd hp hne
      | cons x xs => cases x <;> simp
  · intro hh
    simp only [BoolStats.has, Bool.or_eq_true] at hh
    refine ⟨⟨?_, ?_⟩, ?_, ?_⟩
    · simp only [BoolStats.min]
      by_cases hf : s.hasFalse = true
      · rw [if_pos hf]; exact h4.1 hf
      · rw [if_neg hf]; exact h3.1 (by tauto)
    · intro x hx
      simp only [BoolStats.min]
      by_cases hf : s.hasFalse = true
      · rw [if_pos hf]; simp
      · rw [if_neg hf]
        cases x
        · exact absurd (h4.2 hx) hf
        · rfl
    · simp only [BoolStats.max]
      by_cases hf : s.hasTrue = true
      · rw [if_pos hf]; exact h3.1 hf
      · rw [if_neg hf]; exact h4.1 (by tauto)
    · intro x hx
      simp only [BoolStats.max]
      by_cases hf : s.hasTrue = true
      · rw [if_pos hf]; simp
      · rw [if_neg hf]
        cases x
        · rfl
        · exact absurd (h3.2 hx) hf

/-! ### Batches, single values and merges agree -/

theorem nullCount_perm {α : Type} {a b : List (Option α)} (h : a.Perm b) : nullCount a = nullCount b := (h.filter _).length_eq
theorem present_perm {α : Type} {a b : List (Option α)} (h : a.Perm b) : (present a).Perm (present b) := h.filterMap _

theorem reports_unique {α : Type} {lt : α → α → Bool} (hlin : ∀ a b, lt a b = false → lt b a = false → a = b) {a b : List (Option α)}
    (hp : a.Perm b) {n v n' v' : Nat} {h h' : Bool} {lo hi lo' hi' : α} (h1 : Reports lt a n v h lo hi) (h2 : Reports lt b n' v' h' lo' hi') :
    n = n' ∧ v = v' ∧ h = h' ∧ (h = true → lo = lo' ∧ hi = hi') := by
  have hpp := present_perm hp
  refine ⟨by rw [h1.nulls, h2.nulls, nullCount_perm hp], by rw [h1.values, h2.values, hpp.length_eq], ?_, ?_⟩
  · have : h = true ↔ h' = true := by
      rw [h1.has_iff, h2.has_iff]
      constructor
      · intro hne he; rw [he] at hpp; exact hne hpp.eq_nil
      · intro hne he; rw [he] at hpp; exact hne hpp.symm.eq_nil
    cases h <;> cases h' <;> simp_all
  · intro hh
    have hh' : h' = true := by
      rw [h2.has_iff]; intro he; rw [he] at hpp; exact (h1.has_iff.1 hh) hpp.eq_nil
    obtain ⟨⟨a1, a2⟩, a3, a4⟩ := h1.bounds hh
    obtain ⟨⟨b1, b2⟩, b3, b4⟩ := h2.bounds hh'
    exact ⟨hlin _ _ (b2 _ (hpp.mem_iff.1 a1)) (a2 _ (hpp.mem_iff.2 b1)), hlin _ _ (a4 _ (hpp.mem_iff.2 b3)) (b4 _ (hpp.mem_iff.1 a3))⟩

/-- Two integer statistics objects that have seen the same cells, in any order, by single values, vectorised batches
of any width, with or without bitmap, or merges, report the same. -/
theorem C39_int_agree (lanes lanes' : Nat) (hl : 0 < lanes) (hl' : 0 < lanes') (d d' : Int) (h k : StatHistory Int)
    (hp : (h.cells (fun _ => false)).Perm (k.cells (fun _ => false))) :
    let s := Stats.runInt (intOps lanes) d h
    let t := Stats.runInt (intOps lanes') d' k
    s.nulls = t.nulls ∧ s.values = t.values ∧ s.has = t.has ∧ (s.has = true → s.min = t.min ∧ s.max = t.max) :=
  reports_unique (by intro a b; simp; omega) hp (C39_int lanes hl d h) (C39_int lanes' hl' d' k)

/-- The same for strings. -/
theorem C39_string_agree (d d' : List UInt8) (h k : StatHistory (List UInt8))
    (hp : (h.cells (fun _ => false)).Perm (k.cells (fun _ => false))) :
    let s := Stats.runPlain strOps d h
    let t := Stats.runPlain strOps d' k
    s.nulls = t.nulls ∧ s.values = t.values ∧ s.has = t.has ∧ (s.has = true → s.min = t.min ∧ s.max = t.max) :=
  reports_unique (by intro a b h1 h2; simp at h1 h2; exact List.le_antisymm h2 h1) hp (C39_string d h) (C39_string d' k)

/-! ### What fails for doubles -/

def nanBits : UInt64 := 0x7FF8000000000000
def oneBits : UInt64 := 0x3FF0000000000000
def twoBits : UInt64 := 0x4000000000000000

/-- A batch with a NaN counts it as a value, the same data one by one counts it as null. -/
theorem C39_double_nan_counted_refuted :
    let b := Stats.runFloat (f64Ops x86Min x86Max 2) 0 (.batch .new [oneBits, nanBits])
    let s := Stats.runFloat (f64Ops x86Min x86Max 2) 0 (.value (.value .new oneBits) nanBits)
    (b.values, b.nulls) = (2, 0) ∧ (s.values, s.nulls) = (1, 1) := by decide +kernel

/-- A batch of NaNs only is not counted at all. -/
theorem C39_double_all_nan_refuted :
    let b := Stats.runFloat (f64Ops x86Min x86Max 2) 0 (.batch .new [nanBits, nanBits])
    b.values + b.nulls = 0 := by decide +kernel

/-- With the x86 minimum a NaN makes its lane forget: the batch 2, 2, 1, 2, NaN, 2, 2 on two lanes reports minimum 2. -/
theorem C39_double_min_lost_refuted :
    let b := Stats.runFloat (f64Ops x86Min x86Max 2) 0 (.batch .new [twoBits, oneBits, twoBits, nanBits, twoBits, twoBits, twoBits])
    b.has = true ∧ b.min = twoBits ∧ f64Lt oneBits b.min = true := by decide +kernel

/-- A mixed history meeting the hypotheses: batch, bitmap batch longer than the bitmap, merge, reset. -/
def demoStats : StatHistory Int :=
  .merge (.batchNulls (.batch (.value (.reset (.value .new 99)) 7) [3, -4, 8, 8, 1]) [5, -100, 6] [false, true]) (.null (.value .new 12))

example : (Stats.runInt (intOps 2) 0 demoStats) = { min := -4, max := 12, nulls := 2, values := 9, has := true } ∧
    (demoStats.cells (fun _ => false)) =
      [some 7, some 3, some (-4), some 8, some 8, some 1, some 5, none, some 6, some 12, none] := by decide +kernel

/-- A double history meeting `NoNanBatch` with NaN among single values and bitmap batches. -/
def demoDouble : StatHistory UInt64 := .batchNulls (.batch (.value (.value .new nanBits) twoBits) [twoBits, oneBits, twoBits]) [nanBits, oneBits, 0] [false, true]

example : demoDouble.NoNanBatch f64NaN := by
  simp only [demoDouble, StatHistory.NoNanBatch]; exact ⟨trivial, by decide +kernel⟩
example : Stats.runFloat (f64Ops x86Min x86Max 4) 0 demoDouble = { min := 0, max := twoBits, nulls := 3, values := 5, has := true } := by decide +kernel

end Vroom
