import Verif.Lemmas.StatsNan
import Verif.Props.Statistics
/-
C39 for `double` with NaN anywhere: exactly when the report is right, what the counts are, and what the bounds still say.
-/
namespace Vroom

/-- The NaNs an object was given in batches without bitmap since it was last reset. -/
def StatHistory.batchNans {α : Type} (nan : α → Bool) : StatHistory α → Nat
  | .new => 0
  | .value h _ => h.batchNans nan
  | .null h => h.batchNans nan
  | .batch h vs => h.batchNans nan + (vs.filter nan).length
  | .batchNulls h _ _ => h.batchNans nan
  | .merge h k => h.batchNans nan + k.batchNans nan
  | .reset _ => 0

/-- Those of them that came together with a number. -/
def StatHistory.mixedNans {α : Type} (nan : α → Bool) : StatHistory α → Nat
  | .new => 0
  | .value h _ => h.mixedNans nan
  | .null h => h.mixedNans nan
  | .batch h vs => h.mixedNans nan + if vs.all nan then 0 else (vs.filter nan).length
  | .batchNulls h _ _ => h.mixedNans nan
  | .merge h k => h.mixedNans nan + k.mixedNans nan
  | .reset _ => 0

theorem widen_counts {α : Type} (o : StatOps α) (s : Stats α) (lo hi : α) : (s.widen o lo hi).nulls = s.nulls ∧ (s.widen o lo hi).values = s.values := by
  simp only [Stats.widen]; split <;> exact ⟨rfl, rfl⟩

theorem minMaxFloat_none {α : Type} (o : StatOps α) (vs : List α) : minMaxFloat o vs = none ↔ vs.all o.nan = true := by
  rw [List.all_eq_true]
  constructor
  · exact batch_none
  · intro h
    have : vs.dropWhile o.nan = [] := by
      induction vs with
      | nil => rfl
      | cons a t ih => rw [List.dropWhile_cons, if_pos (h a (by simp))]; exact ih (fun x hx => h x (by simp [hx]))
    unfold minMaxFloat
    rw [this]

theorem present_map_nan {α : Type} (nan : α → Bool) (vs : List α) :
    (present (vs.map fun v => if nan v then none else some v)).length = (vs.filter fun v => !nan v).length ∧
      nullCount (vs.map fun v => if nan v then none else some v) = (vs.filter nan).length := by
  induction vs with
  | nil => exact ⟨rfl, rfl⟩
  | cons v vs ih =>
    simp only [present, nullCount] at ih ⊢
    cases h : nan v <;> simpa [h, List.filterMap_map] using ih

theorem filter_parts {α : Type} (p : α → Bool) (l : List α) : (l.filter p).length + (l.filter fun x => !p x).length = l.length := by
  induction l with
  | nil => rfl
  | cons a t ih => cases h : p a <;> simp [h] <;> omega

/-- The counts, for any comparison and any lane operations. -/
theorem counts_run {α : Type} (o : StatOps α) (d : α) (h : StatHistory α) :
    (Stats.runFloat o d h).nulls + h.batchNans o.nan = nullCount (h.cells o.nan) ∧
      (Stats.runFloat o d h).values = (present (h.cells o.nan)).length + h.mixedNans o.nan := by
  induction h with
  | new => exact ⟨rfl, rfl⟩
  | reset h ih => exact ⟨rfl, rfl⟩
  | null h ih =>
    simp only [StatHistory.cells, nullCount_append, present_append, List.length_append]
    simp only [Stats.runFloat, Stats.updateNull, StatHistory.batchNans, StatHistory.mixedNans]
    have h1 : nullCount [(none : Option α)] = 1 := rfl
    have h2 : (present [(none : Option α)]).length = 0 := rfl
    omega
  | value h v ih =>
    simp only [StatHistory.cells, nullCount_append, present_append, List.length_append]
    simp only [Stats.runFloat, Stats.update, StatHistory.batchNans, StatHistory.mixedNans]
    have hw := widen_counts o (Stats.runFloat o d h) v v
    cases hv : o.nan v with
    | true =>
      have h1 : nullCount [(none : Option α)] = 1 := rfl
      have h2 : (present [(none : Option α)]).length = 0 := rfl
      simp only [if_true, Stats.updateNull]
      omega
    | false =>
      have h1 : nullCount [some v] = 0 := rfl
      have h2 : (present [some v]).length = 1 := rfl
      simp only [Bool.false_eq_true, if_false]
      omega
  | batch h vs ih =>
    simp only [StatHistory.cells, nullCount_append, present_append, List.length_append, (present_map_nan o.nan vs).1, (present_map_nan o.nan vs).2]
    simp only [Stats.runFloat, Stats.updateBatchFloat, StatHistory.batchNans, StatHistory.mixedNans]
    have hp := filter_parts o.nan vs
    by_cases h0 : vs.length = 0
    · rw [if_pos h0]
      have : (if vs.all o.nan then 0 else (vs.filter o.nan).length) = 0 := by split <;> omega
      omega
    · rw [if_neg h0]
      cases hm : minMaxFloat o vs with
      | none =>
        have ha := (minMaxFloat_none o vs).1 hm
        rw [if_pos ha]
        have : (vs.filter fun x => !o.nan x) = [] := by
          rw [List.filter_eq_nil_iff]; intro x hx; rw [List.all_eq_true.1 ha x hx]; simp
        rw [this]
        simp only [List.length_nil]
        omega
      | some m =>
        have ha : ¬ vs.all o.nan = true := fun hc => by rw [(minMaxFloat_none o vs).2 hc] at hm; cases hm
        rw [if_neg ha]
        have hw := widen_counts o (Stats.runFloat o d h) m.1 m.2
        dsimp only
        omega
  | batchNulls h vs bm ih =>
    simp only [StatHistory.cells, nullCount_append, present_append, List.length_append, present_filter, nullCount_filter]
    simp only [Stats.runFloat, Stats.updateBatchNullsFloat, splitNulls_eq, StatHistory.batchNans, StatHistory.mixedNans]
    split
    · dsimp only; omega
    · rename_i h0
      cases hm : minMaxFloat o ((present (bitmapCells vs bm)).filter fun v => !o.nan v) with
      | none =>
        have ha := (minMaxFloat_none o _).1 hm
        exfalso
        apply h0
        rw [List.length_eq_zero_iff, List.filter_eq_nil_iff]
        intro x hx hc
        have := List.all_eq_true.1 ha x (List.mem_filter.2 ⟨hx, hc⟩)
        rw [this] at hc; cases hc
      | some m =>
        have hw := widen_counts o { Stats.runFloat o d h with nulls := (Stats.runFloat o d h).nulls + nullCount (bitmapCells vs bm) + ((present (bitmapCells vs bm)).filter o.nan).length } m.1 m.2
        dsimp only at hw ⊢
        omega
  | merge h k ih1 ih2 =>
    simp only [StatHistory.cells, nullCount_append, present_append, List.length_append]
    simp only [Stats.runFloat, Stats.merge, StatHistory.batchNans, StatHistory.mixedNans]
    have hw : (if (Stats.runFloat o d k).has then (Stats.runFloat o d h).widen o (Stats.runFloat o d k).min (Stats.runFloat o d k).max else Stats.runFloat o d h).nulls = (Stats.runFloat o d h).nulls ∧
        (if (Stats.runFloat o d k).has then (Stats.runFloat o d h).widen o (Stats.runFloat o d k).min (Stats.runFloat o d k).max else Stats.runFloat o d h).values = (Stats.runFloat o d h).values := by
      split
      · exact widen_counts _ _ _ _
      · exact ⟨rfl, rfl⟩
    rw [hw.1, hw.2]
    omega

/-- A history with what was reset left out. -/
def StatHistory.live {α : Type} : StatHistory α → StatHistory α
  | .new => .new
  | .value h v => .value h.live v
  | .null h => .null h.live
  | .batch h vs => .batch h.live vs
  | .batchNulls h vs bm => .batchNulls h.live vs bm
  | .merge h k => .merge h.live k.live
  | .reset _ => .new

theorem live_same {α : Type} (o : StatOps α) (d : α) (h : StatHistory α) :
    Stats.runFloat o d h.live = Stats.runFloat o d h ∧ h.live.cells o.nan = h.cells o.nan ∧ (h.batchNans o.nan = 0 → h.live.NoNanBatch o.nan) := by
  induction h with
  | new => exact ⟨rfl, rfl, fun _ => trivial⟩
  | reset h _ => exact ⟨rfl, rfl, fun _ => trivial⟩
  | value h v ih => exact ⟨by simp only [StatHistory.live, Stats.runFloat, ih.1], by simp only [StatHistory.live, StatHistory.cells, ih.2.1], ih.2.2⟩
  | null h ih => exact ⟨by simp only [StatHistory.live, Stats.runFloat, ih.1], by simp only [StatHistory.live, StatHistory.cells, ih.2.1], ih.2.2⟩
  | batch h vs ih =>
    refine ⟨by simp only [StatHistory.live, Stats.runFloat, ih.1], by simp only [StatHistory.live, StatHistory.cells, ih.2.1], fun h0 => ?_⟩
    simp only [StatHistory.batchNans] at h0
    refine ⟨ih.2.2 (by omega), fun v hv => ?_⟩
    cases hn : o.nan v with
    | false => rfl
    | true =>
      have : v ∈ vs.filter o.nan := List.mem_filter.2 ⟨hv, hn⟩
      rw [List.length_eq_zero_iff.1 (show (vs.filter o.nan).length = 0 by omega)] at this
      cases this
  | batchNulls h vs bm ih => exact ⟨by simp only [StatHistory.live, Stats.runFloat, ih.1], by simp only [StatHistory.live, StatHistory.cells, ih.2.1], ih.2.2⟩
  | merge h k ih1 ih2 =>
    refine ⟨by simp only [StatHistory.live, Stats.runFloat, ih1.1, ih2.1], by simp only [StatHistory.live, StatHistory.cells, ih1.2.1, ih2.2.1], fun h0 => ?_⟩
    simp only [StatHistory.batchNans] at h0
    exact ⟨ih1.2.2 (by omega), ih2.2.2 (by omega)⟩

/-- **C39** The counts of floating-point statistics for every history, NaN anywhere, on any processor: each NaN of a batch without bitmap is missing among the
nulls, and it is counted as a value if the batch also held a number. -/
theorem C39_double_counts (hmin hmax : UInt64 → UInt64 → UInt64) (lanes : Nat) (filler : UInt64) (h : StatHistory UInt64) :
    let s := Stats.runFloat (f64Ops hmin hmax lanes) filler h
    s.nulls + h.batchNans f64NaN = nullCount (h.cells f64NaN) ∧ s.values = (present (h.cells f64NaN)).length + h.mixedNans f64NaN :=
  counts_run (f64Ops hmin hmax lanes) filler h

/-- **C39** Exactly when floating-point statistics are right: when no NaN came in a batch without bitmap since the last reset.  The lane operations need only be
right on numbers. -/
theorem C39_double_exact (hmin hmax : UInt64 → UInt64 → UInt64) (lanes : Nat) (hl : 0 < lanes)
    (hmin_ok : ∀ a b, f64NaN a = false → f64NaN b = false →
      (hmin a b = a ∨ hmin a b = b) ∧ f64Lt a (hmin a b) = false ∧ f64Lt b (hmin a b) = false)
    (hmax_ok : ∀ a b, f64NaN a = false → f64NaN b = false →
      (hmax a b = a ∨ hmax a b = b) ∧ f64Lt (hmax a b) a = false ∧ f64Lt (hmax a b) b = false)
    (filler : UInt64) (h : StatHistory UInt64) :
    let s := Stats.runFloat (f64Ops hmin hmax lanes) filler h
    Reports f64Lt (h.cells f64NaN) s.nulls s.values s.has s.min s.max ↔ h.batchNans f64NaN = 0 := by
  obtain ⟨l1, l2, l3⟩ := live_same (f64Ops hmin hmax lanes) filler h
  have l2 : h.live.cells f64NaN = h.cells f64NaN := l2
  intro s
  constructor
  · intro hr
    have := (C39_double_counts hmin hmax lanes filler h).1
    have h2 : s.nulls = nullCount (h.cells f64NaN) := hr.nulls
    have h3 : s.nulls + h.batchNans f64NaN = nullCount (h.cells f64NaN) := this
    omega
  · intro h0
    have := C39_double_partial hmin hmax lanes hl hmin_ok hmax_ok filler h.live (l3 h0)
    dsimp only at this
    rw [l1, l2] at this
    exact this

theorem f64Lt_nan (a b : UInt64) (h : f64NaN a = true ∨ f64NaN b = true) : f64Lt a b = false := by
  unfold f64Lt
  rcases h with h | h <;> simp [h]

/-- **C39** What the bounds still say on x86, NaN anywhere: a value is reported exactly if a number was seen, both bounds are numbers that were seen, and the
minimum is not above the maximum.  The reported range can be too narrow (C39_double_min_lost_refuted), never too wide, and never NaN. -/
theorem C39_double_bounds_x86 (lanes : Nat) (hl : 0 < lanes) (filler : UInt64) (h : StatHistory UInt64) :
    let s := Stats.runFloat (f64Ops x86Min x86Max lanes) filler h
    (s.has = true ↔ present (h.cells f64NaN) ≠ []) ∧
      (s.has = true → s.min ∈ present (h.cells f64NaN) ∧ s.max ∈ present (h.cells f64NaN) ∧ f64NaN s.min = false ∧ f64NaN s.max = false ∧ f64Lt s.max s.min = false) := by
  have hc := f64_cmp x86Min x86Max lanes
  obtain ⟨S, hS⟩ := knows_run hc (batch_second (o := f64Ops x86Min x86Max lanes) hc f64Lt_nan hl (fun _ _ => rfl) (fun _ _ => rfl)) filler h
  refine ⟨⟨fun hh he => ?_, fun hne => hS.brackets.1.2 (hS.some hne)⟩, fun hh => ?_⟩
  · obtain ⟨b1, -⟩ := hS.brackets.2 hh
    have := hS.sub _ b1.1
    have he : present (h.cells (f64Ops x86Min x86Max lanes).nan) = [] := he
    rw [he] at this; cases this
  · obtain ⟨b1, b2⟩ := hS.brackets.2 hh
    have h1 := hS.sub _ b1.1
    have h2 := hS.sub _ b2.1
    exact ⟨h1, h2, clean_cells f64NaN h _ h1, clean_cells f64NaN h _ h2, b1.2 _ b2.1⟩

/-- **C39** On processors whose vector minimum and maximum spread NaN, the bounds are right for every history, NaN anywhere: only the counts can be wrong. -/
theorem C39_double_bounds_spreading (hmin hmax : UInt64 → UInt64 → UInt64) (lanes : Nat) (hl : 0 < lanes)
    (hmin_ok : ∀ a b, f64NaN a = false → f64NaN b = false →
      (hmin a b = a ∨ hmin a b = b) ∧ f64Lt a (hmin a b) = false ∧ f64Lt b (hmin a b) = false)
    (hmax_ok : ∀ a b, f64NaN a = false → f64NaN b = false →
      (hmax a b = a ∨ hmax a b = b) ∧ f64Lt (hmax a b) a = false ∧ f64Lt (hmax a b) b = false)
    (hspread : ∀ a b, f64NaN a = true ∨ f64NaN b = true → f64NaN (hmin a b) = true ∧ f64NaN (hmax a b) = true)
    (filler : UInt64) (h : StatHistory UInt64) :
    let s := Stats.runFloat (f64Ops hmin hmax lanes) filler h
    (s.has = true ↔ present (h.cells f64NaN) ≠ []) ∧
      (s.has = true → IsLeast f64Lt (present (h.cells f64NaN)) s.min ∧ IsGreatest f64Lt (present (h.cells f64NaN)) s.max) := by
  have hc := f64_cmp hmin hmax lanes
  obtain ⟨S, hS⟩ := knows_run hc (batch_spreads (o := f64Ops hmin hmax lanes) hc f64Lt_nan hl hmin_ok hmax_ok
    (fun a b hab => (hspread a b hab).1) (fun a b hab => (hspread a b hab).2)) filler h
  have hiff : ∀ x, x ∈ S ↔ x ∈ present (h.cells f64NaN) := fun x => ⟨hS.sub x, hS.all trivial x⟩
  refine ⟨⟨fun hh he => ?_, fun hne => hS.brackets.1.2 (hS.some hne)⟩, fun hh => ?_⟩
  · obtain ⟨b1, -⟩ := hS.brackets.2 hh
    have := (hiff _).1 b1.1
    rw [he] at this; cases this
  · obtain ⟨b1, b2⟩ := hS.brackets.2 hh
    exact ⟨isLeast_congr hiff b1, isLeast_congr (lt := fun a b => f64Lt b a) hiff b2⟩

/-- A minimum that spreads NaN, as `FMIN` does. -/
def armMin (a b : UInt64) : UInt64 := if f64NaN a || f64NaN b then nanBits else if f64Lt a b then a else b
/-- The maximum. -/
def armMax (a b : UInt64) : UInt64 := if f64NaN a || f64NaN b then nanBits else if f64Lt b a then a else b

/-- It meets the hypotheses. -/
example : (∀ a b, f64NaN a = false → f64NaN b = false → (armMin a b = a ∨ armMin a b = b) ∧ f64Lt a (armMin a b) = false ∧ f64Lt b (armMin a b) = false) ∧
    ∀ a b, f64NaN a = true ∨ f64NaN b = true → f64NaN (armMin a b) = true ∧ f64NaN (armMax a b) = true := by
  have hc := f64_cmp armMin armMax 2
  refine ⟨fun a b ha hb => ?_, fun a b h => ?_⟩
  · simp only [armMin, ha, hb, Bool.or_self, Bool.false_eq_true, if_false]
    by_cases hab : f64Lt a b = true
    · rw [if_pos hab]; exact ⟨.inl rfl, hc.irrefl a, hc.asymm a b hab⟩
    · rw [if_neg hab]; exact ⟨.inr rfl, by simpa using hab, hc.irrefl b⟩
  · have : (f64NaN a || f64NaN b) = true := by rcases h with h | h <;> simp [h]
    simp only [armMin, armMax, this, if_true]
    decide

/-- 2, 2, 1, 2, NaN, 2, 2 on two lanes: x86 loses the 1, a spreading minimum does not; both count seven values and no null. -/
def nanBatch : StatHistory UInt64 := .batch .new [twoBits, oneBits, twoBits, nanBits, twoBits, twoBits, twoBits]

example : (Stats.runFloat (f64Ops x86Min x86Max 2) 0 nanBatch) = ⟨twoBits, twoBits, 0, 7, true⟩ ∧
    (Stats.runFloat (f64Ops armMin armMax 2) 0 nanBatch) = ⟨oneBits, twoBits, 0, 7, true⟩ ∧
    nullCount (nanBatch.cells f64NaN) = 1 ∧ nanBatch.batchNans f64NaN = 1 ∧ nanBatch.mixedNans f64NaN = 1 := by decide +kernel

/-- A NaN batch before a reset does no harm: the exact condition holds though `NoNanBatch` does not. -/
example : (StatHistory.value (.reset nanBatch) oneBits).batchNans f64NaN = 0 := by decide +kernel

end Vroom
