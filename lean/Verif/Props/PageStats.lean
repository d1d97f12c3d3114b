import Verif.Model.PageStats
import Verif.Lemmas.Statistics
import Verif.Props.Statistics
import Mathlib.Data.List.Induction
import Mathlib.Tactic.ByContra
/-
C93: statistics of pages.  Accumulated statistics are those of the values seen, and merging the statistics of the pages of a column gives the statistics of the column.
-/
namespace Vroom

/-- What the statistics of a column with these cells have to say. -/
structure PageReports {α : Type} (lt : α → α → Bool) (inj : α → StatVal) (cells : List (Option α)) (s : ColStats) : Prop where
  nulls : s.nullCount = nullCount cells
  hasNull : s.hasNull = true ↔ none ∈ cells
  nothing : present cells = [] → s.min = .none ∧ s.max = .none
  bounds : present cells ≠ [] → ∃ lo hi, s.min = inj lo ∧ s.max = inj hi ∧ IsLeast lt (present cells) lo ∧ IsGreatest lt (present cells) hi

/-- A value type of the statistics: how the code adds and merges values of it. -/
structure StatTy {α : Type} (lt : α → α → Bool) (nan : α → Bool) (inj : α → StatVal) (add : StatAcc → α → Bool → StatAcc) : Prop where
  cmp : CmpOk lt nan
  minOk : ∀ a b, mergeMin (inj a) (inj b) = inj (if lt a b then a else b)
  maxOk : ∀ a b, mergeMax (inj a) (inj b) = inj (if lt b a then a else b)
  ne : ∀ a, inj a ≠ .none
  addNull : ∀ s v, add s v true = s.addNull
  addNan : ∀ s v, nan v = true → add s v false = s.addNull
  addFirst : ∀ s v, nan v = false → s.hasValue = false → add s v false = s.first (inj v)
  addNext : ∀ s v lo hi, nan v = false → s.hasValue = true → s.stats.min = inj lo → s.stats.max = inj hi →
    ∃ lo' hi', add s v false = { s with stats := { s.stats with min := inj lo', max := inj hi' } } ∧ lo' = (if lt v lo then v else lo) ∧ hi' = (if lt hi v then v else hi)

theorem mergeMin_none (a : StatVal) : mergeMin a .none = a := by cases a <;> rfl
theorem mergeMax_none (a : StatVal) : mergeMax a .none = a := by cases a <;> rfl

theorem int32Ty : StatTy (fun a b : Int32 => decide (a < b)) (fun _ => false) .i32 StatAcc.addInt32 := by
  refine ⟨⟨fun a => by simp, fun a b h => by simp only [decide_eq_true_eq, decide_eq_false_iff_not, Int32.lt_iff_toInt_lt] at *; omega,
    fun a b c _ h1 h2 => by simp only [decide_eq_false_iff_not, Int32.lt_iff_toInt_lt] at *; omega⟩, fun a b => ?_, fun a b => ?_, fun a => by simp, fun s v => rfl,
    fun s v h => by simp at h, fun s v _ h => by simp [StatAcc.addInt32, h], fun s v lo hi _ h h1 h2 => ?_⟩
  · simp only [mergeMin, decide_eq_true_eq]; split <;> rfl
  · simp only [mergeMax, decide_eq_true_eq]; split <;> rfl
  · refine ⟨_, _, ?_, rfl, rfl⟩
    by_cases h3 : v < lo <;> by_cases h4 : hi < v <;> simp [StatAcc.addInt32, h, h1, h2, h3, h4]

theorem int64Ty : StatTy (fun a b : Int64 => decide (a < b)) (fun _ => false) .i64 StatAcc.addInt64 := by
  refine ⟨⟨fun a => by simp, fun a b h => by simp only [decide_eq_true_eq, decide_eq_false_iff_not, Int64.lt_iff_toInt_lt] at *; omega,
    fun a b c _ h1 h2 => by simp only [decide_eq_false_iff_not, Int64.lt_iff_toInt_lt] at *; omega⟩, fun a b => ?_, fun a b => ?_, fun a => by simp, fun s v => rfl,
    fun s v h => by simp at h, fun s v _ h => by simp [StatAcc.addInt64, h], fun s v lo hi _ h h1 h2 => ?_⟩
  · simp only [mergeMin, decide_eq_true_eq]; split <;> rfl
  · simp only [mergeMax, decide_eq_true_eq]; split <;> rfl
  · refine ⟨_, _, ?_, rfl, rfl⟩
    by_cases h3 : v < lo <;> by_cases h4 : hi < v <;> simp [StatAcc.addInt64, h, h1, h2, h3, h4]

theorem doubleTy : StatTy f64Lt f64NaN .f64 StatAcc.addDouble := by
  refine ⟨f64_cmp (fun a _ => a) (fun a _ => a) 1, fun a b => ?_, fun a b => ?_, fun a => by simp, fun s v => rfl,
    fun s v h => by simp [StatAcc.addDouble, h], fun s v hn h => by simp [StatAcc.addDouble, h, hn], fun s v lo hi hn h h1 h2 => ?_⟩
  · simp only [mergeMin, decide_eq_true_eq]; split <;> rfl
  · simp only [mergeMax, decide_eq_true_eq]; split <;> rfl
  · refine ⟨_, _, ?_, rfl, rfl⟩
    cases h3 : f64Lt v lo <;> cases h4 : f64Lt hi v <;> simp [StatAcc.addDouble, h, h1, h2, hn, h3, h4]

theorem stringTy : StatTy (fun a b : List UInt8 => decide (a < b)) (fun _ => false) .str StatAcc.addString := by
  refine ⟨strOps_cmp, fun a b => ?_, fun a b => ?_, fun a => by simp, fun s v => rfl,
    fun s v h => by simp at h, fun s v _ h => by simp [StatAcc.addString, h], fun s v lo hi _ h h1 h2 => ?_⟩
  · simp only [mergeMin, decide_eq_true_eq]; split <;> rfl
  · simp only [mergeMax, decide_eq_true_eq]; split <;> rfl
  · refine ⟨_, _, ?_, rfl, rfl⟩
    by_cases h3 : v < lo <;> by_cases h4 : hi < v <;> simp [StatAcc.addString, h, h1, h2, h3, h4]

theorem boolTy : StatTy (fun a b : Bool => !a && b) (fun _ => false) .bool StatAcc.addBool := by
  refine ⟨⟨by decide, by decide, by decide⟩, by decide, by decide, fun a => by simp, fun s v => rfl,
    fun s v h => by simp at h, fun s v _ h => by simp [StatAcc.addBool, h], fun s v lo hi _ h h1 h2 => ?_⟩
  refine ⟨_, _, ?_, rfl, rfl⟩
  simp only [StatAcc.addBool, h, h1, h2]
  cases v <;> cases lo <;> cases hi <;> simp

variable {α : Type} {lt : α → α → Bool} {nan : α → Bool} {inj : α → StatVal} {add : StatAcc → α → Bool → StatAcc}


/-- NaN counts as null. -/
def clean (nan : α → Bool) (cells : List (Option α)) : List (Option α) := cells.map (fun c => c.filter (fun v => !nan v))

theorem clean_ok (cells : List (Option α)) : ∀ x ∈ present (clean nan cells), nan x = false := by
  intro x hx
  simp only [present, clean, List.mem_filterMap, List.mem_map, id] at hx
  obtain ⟨c, ⟨d, -, rfl⟩, h⟩ := hx
  cases d with
  | none => simp at h
  | some v => simp [Option.filter] at h; obtain ⟨h1, rfl⟩ := h; simpa using h1

theorem merged (T : StatTy lt nan inj add) {xs ys : List (Option α)} (hx : ∀ x ∈ present xs, nan x = false) (hy : ∀ y ∈ present ys, nan y = false)
    {s t : ColStats} (hs : PageReports lt inj xs s) (ht : PageReports lt inj ys t) : PageReports lt inj (xs ++ ys) (mergeStatistics s t) := by
  refine ⟨?_, ?_, ?_, ?_⟩
  · rw [nullCount_append, ← hs.nulls, ← ht.nulls]; rfl
  · simp only [mergeStatistics, Bool.or_eq_true, hs.hasNull, ht.hasNull, List.mem_append]
  · intro h
    rw [present_append, List.append_eq_nil_iff] at h
    obtain ⟨a1, a2⟩ := hs.nothing h.1
    obtain ⟨b1, b2⟩ := ht.nothing h.2
    simp [mergeStatistics, a1, a2, b1, b2, mergeMin, mergeMax]
  · intro h
    rw [present_append] at h ⊢
    by_cases h1 : present xs = []
    · rw [h1, List.nil_append] at h ⊢
      obtain ⟨lo, hi, e1, e2, e3, e4⟩ := ht.bounds h
      obtain ⟨a1, a2⟩ := hs.nothing h1
      exact ⟨lo, hi, by simp [mergeStatistics, a1, mergeMin, e1], by simp [mergeStatistics, a2, mergeMax, e2], e3, e4⟩
    · by_cases h2 : present ys = []
      · rw [h2, List.append_nil] at h ⊢
        obtain ⟨lo, hi, e1, e2, e3, e4⟩ := hs.bounds h
        obtain ⟨a1, a2⟩ := ht.nothing h2
        exact ⟨lo, hi, by simp [mergeStatistics, a1, mergeMin_none, e1], by simp [mergeStatistics, a2, mergeMax_none, e2], e3, e4⟩
      · obtain ⟨lo, hi, e1, e2, e3, e4⟩ := hs.bounds h1
        obtain ⟨lo', hi', f1, f2, f3, f4⟩ := ht.bounds h2
        refine ⟨_, _, by simp only [mergeStatistics, e1, f1]; exact T.minOk lo lo', by simp only [mergeStatistics, e2, f2]; exact T.maxOk hi hi', ?_, ?_⟩
        · exact isLeast_congr (fun x => by simp [or_comm]) (isLeast_append T.cmp hy hx f3 e3)
        · exact isLeast_congr (lt := fun a b => lt b a) (fun x => by simp [or_comm]) (isLeast_append T.cmp.flip hy hx f4 e4)

/-- State of an accumulator after some cells. -/
theorem acc_inv (T : StatTy lt nan inj add) (d : α) (cells : List (Option α)) :
    let s := cells.foldl (fun s c => match c with | some v => add s v false | none => add s d true) ({} : StatAcc)
    PageReports lt inj (clean nan cells) s.stats ∧ (s.hasValue = true ↔ present (clean nan cells) ≠ []) := by
  induction cells using List.reverseRecOn with
  | nil => exact ⟨⟨rfl, by simp [clean], fun _ => ⟨rfl, rfl⟩, fun h => absurd rfl h⟩, by simp [clean, present]⟩
  | append_singleton cs c ih =>
    simp only [List.foldl_append, List.foldl_cons, List.foldl_nil]
    generalize cs.foldl _ ({} : StatAcc) = s at ih
    obtain ⟨h, hv⟩ := ih
    have hnull : PageReports lt inj (clean nan cs ++ [none]) s.addNull.stats ∧ (s.addNull.hasValue = true ↔ present (clean nan cs ++ [none]) ≠ []) := by
      have hp : present (clean nan cs ++ [none]) = present (clean nan cs) := by simp [present]
      rw [hp]
      refine ⟨⟨?_, ?_, ?_, ?_⟩, hv⟩
      · rw [nullCount_append, ← h.nulls]; rfl
      · simp [StatAcc.addNull]
      · rw [hp]; exact h.nothing
      · rw [hp]; exact h.bounds
    have hcl : clean nan (cs ++ [c]) = clean nan cs ++ [c.filter (fun v => !nan v)] := by simp [clean]
    rw [hcl]
    cases c with
    | none => dsimp only; rw [T.addNull]; exact hnull
    | some v =>
      dsimp only
      cases hn : nan v with
      | true => rw [T.addNan s v hn]; simpa [Option.filter, hn] using hnull
      | false =>
        rw [show (some v).filter (fun v => !nan v) = some v by simp [Option.filter, hn]]
        have hp : present (clean nan cs ++ [some v]) = present (clean nan cs) ++ [v] := by simp [present]
        have hnc : nullCount (clean nan cs ++ [some v]) = nullCount (clean nan cs) := by simp [nullCount]
        have hmem : none ∈ clean nan cs ++ [some v] ↔ none ∈ clean nan cs := by simp
        cases hh : s.hasValue with
        | false =>
          have hno : present (clean nan cs) = [] := by
            by_contra hne
            rw [hv.2 hne] at hh; cases hh
          rw [T.addFirst s v hn hh]
          refine ⟨⟨?_, ?_, ?_, ?_⟩, ?_⟩
          · rw [hnc]; exact h.nulls
          · rw [hmem]; exact h.hasNull
          · rw [hp]; simp
          · intro _; rw [hp, hno]
            exact ⟨v, v, rfl, rfl, isLeast_single T.cmp v, isLeast_single T.cmp.flip v⟩
          · rw [hp]; simp [StatAcc.first]
        | true =>
          have hne := hv.1 hh
          obtain ⟨lo, hi, e1, e2, e3, e4⟩ := h.bounds hne
          obtain ⟨lo', hi', g1, g2, g3⟩ := T.addNext s v lo hi hn hh e1 e2
          rw [g1]
          refine ⟨⟨?_, ?_, ?_, ?_⟩, ?_⟩
          · rw [hnc]; exact h.nulls
          · rw [hmem]; exact h.hasNull
          · rw [hp]; simp
          · intro _; rw [hp]
            refine ⟨lo', hi', rfl, rfl, ?_, ?_⟩
            · rw [g2]
              exact isLeast_append T.cmp (clean_ok cs) (by simp [hn]) e3 (isLeast_single T.cmp v)
            · rw [g3]
              exact isLeast_append T.cmp.flip (clean_ok cs) (by simp [hn]) e4 (isLeast_single T.cmp.flip v)
          · rw [hp]; simpa using hh

theorem pages (T : StatTy lt nan inj add) (d : α) (ps : List (List (Option α))) :
    PageReports lt inj (clean nan ps.flatten) ((ps.map (accumulate add d)).foldl mergeStatistics {}) := by
  induction ps using List.reverseRecOn with
  | nil => exact ⟨rfl, by simp [clean], fun _ => ⟨rfl, rfl⟩, fun h => absurd rfl h⟩
  | append_singleton ps p ih =>
    rw [List.map_append, List.foldl_append, List.flatten_append]
    have : clean nan (ps.flatten ++ [p].flatten) = clean nan ps.flatten ++ clean nan p := by simp [clean]
    rw [this]
    exact merged T (clean_ok _) (clean_ok _) ih (acc_inv T d p).1

/-- **C93** (accumulated and merged): for every column of any type cut into any pages, the merged statistics of the pages report the column: the number of nulls, whether there are any,
and a smallest and a largest value, or no value if there is none.  For doubles NaN counts as null. -/
theorem C93_pages :
    (∀ (d : Int32) (ps : List (List (Option (Int32)))), PageReports (fun a b => decide (a < b)) .i32 ps.flatten ((ps.map (accumulate StatAcc.addInt32 d)).foldl mergeStatistics {})) ∧
    (∀ (d : Int64) (ps : List (List (Option (Int64)))), PageReports (fun a b => decide (a < b)) .i64 ps.flatten ((ps.map (accumulate StatAcc.addInt64 d)).foldl mergeStatistics {})) ∧
    (∀ (d : UInt64) (ps : List (List (Option (UInt64)))), PageReports f64Lt .f64 (ps.flatten.map (fun c => c.filter (fun v => !f64NaN v))) ((ps.map (accumulate StatAcc.addDouble d)).foldl mergeStatistics {})) ∧
    (∀ (d : List UInt8) (ps : List (List (Option (List UInt8)))), PageReports (fun a b => decide (a < b)) .str ps.flatten ((ps.map (accumulate StatAcc.addString d)).foldl mergeStatistics {})) ∧
    (∀ (d : Bool) (ps : List (List (Option (Bool)))), PageReports (fun a b => !a && b) .bool ps.flatten ((ps.map (accumulate StatAcc.addBool d)).foldl mergeStatistics {})) := by
  have hc : ∀ {β : Type} (cells : List (Option β)), clean (fun _ => false) cells = cells := by
    intro β cells
    unfold clean
    conv_rhs => rw [← List.map_id cells]
    apply List.map_congr_left
    intro c _; cases c <;> rfl
  refine ⟨fun d ps => ?_, fun d ps => ?_, fun d ps => pages doubleTy d ps, fun d ps => ?_, fun d ps => ?_⟩
  · have := pages int32Ty d ps; rwa [hc] at this
  · have := pages int64Ty d ps; rwa [hc] at this
  · have := pages stringTy d ps; rwa [hc] at this
  · have := pages boolTy d ps; rwa [hc] at this

/-- **C93** (serialised bounds): two values of the same type with the same bytes are the same value. -/
theorem C93_serialize :
    (∀ a b : Int32, serializeStatistic (.i32 a) = serializeStatistic (.i32 b) → a = b) ∧ (∀ a b : Int64, serializeStatistic (.i64 a) = serializeStatistic (.i64 b) → a = b) ∧
    (∀ a b : UInt64, serializeStatistic (.f64 a) = serializeStatistic (.f64 b) → a = b) ∧ (∀ a b, serializeStatistic (.str a) = serializeStatistic (.str b) → a = b) ∧
    (∀ a b, serializeStatistic (.bool a) = serializeStatistic (.bool b) → a = b) := by
  have h8 : ∀ a b : UInt64, le8 a = le8 b → a = b := by
    intro a b h
    simp only [le8, List.cons.injEq, and_true] at h
    obtain ⟨h0, h1, h2, h3, h4, h5, h6, h7⟩ := h
    rw [← UInt8.toNat_inj] at h0 h1 h2 h3 h4 h5 h6 h7
    rw [← UInt64.toNat_inj]
    simp [UInt64.toNat_shiftRight, Nat.shiftRight_eq_div_pow] at h0 h1 h2 h3 h4 h5 h6 h7
    have := a.toNat_lt
    have := b.toNat_lt
    omega
  have h4 : ∀ a b : UInt32, le4 a = le4 b → a = b := by
    intro a b h
    simp only [le4, List.cons.injEq, and_true] at h
    obtain ⟨h0, h1, h2, h3⟩ := h
    rw [← UInt8.toNat_inj] at h0 h1 h2 h3
    rw [← UInt32.toNat_inj]
    simp [UInt32.toNat_shiftRight, Nat.shiftRight_eq_div_pow] at h0 h1 h2 h3
    have := a.toNat_lt
    have := b.toNat_lt
    omega
  refine ⟨fun a b h => ?_, fun a b h => ?_, h8, fun a b h => h, by decide⟩
  · have := congrArg UInt32.toInt32 (h4 _ _ h)
    simpa using this
  · have := congrArg UInt64.toInt64 (h8 _ _ h)
    simpa using this

/-- **C93** refuted for the serialised bounds: a column whose smallest text is empty looks like a column without statistics. -/
theorem C93_empty_text_refuted : serializeStatistic (.str []) = serializeStatistic .none := rfl

/-- **C93** refuted as equality of statistics: the merged bounds need not be those an accumulator over the whole column reports, because of the two zeros of `double`. -/
theorem C93_zero_refuted :
    mergeStatistics (accumulate StatAcc.addDouble 0 [some 0]) (accumulate StatAcc.addDouble 0 [some 0x8000000000000000]) ≠
      accumulate StatAcc.addDouble 0 [some 0, some 0x8000000000000000] := by decide

/-- Three pages with nulls, an empty one among them. -/
example : (([[some 5, none], [], [some (-7), some 3]] : List (List (Option Int32))).map (accumulate StatAcc.addInt32 0)).foldl mergeStatistics {} =
    ⟨true, 1, 0, .i32 (-7), .i32 5⟩ := by decide

end Vroom
