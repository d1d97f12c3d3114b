import Verif.Model.Statistics
import Verif.Spec.Statistics
import Mathlib.Data.List.Basic
import Mathlib.Tactic.Tauto

/-!
Vectorised extrema and the statistics objects.
-/
namespace Vroom

/-- What is used of a comparison restricted to non-NaN values. -/
structure CmpOk {α : Type} (lt : α → α → Bool) (nan : α → Bool) : Prop where
  irrefl : ∀ a, lt a a = false
  asymm : ∀ a b, lt a b = true → lt b a = false
  trans : ∀ a b c, nan b = false → lt a b = false → lt b c = false → lt a c = false

/-- What is used of a lane-wise minimum: on non-NaN values it returns one of its operands, not above the other. -/
def LaneOk {α : Type} (lt : α → α → Bool) (nan : α → Bool) (h : α → α → α) : Prop :=
  ∀ a b, nan a = false → nan b = false → (h a b = a ∨ h a b = b) ∧ lt a (h a b) = false ∧ lt b (h a b) = false

theorem CmpOk.flip {α : Type} {lt : α → α → Bool} {nan : α → Bool} (h : CmpOk lt nan) : CmpOk (fun a b => lt b a) nan :=
  ⟨h.irrefl, fun a b hab => h.asymm b a hab, fun a b c hb h1 h2 => h.trans c b a hb h2 h1⟩

section
variable {α : Type} {lt : α → α → Bool} {nan : α → Bool}

theorem isLeast_single (hc : CmpOk lt nan) (x : α) : IsLeast lt [x] x :=
  ⟨by simp, by intro y hy; simp at hy; subst hy; exact hc.irrefl y⟩

theorem isLeast_congr {xs ys : List α} {m : α} (h : ∀ x, x ∈ xs ↔ x ∈ ys) (hm : IsLeast lt xs m) : IsLeast lt ys m :=
  ⟨(h m).1 hm.1, fun x hx => hm.2 x ((h x).2 hx)⟩

/-- Combining two least elements. -/
theorem isLeast_append (hc : CmpOk lt nan) {xs ys : List α} {m n : α} (hxn : ∀ x ∈ xs, nan x = false) (hyn : ∀ y ∈ ys, nan y = false)
    (hm : IsLeast lt xs m) (hn : IsLeast lt ys n) : IsLeast lt (xs ++ ys) (stdMin lt m n) := by
  have hmn := hxn m hm.1
  have hnn := hyn n hn.1
  simp only [stdMin]
  by_cases hlt : lt n m = true
  · rw [if_pos hlt]
    refine ⟨List.mem_append.2 (.inr hn.1), ?_⟩
    intro x hx
    rcases List.mem_append.1 hx with h | h
    · exact hc.trans x m n hmn (hm.2 x h) (hc.asymm n m hlt)
    · exact hn.2 x h
  · rw [if_neg hlt]
    refine ⟨List.mem_append.2 (.inl hm.1), ?_⟩
    intro x hx
    rcases List.mem_append.1 hx with h | h
    · exact hm.2 x h
    · exact hc.trans x n m hnn (hn.2 x h) (by simpa using hlt)

theorem isLeast_foldl (hc : CmpOk lt nan) : ∀ (ys xs : List α) (m : α), (∀ x ∈ xs, nan x = false) → (∀ y ∈ ys, nan y = false) →
    IsLeast lt xs m → IsLeast lt (xs ++ ys) (ys.foldl (stdMin lt) m)
  | [], xs, m, _, _, hm => by simpa using hm
  | y :: ys, xs, m, hx, hy, hm => by
    have h1 := isLeast_append hc (ys := [y]) (n := y) hx (by intro z hz; simp at hz; subst hz; exact hy z (by simp)) hm
      (isLeast_single hc y)
    have h2 := isLeast_foldl hc ys (xs ++ [y]) (stdMin lt m y)
      (by intro z hz; rcases List.mem_append.1 hz with h | h
          · exact hx z h
          · simp at h; subst h; exact hy z (by simp))
      (fun z hz => hy z (List.mem_cons_of_mem _ hz)) h1
    simpa using h2

/-- `acc` represents `seen`: its elements are seen values and every seen value is not below some lane. -/
def Covers (lt : α → α → Bool) (seen acc : List α) : Prop := (∀ a ∈ acc, a ∈ seen) ∧ ∀ x ∈ seen, ∃ a ∈ acc, lt x a = false

theorem covers_zipWith (hc : CmpOk lt nan) {h : α → α → α} (hl : LaneOk lt nan h) :
    ∀ (acc blk : List α), acc.length = blk.length → (∀ a ∈ acc, nan a = false) → (∀ b ∈ blk, nan b = false) →
      (∀ a ∈ List.zipWith h acc blk, a ∈ acc ++ blk) ∧
      (∀ x, (∃ a ∈ acc, lt x a = false) → ∃ a ∈ List.zipWith h acc blk, lt x a = false) ∧
      (∀ b ∈ blk, ∃ a ∈ List.zipWith h acc blk, lt b a = false)
  | [], [], _, _, _ => by simp
  | [], b :: bs, hlen, _, _ => by simp at hlen
  | a :: as, [], hlen, _, _ => by simp at hlen
  | a :: as, b :: bs, hlen, ha, hb => by
    have ih := covers_zipWith hc hl as bs (by simpa using hlen) (fun x hx => ha x (List.mem_cons_of_mem _ hx))
      (fun x hx => hb x (List.mem_cons_of_mem _ hx))
    have hab := hl a b (ha a (by simp)) (hb b (by simp))
    have hna : nan (h a b) = false := by
      rcases hab.1 with h1 | h1 <;> rw [h1]
      · exact ha a (by simp)
      · exact hb b (by simp)
    obtain ⟨i1, i2, i3⟩ := ih
    refine ⟨?_, ?_, ?_⟩
    · intro x hx
      rw [List.zipWith_cons_cons, List.mem_cons] at hx
      rcases hx with hx | hx
      · rcases hab.1 with h1 | h1 <;> rw [hx, h1] <;> simp
      · have := i1 x hx
        simp at this ⊢
        tauto
    · rintro x ⟨y, hy, hxy⟩
      rw [List.mem_cons] at hy
      rcases hy with hy | hy
      · subst hy
        exact ⟨h y b, by simp, hc.trans x y _ (ha y (by simp)) hxy hab.2.1⟩
      · obtain ⟨z, hz, hxz⟩ := i2 x ⟨y, hy, hxy⟩
        exact ⟨z, by simp [hz], hxz⟩
    · intro y hy
      rw [List.mem_cons] at hy
      rcases hy with hy | hy
      · subst hy; exact ⟨h a y, by simp, hab.2.2⟩
      · obtain ⟨z, hz, hxz⟩ := i3 y hy
        exact ⟨z, by simp [hz], hxz⟩

/-- The vector loop: lanes cover everything consumed. -/
theorem laneLoop_covers (hc : CmpOk lt nan) {h : α → α → α} (hl : LaneOk lt nan h) (n : Nat) :
    ∀ (k : Nat) (acc rest seen : List α), rest.length = k → acc.length = n → (∀ x ∈ seen, nan x = false) → (∀ x ∈ rest, nan x = false) →
      Covers lt seen acc →
      ∃ used, rest = used ++ (laneLoop n h acc rest).2 ∧ (laneLoop n h acc rest).1.length = n ∧
        Covers lt (seen ++ used) (laneLoop n h acc rest).1 := by
  intro k
  induction k using Nat.strongRecOn with
  | _ k ih =>
    intro acc rest seen hk hacc hs hr hcov
    rw [laneLoop.eq_def]
    by_cases hcond : n ≠ 0 ∧ n ≤ rest.length
    · rw [if_pos hcond]
      have hblk : (rest.take n).length = n := by simp; omega
      have hrn : ∀ x ∈ rest.take n, nan x = false := fun x hx => hr x (List.mem_of_mem_take hx)
      have hz := covers_zipWith hc hl acc (rest.take n) (by omega) (fun a ha => hs a (hcov.1 a ha)) hrn
      have hcov' : Covers lt (seen ++ rest.take n) (List.zipWith h acc (rest.take n)) := by
        refine ⟨?_, ?_⟩
        · intro a ha
          rcases List.mem_append.1 (hz.1 a ha) with h1 | h1
          · exact List.mem_append.2 (.inl (hcov.1 a h1))
          · exact List.mem_append.2 (.inr h1)
        · intro x hx
          rcases List.mem_append.1 hx with h1 | h1
          · exact hz.2.1 x (hcov.2 x h1)
          · exact hz.2.2 x h1
      obtain ⟨used, hu1, hu2, hu3⟩ := ih (rest.drop n).length (by simp; omega) (List.zipWith h acc (rest.take n)) (rest.drop n)
        (seen ++ rest.take n) rfl (by simp [hblk, hacc])
        (by intro x hx; rcases List.mem_append.1 hx with h1 | h1
            · exact hs x h1
            · exact hrn x h1)
        (fun x hx => hr x (List.mem_of_mem_drop hx)) hcov'
      refine ⟨rest.take n ++ used, ?_, hu2, ?_⟩
      · rw [List.append_assoc, ← hu1, List.take_append_drop]
      · rw [← List.append_assoc]; exact hu3
    · rw [if_neg hcond]
      exact ⟨[], by simp, hacc, by simpa using hcov⟩

/-- The horizontal reduction. -/
theorem laneReduce_covers (hc : CmpOk lt nan) {h : α → α → α} (hl : LaneOk lt nan h) :
    ∀ (acc : List α) (m : α) (seen : List α), (∀ x ∈ seen, nan x = false) → Covers lt seen (m :: acc) →
      IsLeast lt seen (acc.foldl h m)
  | [], m, seen, _, hcov => by
    refine ⟨hcov.1 m (by simp), ?_⟩
    intro x hx
    obtain ⟨a, ha, hxa⟩ := hcov.2 x hx
    simp at ha; subst ha; exact hxa
  | a :: acc, m, seen, hs, hcov => by
    have hm : nan m = false := hs m (hcov.1 m (by simp))
    have ha : nan a = false := hs a (hcov.1 a (by simp))
    have hma := hl m a hm ha
    refine laneReduce_covers hc hl acc (h m a) seen hs ⟨?_, ?_⟩
    · intro y hy
      rw [List.mem_cons] at hy
      rcases hy with hy | hy
      · rcases hma.1 with h1 | h1 <;> rw [hy, h1] <;> exact hcov.1 _ (by simp)
      · exact hcov.1 y (by simp [hy])
    · intro x hx
      obtain ⟨y, hy, hxy⟩ := hcov.2 x hx
      rw [List.mem_cons, List.mem_cons] at hy
      rcases hy with hy | hy | hy
      · subst hy; exact ⟨h y a, by simp, hc.trans x y _ hm hxy hma.2.1⟩
      · subst hy; exact ⟨h m y, by simp, hc.trans x y _ ha hxy hma.2.2⟩
      · exact ⟨y, by simp [hy], hxy⟩

theorem covers_replicate (hc : CmpOk lt nan) (n : Nat) (hn : 0 < n) (d : α) : Covers lt [d] (List.replicate n d) := by
  refine ⟨?_, ?_⟩
  · intro a ha; rw [List.mem_replicate] at ha; simp [ha.2]
  · intro x hx; simp at hx; subst hx
    exact ⟨x, by rw [List.mem_replicate]; exact ⟨by omega, rfl⟩, hc.irrefl x⟩

theorem laneReduce_eq {h : α → α → α} (d : α) (acc : List α) (hacc : acc ≠ []) : ∃ a as, acc = a :: as ∧ laneReduce h d acc = as.foldl h a := by
  cases acc with
  | nil => exact absurd rfl hacc
  | cons a as => exact ⟨a, as, rfl, rfl⟩

/-- Vector loop, reduction and scalar tail together give a least element of the start value and the data. -/
theorem lanes_least (hc : CmpOk lt nan) {h : α → α → α} (hl : LaneOk lt nan h) (n : Nat) (hn : 0 < n) (d : α) (data : List α)
    (hd : nan d = false) (hdata : ∀ x ∈ data, nan x = false) :
    IsLeast lt (d :: data) ((laneLoop n h (List.replicate n d) data).2.foldl (stdMin lt)
      (laneReduce h d (laneLoop n h (List.replicate n d) data).1)) := by
  obtain ⟨used, h1, h2, h3⟩ := laneLoop_covers hc hl n _ (List.replicate n d) data [d] rfl (by simp)
    (by intro x hx; simp at hx; subst hx; exact hd) hdata (covers_replicate hc n hn d)
  generalize (laneLoop n h (List.replicate n d) data) = r at *
  have hne : r.1 ≠ [] := by intro he; rw [he] at h2; simp at h2; omega
  obtain ⟨a, as, ha, hred⟩ := laneReduce_eq (h := h) d r.1 hne
  rw [ha] at h3
  have hseen : ∀ x ∈ [d] ++ used, nan x = false := by
    intro x hx
    rcases List.mem_append.1 hx with hx | hx
    · simp at hx; subst hx; exact hd
    · exact hdata x (by rw [h1]; exact List.mem_append.2 (.inl hx))
  have hl1 := laneReduce_covers hc hl as a _ hseen h3
  rw [← hred] at hl1
  have hl2 := isLeast_foldl hc r.2 _ _ hseen (fun y hy => hdata y (by rw [h1]; exact List.mem_append.2 (.inr hy))) hl1
  rw [h1]
  simpa using hl2

/-- Integer extremum. -/
theorem extremum_least (hc : CmpOk lt nan) {h : α → α → α} (hl : LaneOk lt nan h) (n : Nat) (hn : 0 < n) (d : α) (ds : List α)
    (hdata : ∀ x ∈ d :: ds, nan x = false) : IsLeast lt (d :: ds) (extremum lt h n d ds) := by
  have := lanes_least hc hl n hn d (d :: ds) (hdata d (by simp)) hdata
  exact isLeast_congr (by simp) this

theorem filter_all_false (p : α → Bool) (l : List α) (h : ∀ x ∈ l, p x = false) : l.filter (fun x => !p x) = l := by
  rw [List.filter_eq_self]; intro x hx; simp [h x hx]

/-- Floating-point extremum of data without NaN. -/
theorem extremumF_least (hc : CmpOk lt nan) {h : α → α → α} (hl : LaneOk lt nan h) (n : Nat) (hn : 0 < n) (d : α) (ds : List α)
    (hdata : ∀ x ∈ d :: ds, nan x = false) : IsLeast lt (d :: ds) (extremumF lt nan h n d ds) := by
  have h1 := lanes_least hc hl n hn d ds (hdata d (by simp)) (fun x hx => hdata x (by simp [hx]))
  obtain ⟨used, h2, _⟩ := laneLoop_covers hc hl n _ (List.replicate n d) ds [d] rfl (by simp)
    (by intro x hx; simp at hx; subst hx; exact hdata x (by simp)) (fun x hx => hdata x (by simp [hx])) (covers_replicate hc n hn d)
  simp only [extremumF]
  rw [filter_all_false]
  · exact h1
  · intro x hx; exact hdata x (by rw [h2]; simp [hx])

end

/-! ### Statistics objects -/

/-- `s` brackets the values `xs`. -/
def Brackets {α : Type} (o : StatOps α) (xs : List α) (s : Stats α) : Prop :=
  (s.has = true ↔ xs ≠ []) ∧ (s.has = true → IsLeast o.lt xs s.min ∧ IsGreatest o.lt xs s.max)

section
variable {α : Type} {o : StatOps α}

theorem brackets_widen (hc : CmpOk o.lt o.nan) {xs ys : List α} {s : Stats α} {lo hi : α} (hx : ∀ x ∈ xs, o.nan x = false)
    (hy : ∀ y ∈ ys, o.nan y = false) (hs : Brackets o xs s) (hlo : IsLeast o.lt ys lo) (hhi : IsGreatest o.lt ys hi) :
    Brackets o (xs ++ ys) (s.widen o lo hi) := by
  have hne : xs ++ ys ≠ [] := by
    intro he; have := hlo.1; rw [List.append_eq_nil_iff] at he; rw [he.2] at this; simp at this
  simp only [Stats.widen]
  by_cases hh : s.has = false
  · rw [if_pos hh]
    have hxs : xs = [] := by
      by_contra hcon; have := hs.1.2 hcon; rw [hh] at this; exact absurd this (by simp)
    subst hxs
    exact ⟨by simpa using hne, fun _ => ⟨by simpa using hlo, by simpa using hhi⟩⟩
  · rw [if_neg hh]
    have hh' : s.has = true := by simpa using hh
    obtain ⟨h1, h2⟩ := hs.2 hh'
    refine ⟨by simpa [hh'] using hne, fun _ => ⟨isLeast_append hc hx hy h1 hlo, isLeast_append hc.flip hx hy h2 hhi⟩⟩

theorem brackets_nulls {xs : List α} {s : Stats α} (k : Nat) (hs : Brackets o xs s) : Brackets o xs { s with nulls := k } := hs
theorem brackets_values {xs : List α} {s : Stats α} (k : Nat) (hs : Brackets o xs s) : Brackets o xs { s with values := k } := hs

theorem present_append (a b : List (Option α)) : present (a ++ b) = present a ++ present b := by simp [present, List.filterMap_append]
theorem nullCount_append (a b : List (Option α)) : nullCount (a ++ b) = nullCount a + nullCount b := by simp [nullCount]

/-- No NaN among the values. -/
def Clean (nan : α → Bool) (cells : List (Option α)) : Prop := ∀ x ∈ present cells, nan x = false

theorem clean_append {nan : α → Bool} {a b : List (Option α)} (ha : Clean nan a) (hb : Clean nan b) : Clean nan (a ++ b) := by
  intro x hx; rw [present_append] at hx
  rcases List.mem_append.1 hx with h | h
  · exact ha x h
  · exact hb x h

/-- The statistics of a column are right. -/
structure ExactStats (o : StatOps α) (cells : List (Option α)) (s : Stats α) : Prop where
  nulls : s.nulls = nullCount cells
  values : s.values = (present cells).length
  brackets : Brackets o (present cells) s

theorem exact_new (d : α) : ExactStats o [] (Stats.new d) := ⟨rfl, rfl, by simp [Brackets, present, Stats.new]⟩

theorem exact_null {cells : List (Option α)} {s : Stats α} (h : ExactStats o cells s) : ExactStats o (cells ++ [none]) s.updateNull := by
  refine ⟨?_, ?_, ?_⟩
  · rw [nullCount_append]; simp [Stats.updateNull, h.nulls, nullCount]
  · rw [present_append]; simpa [Stats.updateNull, present] using h.values
  · have : present (cells ++ [none]) = present cells := by rw [present_append]; simp [present]
    rw [this]; exact h.brackets

theorem exact_batch (hc : CmpOk o.lt o.nan) {cells : List (Option α)} {s : Stats α} (ys : List α) (lo hi : α) (hcl : Clean o.nan cells)
    (hy : ∀ y ∈ ys, o.nan y = false) (h : ExactStats o cells s) (hlo : IsLeast o.lt ys lo) (hhi : IsGreatest o.lt ys hi) :
    ExactStats o (cells ++ ys.map some) { s.widen o lo hi with values := s.values + ys.length } := by
  have hp : present (ys.map some) = ys := by simp [present, List.filterMap_map]
  have hn : nullCount (ys.map some) = 0 := by simp [nullCount]
  have hw : (s.widen o lo hi).nulls = s.nulls := by simp only [Stats.widen]; split <;> rfl
  refine ⟨?_, ?_, ?_⟩
  · rw [nullCount_append, hn]; simpa [hw] using h.nulls
  · rw [present_append, hp]; simp [h.values]
  · rw [present_append, hp]
    exact brackets_values (o := o) _ (brackets_widen hc hcl hy h.brackets hlo hhi)

theorem exact_value (hc : CmpOk o.lt o.nan) {cells : List (Option α)} {s : Stats α} (v : α) (hcl : Clean o.nan cells)
    (h : ExactStats o cells s) : ExactStats o (cells ++ [if o.nan v then none else some v]) (s.update o v) := by
  simp only [Stats.update]
  by_cases hv : o.nan v = true
  · rw [if_pos hv, if_pos hv]; exact exact_null h
  · have hv' : o.nan v = false := by simpa using hv
    rw [if_neg hv, if_neg hv]
    have := exact_batch hc [v] v v hcl (by intro y hy; simp at hy; subst hy; exact hv') h (isLeast_single hc v) (isLeast_single hc.flip v)
    have hw : (s.widen o v v).values = s.values := by simp only [Stats.widen]; split <;> rfl
    rw [hw]
    exact this

theorem exact_merge (hc : CmpOk o.lt o.nan) {a b : List (Option α)} {s t : Stats α} (ha : Clean o.nan a) (hb : Clean o.nan b)
    (hs : ExactStats o a s) (ht : ExactStats o b t) : ExactStats o (a ++ b) (s.merge o t) := by
  have hw : (if t.has then s.widen o t.min t.max else s).nulls = s.nulls ∧ (if t.has then s.widen o t.min t.max else s).values = s.values := by
    by_cases h : t.has = true
    · rw [if_pos h]; simp only [Stats.widen]; split <;> exact ⟨rfl, rfl⟩
    · rw [if_neg h]; exact ⟨rfl, rfl⟩
  simp only [Stats.merge]
  refine ⟨?_, ?_, ?_⟩
  · rw [nullCount_append]; simp [hw.1, hs.nulls, ht.nulls]
  · rw [present_append]; simp [hw.2, hs.values, ht.values]
  · rw [present_append]
    show Brackets o _ (if t.has then s.widen o t.min t.max else s)
    by_cases h : t.has = true
    · rw [if_pos h]
      obtain ⟨h1, h2⟩ := ht.brackets.2 h
      exact brackets_widen hc ha hb hs.brackets h1 h2
    · rw [if_neg h]
      have : present b = [] := by by_contra hcon; exact h (ht.brackets.1.2 hcon)
      rw [this, List.append_nil]; exact hs.brackets

theorem present_none (cells : List (Option α)) (nan : α → Bool) : Clean nan (cells.map (fun c => c.filter (fun v => !nan v))) := by
  intro x hx
  simp only [present, List.mem_filterMap, List.mem_map, id] at hx
  obtain ⟨y, ⟨c, _, hc⟩, hy⟩ := hx
  cases c with
  | none => simp at hc; subst hc; simp at hy
  | some v =>
    subst hc
    rw [Option.filter_some] at hy
    by_cases hv : (!nan v) = true
    · rw [if_pos hv] at hy; simp at hy; subst hy; simpa using hv
    · rw [if_neg hv] at hy; simp at hy

theorem filter_some_eq (nan : α → Bool) (v : α) : (some v).filter (fun v => !nan v) = if nan v then none else some v := by
  rw [Option.filter_some]; cases nan v <;> rfl

theorem map_filter_some (nan : α → Bool) (vs : List α) :
    (vs.map some).map (fun c => c.filter (fun v => !nan v)) = vs.map (fun v => if nan v then none else some v) := by
  rw [List.map_map]; apply List.map_congr_left; intro v _; exact filter_some_eq nan v

theorem clean_map (nan : α → Bool) (vs : List α) : Clean nan (vs.map (fun v => if nan v then none else some v)) := by
  rw [← map_filter_some]; exact present_none _ _

theorem clean_cells (nan : α → Bool) (h : StatHistory α) : Clean nan (h.cells nan) := by
  induction h with
  | new => intro x hx; simp [StatHistory.cells, present] at hx
  | value h v ih => exact clean_append ih (clean_map nan [v])
  | null h ih => exact clean_append ih (by intro x hx; simp [present] at hx)
  | batch h vs ih => exact clean_append ih (clean_map nan vs)
  | batchNulls h vs bm ih => exact clean_append ih (present_none _ _)
  | merge h k ih1 ih2 => exact clean_append ih1 ih2
  | reset h ih => intro x hx; simp [StatHistory.cells, present] at hx

/-- Folding `update` over values. -/
theorem exact_updateBatch (hc : CmpOk o.lt o.nan) : ∀ (vs : List α) (cells : List (Option α)) (s : Stats α), Clean o.nan cells →
    ExactStats o cells s → ExactStats o (cells ++ vs.map (fun v => if o.nan v then none else some v)) (s.updateBatch o vs)
  | [], cells, s, _, h => by simpa [Stats.updateBatch] using h
  | v :: vs, cells, s, hcl, h => by
    have := exact_updateBatch hc vs _ _ (clean_append hcl (clean_map o.nan [v])) (exact_value hc v hcl h)
    simpa [Stats.updateBatch] using this

/-- The bitmap as read with `zipIdx`. -/
theorem zipIdx_bitmap (bm : List Bool) : ∀ (vs : List α) (k : Nat),
    (vs.zipIdx k).map (fun p => if Stats.nullAt bm p.2 then none else some p.1) = bitmapCells vs (bm.drop k)
  | [], k => by cases hb : bm.drop k <;> simp [bitmapCells]
  | v :: vs, k => by
    have ih := zipIdx_bitmap bm vs (k + 1)
    rw [List.zipIdx_cons, List.map_cons, ih]
    have hd : (bm.drop k).tail = bm.drop (k + 1) := by simp
    cases hb : bm.drop k with
    | nil =>
      have hn : Stats.nullAt bm k = false := by
        have : bm.length ≤ k := by simpa using hb
        simp [Stats.nullAt, List.getD_eq_getElem?_getD, List.getElem?_eq_none this]
      rw [hb] at hd
      simp [bitmapCells, hn, ← hd]
    | cons b bs =>
      have hn : Stats.nullAt bm k = b := by
        have h1 : bm[k]? = some b := by
          have := congrArg (fun l => l[0]?) hb
          simpa [List.getElem?_drop] using this
        simp [Stats.nullAt, List.getD_eq_getElem?_getD, h1]
      rw [hb] at hd
      simp only [List.tail_cons] at hd
      simp [bitmapCells, hn, ← hd]

/-- The scalar `update_batch_with_nulls`. -/
theorem exact_updateBatchNulls (hc : CmpOk o.lt o.nan) (vs : List α) (bm : List Bool) (cells : List (Option α)) (s : Stats α)
    (hcl : Clean o.nan cells) (h : ExactStats o cells s) :
    ExactStats o (cells ++ (bitmapCells vs bm).map (fun c => c.filter (fun v => !o.nan v))) (s.updateBatchNulls o vs bm) := by
  have key : ∀ (ps : List (α × Nat)) (cells : List (Option α)) (s : Stats α), Clean o.nan cells → ExactStats o cells s →
      ExactStats o (cells ++ (ps.map (fun p => if Stats.nullAt bm p.2 then none else some p.1)).map (fun c => c.filter (fun v => !o.nan v)))
        (ps.foldl (fun s p => if Stats.nullAt bm p.2 then s.updateNull else s.update o p.1) s) := by
    intro ps
    induction ps with
    | nil => intro cells s _ h; simpa using h
    | cons p ps ih =>
      intro cells s hcl h
      rw [List.foldl_cons, List.map_cons, List.map_cons]
      by_cases hp : Stats.nullAt bm p.2 = true
      · rw [if_pos hp, if_pos hp]
        have := ih _ _ (clean_append hcl (by intro x hx; simp [present] at hx)) (exact_null h)
        simpa using this
      · rw [if_neg hp, if_neg hp]
        have := ih _ _ (clean_append hcl (clean_map o.nan [p.1])) (exact_value hc p.1 hcl h)
        rw [filter_some_eq]
        simpa using this
  have := key vs.zipIdx cells s hcl h
  rw [zipIdx_bitmap bm vs 0] at this
  simpa [Stats.updateBatchNulls] using this

/-- The bitmap split of the vectorised versions. -/
theorem splitNulls_eq (vs : List α) (bm : List Bool) :
    Stats.splitNulls vs bm = (nullCount (bitmapCells vs bm), present (bitmapCells vs bm)) := by
  have key : ∀ ps : List (α × Nat), ((ps.filter (fun p => Stats.nullAt bm p.2)).length, (ps.filter (fun p => !Stats.nullAt bm p.2)).map (·.1)) =
      (nullCount (ps.map (fun p => if Stats.nullAt bm p.2 then none else some p.1)),
       present (ps.map (fun p => if Stats.nullAt bm p.2 then none else some p.1))) := by
    intro ps
    induction ps with
    | nil => rfl
    | cons p ps ih =>
      rw [Prod.mk.injEq] at ih ⊢
      cases hp : Stats.nullAt bm p.2 <;> simp_all [nullCount, present]
  have := key vs.zipIdx
  rw [zipIdx_bitmap bm vs 0] at this
  simpa [Stats.splitNulls] using this

theorem exact_congr_perm {a b : List (Option α)} {s : Stats α} (hn : nullCount a = nullCount b) (hp : present a = present b)
    (h : ExactStats o a s) : ExactStats o b s := ⟨hn ▸ h.nulls, hp ▸ h.values, hp ▸ h.brackets⟩

/-- The vectorised integer batch. -/
theorem exact_batchInt (hc : CmpOk o.lt o.nan) (hmin : LaneOk o.lt o.nan o.hmin) (hmax : LaneOk (fun a b => o.lt b a) o.nan o.hmax)
    (hlanes : 0 < o.lanes) (vs : List α) (hvs : ∀ v ∈ vs, o.nan v = false) (cells : List (Option α)) (s : Stats α) (hcl : Clean o.nan cells)
    (h : ExactStats o cells s) : ExactStats o (cells ++ vs.map some) (s.updateBatchInt o vs) := by
  cases vs with
  | nil => simpa [Stats.updateBatchInt] using h
  | cons v vs =>
    simp only [Stats.updateBatchInt, minMaxInt]
    have hlo := extremum_least hc hmin o.lanes hlanes v vs hvs
    have hhi := extremum_least hc.flip hmax o.lanes hlanes v vs hvs
    have := exact_batch hc (v :: vs) _ _ hcl hvs h hlo hhi
    have hw : ∀ lo hi, (s.widen o lo hi).values = s.values := by intro lo hi; simp only [Stats.widen]; split <;> rfl
    rw [hw]
    exact this

theorem exact_nullsN {cells : List (Option α)} {s : Stats α} (k : Nat) (h : ExactStats o cells s) :
    ExactStats o (cells ++ List.replicate k none) { s with nulls := s.nulls + k } := by
  have hp : present (List.replicate k (none : Option α)) = [] := by simp [present]
  have hn : nullCount (List.replicate k (none : Option α)) = k := by simp [nullCount]
  refine ⟨?_, ?_, ?_⟩
  · rw [nullCount_append, hn]; simp [h.nulls]
  · rw [present_append, hp]; simpa using h.values
  · rw [present_append, hp]; simpa using brackets_nulls (o := o) _ h.brackets

/-- Minimum and maximum of floating-point data without NaN. -/
theorem minMaxFloat_clean (hc : CmpOk o.lt o.nan) (hmin : LaneOk o.lt o.nan o.hmin) (hmax : LaneOk (fun a b => o.lt b a) o.nan o.hmax)
    (hlanes : 0 < o.lanes) (v : α) (vs : List α) (hvs : ∀ x ∈ v :: vs, o.nan x = false) :
    ∃ lo hi, minMaxFloat o (v :: vs) = some (lo, hi) ∧ IsLeast o.lt (v :: vs) lo ∧ IsGreatest o.lt (v :: vs) hi := by
  have hlo := extremumF_least hc hmin o.lanes hlanes v vs hvs
  have hhi := extremumF_least hc.flip hmax o.lanes hlanes v vs hvs
  refine ⟨_, _, ?_, hlo, hhi⟩
  have hdw : (v :: vs).dropWhile o.nan = v :: vs := by rw [List.dropWhile_cons_of_neg]; rw [hvs v (by simp)]; simp
  simp only [minMaxFloat, hdw]
  rw [if_neg]
  rw [hvs _ hlo.1, hvs _ hhi.1]; simp

theorem exact_batchFloat (hc : CmpOk o.lt o.nan) (hmin : LaneOk o.lt o.nan o.hmin) (hmax : LaneOk (fun a b => o.lt b a) o.nan o.hmax)
    (hlanes : 0 < o.lanes) (vs : List α) (hvs : ∀ v ∈ vs, o.nan v = false) (cells : List (Option α)) (s : Stats α) (hcl : Clean o.nan cells)
    (h : ExactStats o cells s) : ExactStats o (cells ++ vs.map some) (s.updateBatchFloat o vs) := by
  cases vs with
  | nil => simpa [Stats.updateBatchFloat] using h
  | cons v vs =>
    obtain ⟨lo, hi, hm, hlo, hhi⟩ := minMaxFloat_clean hc hmin hmax hlanes v vs hvs
    simp only [Stats.updateBatchFloat, hm]
    rw [if_neg (by simp)]
    have := exact_batch hc (v :: vs) _ _ hcl hvs h hlo hhi
    have hw : ∀ lo hi, (s.widen o lo hi).values = s.values := by intro lo hi; simp only [Stats.widen]; split <;> rfl
    rw [hw]
    exact this

theorem map_some_clean (nan : α → Bool) (vs : List α) (h : ∀ v ∈ vs, nan v = false) :
    vs.map (fun v => if nan v then none else some v) = vs.map some := by
  apply List.map_congr_left; intro v hv; rw [h v hv]; rfl

theorem present_cons_some (v : α) (cs : List (Option α)) : present (some v :: cs) = v :: present cs := rfl
theorem present_cons_none (cs : List (Option α)) : present (none :: cs) = present cs := rfl
theorem nullCount_cons_some (v : α) (cs : List (Option α)) : nullCount (some v :: cs) = nullCount cs := rfl
theorem nullCount_cons_none (cs : List (Option α)) : nullCount (none :: cs) = nullCount cs + 1 := rfl
theorem present_map_some (vs : List α) : present (vs.map some) = vs := by simp [present, List.filterMap_map]
theorem nullCount_map_some (vs : List α) : nullCount (vs.map some) = 0 := by simp [nullCount]
theorem present_replicate (k : Nat) : present (List.replicate k (none : Option α)) = [] := by simp [present]
theorem nullCount_replicate (k : Nat) : nullCount (List.replicate k (none : Option α)) = k := by simp [nullCount]

theorem present_filter (nan : α → Bool) : ∀ cs : List (Option α),
    present (cs.map (fun c => c.filter (fun v => !nan v))) = (present cs).filter (fun v => !nan v)
  | [] => rfl
  | none :: cs => by rw [List.map_cons, Option.filter_none, present_cons_none, present_cons_none]; exact present_filter nan cs
  | some v :: cs => by
    rw [List.map_cons, filter_some_eq, present_cons_some, List.filter_cons]
    cases hv : nan v
    · simp only [Bool.false_eq_true, if_false, Bool.not_false, if_true, present_cons_some]; rw [present_filter nan cs]
    · simp only [if_true, Bool.not_true, Bool.false_eq_true, if_false, present_cons_none]; exact present_filter nan cs

theorem nullCount_filter (nan : α → Bool) : ∀ cs : List (Option α),
    nullCount (cs.map (fun c => c.filter (fun v => !nan v))) = nullCount cs + ((present cs).filter nan).length
  | [] => rfl
  | none :: cs => by
    rw [List.map_cons, Option.filter_none, nullCount_cons_none, nullCount_cons_none, present_cons_none, nullCount_filter nan cs]; omega
  | some v :: cs => by
    rw [List.map_cons, filter_some_eq, present_cons_some, List.filter_cons, nullCount_cons_some]
    have ih := nullCount_filter nan cs
    cases hv : nan v
    · simp only [Bool.false_eq_true, if_false, nullCount_cons_some]; exact ih
    · simp only [if_true, nullCount_cons_none, List.length_cons]; omega

end
end Vroom
