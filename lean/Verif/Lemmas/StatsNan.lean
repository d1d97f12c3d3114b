import Verif.Lemmas.Statistics
/-
Floating-point batches with NaN: what the two kinds of vector minimum make of them.
-/
namespace Vroom

section
variable {α : Type} {lt : α → α → Bool} {nan : α → Bool}

/-- `lo` and `hi` are the extrema of some numbers, or both NaN. -/
def PairOk (lt : α → α → Bool) (nan : α → Bool) (S : List α) (lo hi : α) : Prop :=
  (∀ x ∈ S, nan x = false) ∧ ((S = [] ∧ nan lo = true ∧ nan hi = true) ∨ (IsLeast lt S lo ∧ IsGreatest lt S hi))

/-- The same for numbers with a property. -/
def PairIn (lt : α → α → Bool) (nan : α → Bool) (P : α → Prop) (lo hi : α) : Prop := ∃ S, (∀ x ∈ S, P x) ∧ PairOk lt nan S lo hi

theorem pair_single (hc : CmpOk lt nan) {P : α → Prop} {v : α} (hv : P v) : PairIn lt nan P v v := by
  by_cases h : nan v = true
  · exact ⟨[], by simp, by simp, .inl ⟨rfl, h, h⟩⟩
  · exact ⟨[v], by simpa using hv, by simpa using h, .inr ⟨isLeast_single hc v, isLeast_single hc.flip v⟩⟩

theorem pair_comb (hc : CmpOk lt nan) (hn : ∀ a b, nan a = true ∨ nan b = true → lt a b = false) {P : α → Prop} {a a' b b' : α}
    (ha : PairIn lt nan P a a') (hb : PairIn lt nan P b b') : PairIn lt nan P (if lt a b then a else b) (if lt b' a' then a' else b') := by
  obtain ⟨S, s1, s2, s3⟩ := ha
  obtain ⟨T, t1, t2, t3⟩ := hb
  rcases t3 with ⟨rfl, t4, t5⟩ | ⟨t4, t5⟩
  · refine ⟨[], by simp, by simp, .inl ⟨rfl, ?_, ?_⟩⟩
    · rw [hn a b (.inr t4)]; exact t4
    · rw [hn b' a' (.inl t5)]; exact t5
  · rcases s3 with ⟨rfl, s4, s5⟩ | ⟨s4, s5⟩
    · refine ⟨T, t1, t2, .inr ⟨?_, ?_⟩⟩
      · rw [hn a b (.inl s4)]; exact t4
      · rw [hn b' a' (.inr s5)]; exact t5
    · refine ⟨T ++ S, ?_, ?_, .inr ⟨isLeast_append hc t2 s2 t4 s4, isLeast_append hc.flip t2 s2 t5 s5⟩⟩
      · intro x hx; rcases List.mem_append.1 hx with h | h
        · exact t1 x h
        · exact s1 x h
      · intro x hx; rcases List.mem_append.1 hx with h | h
        · exact t2 x h
        · exact s2 x h

variable {P : α → Prop} {f g : α → α → α}

theorem pair_zip (hfg : ∀ a a' b b', PairIn lt nan P a a' → PairIn lt nan P b b' → PairIn lt nan P (f a b) (g a' b'))
    (hc : CmpOk lt nan) {acc acc' : List α} (h : List.Forall₂ (PairIn lt nan P) acc acc') :
    ∀ blk : List α, (∀ b ∈ blk, P b) → List.Forall₂ (PairIn lt nan P) (List.zipWith f acc blk) (List.zipWith g acc' blk) := by
  induction h with
  | nil => intro blk _; simp
  | cons h1 _ ih =>
    intro blk hb
    cases blk with
    | nil => simp
    | cons b bs => exact .cons (hfg _ _ _ _ h1 (pair_single hc (hb b (by simp)))) (ih bs (fun x hx => hb x (by simp [hx])))

theorem pair_loop (hfg : ∀ a a' b b', PairIn lt nan P a a' → PairIn lt nan P b b' → PairIn lt nan P (f a b) (g a' b'))
    (hc : CmpOk lt nan) (n : Nat) : ∀ (k : Nat) (rest acc acc' : List α), rest.length = k → (∀ x ∈ rest, P x) → List.Forall₂ (PairIn lt nan P) acc acc' →
    List.Forall₂ (PairIn lt nan P) (laneLoop n f acc rest).1 (laneLoop n g acc' rest).1 ∧ (laneLoop n f acc rest).2 = (laneLoop n g acc' rest).2 ∧
      ∀ x ∈ (laneLoop n f acc rest).2, x ∈ rest := by
  intro k
  induction k using Nat.strongRecOn with
  | _ k ih =>
    intro rest acc acc' hk hP h
    rw [laneLoop.eq_def n f, laneLoop.eq_def n g]
    by_cases hcond : n ≠ 0 ∧ n ≤ rest.length
    · rw [if_pos hcond, if_pos hcond]
      have := ih (rest.drop n).length (by simp; omega) (rest.drop n) _ _ rfl (fun x hx => hP x (List.mem_of_mem_drop hx))
        (pair_zip hfg hc h (rest.take n) (fun x hx => hP x (List.mem_of_mem_take hx)))
      exact ⟨this.1, this.2.1, fun x hx => List.mem_of_mem_drop (this.2.2 x hx)⟩
    · rw [if_neg hcond, if_neg hcond]
      exact ⟨h, rfl, fun x hx => hx⟩

theorem pair_fold (hfg : ∀ a a' b b', PairIn lt nan P a a' → PairIn lt nan P b b' → PairIn lt nan P (f a b) (g a' b'))
    {as as' : List α} (h : List.Forall₂ (PairIn lt nan P) as as') : ∀ a a', PairIn lt nan P a a' → PairIn lt nan P (as.foldl f a) (as'.foldl g a') := by
  induction h with
  | nil => intro a a' h; exact h
  | cons h1 _ ih => intro a a' h; exact ih _ _ (hfg _ _ _ _ h h1)

theorem fold_nan (hn : ∀ a b, nan a = true ∨ nan b = true → lt a b = false) : ∀ (l : List α) (m : α), nan m = true → nan (l.foldl (stdMin lt) m) = true
  | [], _, h => h
  | x :: l, m, h => by
    rw [List.foldl_cons]
    apply fold_nan hn l
    rw [stdMin, hn x m (.inr h)]
    exact h

theorem pair_tail (hc : CmpOk lt nan) (hn : ∀ a b, nan a = true ∨ nan b = true → lt a b = false) (l : List α) (hl : ∀ x ∈ l, nan x = false) (hP : ∀ x ∈ l, P x)
    {lo hi : α} (h : PairIn lt nan P lo hi) : PairIn lt nan P (l.foldl (stdMin lt) lo) (l.foldl (stdMin (fun a b => lt b a)) hi) := by
  obtain ⟨S, s1, s2, s3⟩ := h
  rcases s3 with ⟨rfl, s4, s5⟩ | ⟨s4, s5⟩
  · exact ⟨[], by simp, by simp, .inl ⟨rfl, fold_nan hn l _ s4, fold_nan (fun a b h => hn b a h.symm) l _ s5⟩⟩
  · refine ⟨S ++ l, ?_, ?_, .inr ⟨isLeast_foldl hc l S lo s2 hl s4, isLeast_foldl hc.flip l S hi s2 hl s5⟩⟩
    · intro x hx; rcases List.mem_append.1 hx with h | h
      · exact s1 x h
      · exact hP x h
    · intro x hx; rcases List.mem_append.1 hx with h | h
      · exact s2 x h
      · exact hl x h

/-- The scalar fallback is right. -/
theorem scalar_least (hc : CmpOk lt nan) {d : α} (ds : List α) (hd : nan d = false) :
    IsLeast lt ((d :: ds).filter fun x => !nan x) (scalarExtremum lt nan d ds) := by
  have h := isLeast_foldl hc (ds.filter fun x => !nan x) [d] d (by simpa using hd) (by intro y hy; simpa using (List.mem_filter.1 hy).2) (isLeast_single hc d)
  rw [List.filter_cons, hd]
  exact h

/-! ### Minimum that spreads NaN -/

/-- The lane operation gives NaN as soon as one side is NaN. -/
def Spreads (nan : α → Bool) (h : α → α → α) : Prop := ∀ a b, nan a = true ∨ nan b = true → nan (h a b) = true

theorem spreads_fold {h : α → α → α} (hs : Spreads nan h) : ∀ (l : List α) (m : α), nan (l.foldl h m) = false → nan m = false ∧ ∀ x ∈ l, nan x = false
  | [], m, hm => ⟨hm, by simp⟩
  | x :: l, m, hm => by
    obtain ⟨h1, h2⟩ := spreads_fold hs l (h m x) hm
    have : ¬ (nan m = true ∨ nan x = true) := fun hc => by rw [hs m x hc] at h1; exact Bool.noConfusion h1
    simp only [not_or, Bool.not_eq_true] at this
    exact ⟨this.1, by intro y hy; rcases List.mem_cons.1 hy with rfl | hy; exacts [this.2, h2 y hy]⟩

theorem spreads_zip {h : α → α → α} (hs : Spreads nan h) : ∀ (acc blk : List α), acc.length = blk.length → (∀ a ∈ List.zipWith h acc blk, nan a = false) →
    (∀ a ∈ acc, nan a = false) ∧ ∀ b ∈ blk, nan b = false
  | [], [], _, _ => by simp
  | [], _ :: _, hl, _ => by simp at hl
  | _ :: _, [], hl, _ => by simp at hl
  | a :: as, b :: bs, hl, hz => by
    obtain ⟨h1, h2⟩ := spreads_zip hs as bs (by simpa using hl) (fun x hx => hz x (by simp [hx]))
    have h3 := hz (h a b) (by simp)
    have : ¬ (nan a = true ∨ nan b = true) := fun hc => by rw [hs a b hc] at h3; exact Bool.noConfusion h3
    simp only [not_or, Bool.not_eq_true] at this
    exact ⟨by intro y hy; rcases List.mem_cons.1 hy with rfl | hy; exacts [this.1, h1 y hy],
      by intro y hy; rcases List.mem_cons.1 hy with rfl | hy; exacts [this.2, h2 y hy]⟩

theorem spreads_loop {h : α → α → α} (hs : Spreads nan h) (n : Nat) : ∀ (k : Nat) (acc rest : List α), rest.length = k → acc.length = n →
    (∀ a ∈ (laneLoop n h acc rest).1, nan a = false) → ∀ a ∈ acc, nan a = false := by
  intro k
  induction k using Nat.strongRecOn with
  | _ k ih =>
    intro acc rest hk hacc
    rw [laneLoop.eq_def]
    by_cases hcond : n ≠ 0 ∧ n ≤ rest.length
    · rw [if_pos hcond]
      intro hr
      have hblk : (rest.take n).length = n := by simp; omega
      exact (spreads_zip hs acc (rest.take n) (by omega) (ih (rest.drop n).length (by simp; omega) _ (rest.drop n) rfl (by simp [hblk, hacc]) hr)).1
    · rw [if_neg hcond]; exact fun h => h

theorem spreads_covers (hc : CmpOk lt nan) {h : α → α → α} (hl : LaneOk lt nan h) (hs : Spreads nan h) (n : Nat) :
    ∀ (k : Nat) (acc rest seen : List α), rest.length = k → acc.length = n → (∀ x ∈ seen, nan x = false) →
      (∀ a ∈ (laneLoop n h acc rest).1, nan a = false) → Covers lt seen acc →
      ∃ used, rest = used ++ (laneLoop n h acc rest).2 ∧ (laneLoop n h acc rest).1.length = n ∧ (∀ x ∈ used, nan x = false) ∧
        Covers lt (seen ++ used) (laneLoop n h acc rest).1 := by
  intro k
  induction k using Nat.strongRecOn with
  | _ k ih =>
    intro acc rest seen hk hacc hsn hr hcov
    rw [laneLoop.eq_def] at hr ⊢
    by_cases hcond : n ≠ 0 ∧ n ≤ rest.length
    · rw [if_pos hcond] at hr ⊢
      have hblk : (rest.take n).length = n := by simp; omega
      have hzl : (List.zipWith h acc (rest.take n)).length = n := by simp [hblk, hacc]
      have hrn := (spreads_zip hs acc (rest.take n) (by omega) (spreads_loop hs n _ _ (rest.drop n) rfl hzl hr)).2
      have hz := covers_zipWith hc hl acc (rest.take n) (by omega) (fun a ha => hsn a (hcov.1 a ha)) hrn
      have hcov' : Covers lt (seen ++ rest.take n) (List.zipWith h acc (rest.take n)) := by
        refine ⟨?_, ?_⟩
        · intro a ha
          rcases List.mem_append.1 (hz.1 a ha) with h1 | h1
          · exact List.mem_append.2 (.inl (hcov.1 a h1))
          · exact List.mem_append.2 (.inr h1)
        · intro x hx
          rcases List.mem_append.1 hx with h1 | h1
          · exact hz.2.1 x (hcov.2 x h1)
          · exact hz.2.2 x h1
      obtain ⟨used, hu1, hu2, hu3, hu4⟩ := ih (rest.drop n).length (by simp; omega) (List.zipWith h acc (rest.take n)) (rest.drop n)
        (seen ++ rest.take n) rfl hzl
        (by intro x hx; rcases List.mem_append.1 hx with h1 | h1
            · exact hsn x h1
            · exact hrn x h1) hr hcov'
      refine ⟨rest.take n ++ used, ?_, hu2, ?_, ?_⟩
      · rw [List.append_assoc, ← hu1, List.take_append_drop]
      · intro x hx; rcases List.mem_append.1 hx with h1 | h1
        · exact hrn x h1
        · exact hu3 x h1
      · rw [← List.append_assoc]; exact hu4
    · rw [if_neg hcond]
      exact ⟨[], by simp, hacc, by simp, by simpa using hcov⟩

/-- Unless it is NaN, the vector result is the extremum of all numbers. -/
theorem spreads_least (hc : CmpOk lt nan) (hn : ∀ a b, nan a = true ∨ nan b = true → lt a b = false) {h : α → α → α} (hl : LaneOk lt nan h) (hs : Spreads nan h)
    {n : Nat} (h0 : 0 < n) {d : α} (ds : List α) (hd : nan d = false) (hr : nan (extremumF lt nan h n d ds) = false) :
    IsLeast lt ((d :: ds).filter fun x => !nan x) (extremumF lt nan h n d ds) := by
  simp only [extremumF] at hr ⊢
  have hred : nan (laneReduce h d (laneLoop n h (List.replicate n d) ds).1) = false := by
    cases hx : nan (laneReduce h d (laneLoop n h (List.replicate n d) ds).1) with
    | false => rfl
    | true => rw [fold_nan hn _ _ hx] at hr; exact Bool.noConfusion hr
  have hlen : (laneLoop n h (List.replicate n d) ds).1.length = n := by
    have key : ∀ (k : Nat) (acc rest : List α), rest.length = k → acc.length = n → (laneLoop n h acc rest).1.length = n := by
      intro k
      induction k using Nat.strongRecOn with
      | _ k ih =>
        intro acc rest hk hacc
        rw [laneLoop.eq_def]
        by_cases hcond : n ≠ 0 ∧ n ≤ rest.length
        · rw [if_pos hcond]
          exact ih (rest.drop n).length (by simp; omega) _ _ rfl (by simp; omega)
        · rw [if_neg hcond]; exact hacc
    exact key _ _ _ rfl (by simp)
  have hne : (laneLoop n h (List.replicate n d) ds).1 ≠ [] := by intro he; rw [he] at hlen; simp at hlen; omega
  obtain ⟨a, as, ha, hra⟩ := laneReduce_eq (h := h) d _ hne
  rw [hra] at hred
  obtain ⟨c1, c2⟩ := spreads_fold hs as a hred
  have hall : ∀ x ∈ (laneLoop n h (List.replicate n d) ds).1, nan x = false := by
    rw [ha]; intro x hx; rcases List.mem_cons.1 hx with rfl | hx
    · exact c1
    · exact c2 x hx
  obtain ⟨used, u1, -, u3, u4⟩ := spreads_covers hc hl hs n _ (List.replicate n d) ds [d] rfl (by simp) (by simpa using hd) hall (covers_replicate hc n h0 d)
  have hseen : ∀ x ∈ [d] ++ used, nan x = false := by
    intro x hx
    rcases List.mem_append.1 hx with hx | hx
    · simp at hx; subst hx; exact hd
    · exact u3 x hx
  rw [ha] at u4
  have hl1 := laneReduce_covers hc hl as a _ hseen u4
  rw [← hra] at hl1
  generalize hg : laneLoop n h (List.replicate n d) ds = r at *
  have hl2 := isLeast_foldl hc (r.2.filter fun x => !nan x) _ _ hseen (by intro y hy; simpa using (List.mem_filter.1 hy).2) hl1
  have hu : used.filter (fun x => !nan x) = used := filter_all_false nan used u3
  rw [u1, List.filter_cons, hd, List.filter_append, hu]
  simpa using hl2

end

/-! ### Histories -/

section
variable {α : Type} {o : StatOps α}

/-- What one batch contributes: nothing if all of it is NaN, otherwise the extrema of some of its numbers (of all of them, if `full`). -/
def BatchOk (o : StatOps α) (full : Prop) : Prop := ∀ vs : List α,
  match minMaxFloat o vs with
  | none => ∀ v ∈ vs, o.nan v = true
  | some m => ∃ S, (∀ x ∈ S, x ∈ vs ∧ o.nan x = false) ∧ (full → ∀ x ∈ vs, o.nan x = false → x ∈ S) ∧ IsLeast o.lt S m.1 ∧ IsGreatest o.lt S m.2

theorem dropWhile_split (p : α → Bool) {d : α} {ds : List α} : ∀ {l : List α}, l.dropWhile p = d :: ds → p d = false ∧ ∃ pre, l = pre ++ d :: ds ∧ ∀ x ∈ pre, p x = true
  | [], h => by simp at h
  | x :: l, h => by
    rw [List.dropWhile_cons] at h
    by_cases hp : p x = true
    · rw [if_pos hp] at h
      obtain ⟨h1, pre, h2, h3⟩ := dropWhile_split p h
      exact ⟨h1, x :: pre, by rw [h2]; rfl, by intro y hy; rcases List.mem_cons.1 hy with rfl | hy; exacts [hp, h3 y hy]⟩
    · rw [if_neg hp] at h
      injection h with h1 h2
      subst h1 h2
      exact ⟨by simpa using hp, [], rfl, by simp⟩

theorem batch_none {vs : List α} (h : minMaxFloat o vs = none) : ∀ v ∈ vs, o.nan v = true := by
  unfold minMaxFloat at h
  split at h
  · rename_i heq
    intro v hv
    by_contra hcon
    have : ∀ l : List α, l.dropWhile o.nan = [] → ∀ v ∈ l, o.nan v = true := by
      intro l
      induction l with
      | nil => intro _ v hv; cases hv
      | cons a t ih =>
        intro hl v hv
        rw [List.dropWhile_cons] at hl
        split at hl
        · rename_i ha
          rcases List.mem_cons.1 hv with rfl | hv
          · exact ha
          · exact ih hl v hv
        · cases hl
    exact hcon (this vs heq v hv)
  · dsimp only at h; split at h <;> cases h

/-- The skeleton of `minMaxFloat`: fallback or vector result. -/
theorem batch_some (hc : CmpOk o.lt o.nan) {full : Prop}
    (hv : ∀ d ds, o.nan d = false → o.nan (extremumF o.lt o.nan o.hmin o.lanes d ds) = false → o.nan (extremumF (fun a b => o.lt b a) o.nan o.hmax o.lanes d ds) = false →
      ∃ S, (∀ x ∈ S, x ∈ d :: ds ∧ o.nan x = false) ∧ (full → ∀ x ∈ d :: ds, o.nan x = false → x ∈ S) ∧
        IsLeast o.lt S (extremumF o.lt o.nan o.hmin o.lanes d ds) ∧ IsGreatest o.lt S (extremumF (fun a b => o.lt b a) o.nan o.hmax o.lanes d ds)) :
    BatchOk o full := by
  intro vs
  cases hm : minMaxFloat o vs with
  | none => exact batch_none hm
  | some m =>
    dsimp only
    unfold minMaxFloat at hm
    split at hm
    · cases hm
    · rename_i d ds heq
      obtain ⟨hd, pre, hpre, hpn⟩ := dropWhile_split _ heq
      have hin : ∀ x ∈ d :: ds, x ∈ vs := fun x hx => by rw [hpre]; exact List.mem_append.2 (.inr hx)
      have hback : ∀ x ∈ vs, o.nan x = false → x ∈ d :: ds := by
        intro x hx hxn
        rw [hpre] at hx
        rcases List.mem_append.1 hx with h | h
        · rw [hpn x h] at hxn; exact Bool.noConfusion hxn
        · exact h
      dsimp only at hm
      split at hm
      · injection hm with hm
        subst hm
        refine ⟨(d :: ds).filter fun x => !o.nan x, ?_, ?_, scalar_least hc ds hd, scalar_least hc.flip ds hd⟩
        · intro x hx
          have := List.mem_filter.1 hx
          exact ⟨hin x this.1, by simpa using this.2⟩
        · intro _ x hx hxn
          exact List.mem_filter.2 ⟨hback x hx hxn, by simpa using hxn⟩
      · rename_i hnn
        injection hm with hm
        subst hm
        simp only [not_or, Bool.not_eq_true] at hnn
        obtain ⟨S, s1, s2, s3, s4⟩ := hv d ds hd hnn.1 hnn.2
        exact ⟨S, fun x hx => ⟨hin x (s1 x hx).1, (s1 x hx).2⟩, fun hf x hx hxn => s2 hf x (hback x hx hxn) hxn, s3, s4⟩

/-- Vector minimum as `a < b ? a : b`: the extrema of some of the numbers. -/
theorem batch_second (hc : CmpOk o.lt o.nan) (hn : ∀ a b, o.nan a = true ∨ o.nan b = true → o.lt a b = false) (h0 : 0 < o.lanes)
    (hmin : ∀ a b, o.hmin a b = if o.lt a b then a else b) (hmax : ∀ a b, o.hmax a b = if o.lt b a then a else b) : BatchOk o False := by
  apply batch_some hc
  intro d ds hd hlo hhi
  have hfg : ∀ a a' b b', PairIn o.lt o.nan (· ∈ d :: ds) a a' → PairIn o.lt o.nan (· ∈ d :: ds) b b' → PairIn o.lt o.nan (· ∈ d :: ds) (o.hmin a b) (o.hmax a' b') := by
    intro a a' b b' h1 h2
    rw [hmin, hmax]; exact pair_comb hc hn h1 h2
  have hrep : List.Forall₂ (PairIn o.lt o.nan (· ∈ d :: ds)) (List.replicate o.lanes d) (List.replicate o.lanes d) := by
    induction o.lanes with
    | zero => exact .nil
    | succ k ih => exact .cons (pair_single hc (by simp)) ih
  obtain ⟨l1, l2, l3⟩ := pair_loop hfg hc o.lanes _ ds _ _ rfl (fun x hx => List.mem_cons_of_mem _ hx) hrep
  have hfinal : PairIn o.lt o.nan (· ∈ d :: ds) (extremumF o.lt o.nan o.hmin o.lanes d ds) (extremumF (fun a b => o.lt b a) o.nan o.hmax o.lanes d ds) := by
    simp only [extremumF]
    rw [← l2]
    apply pair_tail hc hn
    · intro y hy; simpa using (List.mem_filter.1 hy).2
    · intro y hy; exact List.mem_cons_of_mem _ (l3 y (List.mem_filter.1 hy).1)
    · revert l1
      generalize (laneLoop o.lanes o.hmin (List.replicate o.lanes d) ds).1 = x
      generalize (laneLoop o.lanes o.hmax (List.replicate o.lanes d) ds).1 = y
      intro l1
      cases l1 with
      | nil => exact (pair_single hc (List.mem_cons_self) : PairIn o.lt o.nan (· ∈ d :: ds) d d)
      | cons h1 h2 => exact pair_fold hfg h2 _ _ h1
  obtain ⟨S, s1, s2, s3⟩ := hfinal
  rcases s3 with ⟨_, s4, _⟩ | ⟨s4, s5⟩
  · rw [hlo] at s4; exact Bool.noConfusion s4
  · exact ⟨S, fun x hx => ⟨s1 x hx, s2 x hx⟩, fun h => h.elim, s4, s5⟩

/-- Vector minimum that spreads NaN: the extrema of all numbers. -/
theorem batch_spreads (hc : CmpOk o.lt o.nan) (hn : ∀ a b, o.nan a = true ∨ o.nan b = true → o.lt a b = false) (h0 : 0 < o.lanes)
    (hmin : LaneOk o.lt o.nan o.hmin) (hmax : LaneOk (fun a b => o.lt b a) o.nan o.hmax) (smin : Spreads o.nan o.hmin) (smax : Spreads o.nan o.hmax) : BatchOk o True := by
  apply batch_some hc
  intro d ds hd hlo hhi
  refine ⟨(d :: ds).filter fun x => !o.nan x, ?_, ?_, spreads_least hc hn hmin smin h0 ds hd hlo, spreads_least hc.flip (fun a b h => hn b a h.symm) hmax smax h0 ds hd hhi⟩
  · intro x hx
    have := List.mem_filter.1 hx
    exact ⟨this.1, by simpa using this.2⟩
  · intro _ x hx hxn
    exact List.mem_filter.2 ⟨hx, by simpa using hxn⟩

theorem mem_present_map (nan : α → Bool) (vs : List α) (x : α) : x ∈ present (vs.map fun v => if nan v then none else some v) ↔ x ∈ vs ∧ nan x = false := by
  simp only [present, List.mem_filterMap, List.mem_map, id]
  constructor
  · rintro ⟨y, ⟨v, hv, rfl⟩, hy⟩
    cases hn : nan v with
    | true => rw [hn] at hy; cases hy
    | false => rw [hn] at hy; injection hy with hy; subst hy; exact ⟨hv, hn⟩
  · rintro ⟨h1, h2⟩
    exact ⟨some x, ⟨x, h1, by rw [h2]; rfl⟩, rfl⟩

theorem mem_present_filter (nan : α → Bool) (cs : List (Option α)) (x : α) :
    x ∈ present (cs.map fun c => c.filter fun v => !nan v) ↔ x ∈ present cs ∧ nan x = false := by
  rw [present_filter, List.mem_filter]
  simp

/-- `S` is what an object knows of the numbers `xs`. -/
structure Knows (o : StatOps α) (full : Prop) (xs : List α) (s : Stats α) (S : List α) : Prop where
  sub : ∀ x ∈ S, x ∈ xs
  all : full → ∀ x ∈ xs, x ∈ S
  some : xs ≠ [] → S ≠ []
  brackets : Brackets o S s

theorem knows_batch (hc : CmpOk o.lt o.nan) {full : Prop} {xs ys zs S : List α} {s : Stats α} {lo hi : α} (hx : ∀ x ∈ xs, o.nan x = false)
    (h : Knows o full xs s S) {T : List α} (hT : ∀ x ∈ T, x ∈ ys ∧ o.nan x = false) (hf : full → ∀ x ∈ ys, o.nan x = false → x ∈ T)
    (hlo : IsLeast o.lt T lo) (hhi : IsGreatest o.lt T hi) (hz : ∀ x, x ∈ zs ↔ x ∈ xs ∨ (x ∈ ys ∧ o.nan x = false)) :
    Knows o full zs (s.widen o lo hi) (S ++ T) := by
  refine ⟨?_, ?_, ?_, brackets_widen hc (fun x hxs => hx x (h.sub x hxs)) (fun x hxt => (hT x hxt).2) h.brackets hlo hhi⟩
  · intro x hxs
    rcases List.mem_append.1 hxs with h1 | h1
    · exact (hz x).2 (.inl (h.sub x h1))
    · exact (hz x).2 (.inr (hT x h1))
  · intro hfull x hxz
    rcases (hz x).1 hxz with h1 | h1
    · exact List.mem_append.2 (.inl (h.all hfull x h1))
    · exact List.mem_append.2 (.inr (hf hfull x h1.1 h1.2))
  · intro _ he
    rw [List.append_eq_nil_iff] at he
    have := hlo.1
    rw [he.2] at this
    cases this

theorem knows_none {full : Prop} {xs zs S : List α} {s t : Stats α} (h : Knows o full xs s S) (hz : ∀ x, x ∈ zs ↔ x ∈ xs)
    (ht : t.has = s.has ∧ t.min = s.min ∧ t.max = s.max) : Knows o full zs t S := by
  refine ⟨fun x hx => (hz x).2 (h.sub x hx), fun hf x hx => h.all hf x ((hz x).1 hx), ?_, ?_⟩
  · intro hne
    apply h.some
    intro he
    apply hne
    rw [List.eq_nil_iff_forall_not_mem]
    intro x hx
    have := (hz x).1 hx
    rw [he] at this; cases this
  · have := h.brackets
    unfold Brackets at this ⊢
    rw [ht.1, ht.2.1, ht.2.2]
    exact this

/-- Every history. -/
theorem knows_run (hc : CmpOk o.lt o.nan) {full : Prop} (hb : BatchOk o full) (d : α) (h : StatHistory α) :
    ∃ S, Knows o full (present (h.cells o.nan)) (Stats.runFloat o d h) S := by
  have batch : ∀ (s s' : Stats α) (xs zs vs S : List α) (k : Nat), (∀ x ∈ xs, o.nan x = false) → Knows o full xs s S → (∀ x, x ∈ zs ↔ x ∈ xs ∨ (x ∈ vs ∧ o.nan x = false)) →
      (s' = match minMaxFloat o vs with
        | none => s
        | some m => { s.widen o m.1 m.2 with values := (s.widen o m.1 m.2).values + k }) → ∃ S, Knows o full zs s' S := by
    intro s s' xs zs vs S k hx hk hz hs'
    have hvs := hb vs
    subst hs'
    cases hm : minMaxFloat o vs with
    | none =>
      rw [hm] at hvs
      refine ⟨S, knows_none hk ?_ ⟨rfl, rfl, rfl⟩⟩
      intro x
      rw [hz]
      constructor
      · rintro (h | ⟨h1, h2⟩)
        · exact h
        · rw [hvs x h1] at h2; exact Bool.noConfusion h2
      · exact .inl
    | some m =>
      rw [hm] at hvs
      obtain ⟨T, t1, t2, t3, t4⟩ := hvs
      exact ⟨S ++ T, knows_none (knows_batch hc hx hk t1 t2 t3 t4 hz) (fun _ => Iff.rfl) ⟨rfl, rfl, rfl⟩⟩
  induction h with
  | new => exact ⟨[], by simp, by simp [StatHistory.cells, present], by simp [StatHistory.cells, present], by simp [Brackets, Stats.runFloat, Stats.new]⟩
  | reset h ih => exact ⟨[], by simp, by simp [StatHistory.cells, present], by simp [StatHistory.cells, present], by simp [Brackets, Stats.runFloat, Stats.new]⟩
  | null h ih =>
    obtain ⟨S, hS⟩ := ih
    exact ⟨S, knows_none hS (fun x => by rw [StatHistory.cells, present_append]; simp [present]) ⟨rfl, rfl, rfl⟩⟩
  | value h v ih =>
    obtain ⟨S, hS⟩ := ih
    have hz : ∀ x, x ∈ present ((h.value v).cells o.nan) ↔ x ∈ present (h.cells o.nan) ∨ (x ∈ [v] ∧ o.nan x = false) := by
      intro x
      rw [StatHistory.cells, present_append, List.mem_append, ← mem_present_map]
      rfl
    simp only [Stats.runFloat, Stats.update]
    by_cases hv : o.nan v = true
    · rw [if_pos hv]
      refine ⟨S, knows_none hS (fun x => ?_) ⟨rfl, rfl, rfl⟩⟩
      rw [hz]
      constructor
      · rintro (h1 | ⟨h1, h2⟩)
        · exact h1
        · rw [List.mem_singleton.1 h1, hv] at h2; exact Bool.noConfusion h2
      · exact .inl
    · rw [if_neg hv]
      have hv' : o.nan v = false := by simpa using hv
      exact ⟨S ++ [v], knows_none (knows_batch hc (clean_cells o.nan h) hS (T := [v]) (ys := [v]) (by simpa using hv') (fun _ x hx _ => hx) (isLeast_single hc v) (isLeast_single hc.flip v) hz)
        (fun _ => Iff.rfl) ⟨rfl, rfl, rfl⟩⟩
  | batch h vs ih =>
    obtain ⟨S, hS⟩ := ih
    have hz : ∀ x, x ∈ present ((h.batch vs).cells o.nan) ↔ x ∈ present (h.cells o.nan) ∨ (x ∈ vs ∧ o.nan x = false) := by
      intro x
      rw [StatHistory.cells, present_append, List.mem_append, mem_present_map]
    simp only [Stats.runFloat, Stats.updateBatchFloat]
    split
    · rename_i h0
      rw [List.length_eq_zero_iff] at h0
      subst h0
      exact ⟨S, knows_none hS (fun x => by rw [hz]; simp) ⟨rfl, rfl, rfl⟩⟩
    · exact batch _ _ _ _ vs S _ (clean_cells o.nan h) hS hz rfl
  | batchNulls h vs bm ih =>
    obtain ⟨S, hS⟩ := ih
    have hz : ∀ x, x ∈ present ((h.batchNulls vs bm).cells o.nan) ↔
        x ∈ present (h.cells o.nan) ∨ (x ∈ (present (bitmapCells vs bm)).filter (fun v => !o.nan v) ∧ o.nan x = false) := by
      intro x
      rw [StatHistory.cells, present_append, List.mem_append, mem_present_filter, List.mem_filter]
      simp
    simp only [Stats.runFloat, Stats.updateBatchNullsFloat, splitNulls_eq]
    split
    · rename_i h0
      rw [List.length_eq_zero_iff] at h0
      exact ⟨S, knows_none hS (fun x => by rw [hz, h0]; simp) ⟨rfl, rfl, rfl⟩⟩
    · exact batch { Stats.runFloat o d h with nulls := (Stats.runFloat o d h).nulls + nullCount (bitmapCells vs bm) + ((present (bitmapCells vs bm)).filter o.nan).length }
        _ _ _ _ S _ (clean_cells o.nan h) (knows_none hS (fun _ => Iff.rfl) ⟨rfl, rfl, rfl⟩) hz rfl
  | merge h k ih1 ih2 =>
    obtain ⟨S, hS⟩ := ih1
    obtain ⟨T, hT⟩ := ih2
    have hz : ∀ x, x ∈ present ((h.merge k).cells o.nan) ↔ x ∈ present (h.cells o.nan) ∨ (x ∈ present (k.cells o.nan) ∧ o.nan x = false) := by
      intro x
      rw [StatHistory.cells, present_append, List.mem_append]
      constructor
      · rintro (h1 | h1)
        · exact .inl h1
        · exact .inr ⟨h1, clean_cells o.nan k x h1⟩
      · rintro (h1 | h1)
        · exact .inl h1
        · exact .inr h1.1
    simp only [Stats.runFloat, Stats.merge]
    by_cases hh : (Stats.runFloat o d k).has = true
    · rw [if_pos hh]
      obtain ⟨b1, b2⟩ := hT.brackets.2 hh
      exact ⟨S ++ T, knows_none (knows_batch hc (clean_cells o.nan h) hS (fun x hx => ⟨hT.sub x hx, clean_cells o.nan k x (hT.sub x hx)⟩) (fun hf x hx _ => hT.all hf x hx) b1 b2 hz)
        (fun _ => Iff.rfl) ⟨rfl, rfl, rfl⟩⟩
    · rw [if_neg hh]
      have hT0 : present (k.cells o.nan) = [] := by
        by_contra hcon
        exact hh (hT.brackets.1.2 (hT.some hcon))
      exact ⟨S, knows_none hS (fun x => by rw [hz, hT0]; simp) ⟨rfl, rfl, rfl⟩⟩

end

end Vroom
