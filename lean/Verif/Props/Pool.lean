import Verif.Model.Pool
import Verif.Props.Reader
/- C10: the result of a parallel read does not depend on the schedule. -/
namespace Vroom
open Spec

/-- Running a parsing task alone to its end. -/
def runTask (cfg : ReadCfg) (t : ParseTask) : Option (Cols × Nat) :=
  parseRows cfg (t.rest.length + 1) t.cols t.rows t.rest

theorem parseRows_mono (cfg : ReadCfg) (fuel k : Nat) (cols : Cols) (rows : Nat) (rest : Bytes) (r)
    (h : parseRows cfg fuel cols rows rest = some r) : parseRows cfg (fuel + k) cols rows rest = some r := by
  rw [parseRows_spec] at h ⊢
  cases hr : rawRows cfg fuel rest with
  | none => rw [hr] at h; simp at h
  | some rs => rw [rawRows_mono cfg fuel k rest rs hr]; rw [hr] at h; exact h

theorem parseRows_enough (cfg : ReadCfg) (fuel : Nat) (cols : Cols) (rows : Nat) (rest : Bytes) (h : rest.length + 1 ≤ fuel) :
    parseRows cfg fuel cols rows rest = parseRows cfg (rest.length + 1) cols rows rest := by
  obtain ⟨rs, hrs⟩ := rawRows_total cfg (rest.length + 1) rest (Nat.le_refl _)
  obtain ⟨k, rfl⟩ := Nat.exists_eq_add_of_le h
  have : parseRows cfg (rest.length + 1) cols rows rest ≠ none := by rw [parseRows_spec, hrs]; simp
  cases hp : parseRows cfg (rest.length + 1) cols rows rest with
  | none => exact absurd hp this
  | some r => exact parseRows_mono cfg _ k _ _ _ _ hp

theorem tail_shorter (cfg : ReadCfg) (rest : Bytes) (fs tail) (h1 : ¬ (skipBlank rest).length = 0)
    (h : splitRow cfg.cpu cfg.dial cfg.junk (skipBlank rest) = some (fs, tail)) : tail.length < rest.length := by
  obtain ⟨fs', tail', g1, _, g3, _⟩ := C12_no_loss cfg.cpu cfg.dial cfg.junk (skipBlank rest)
  rw [h] at g1
  have e := Option.some.inj g1
  have e2 : tail = tail' := congrArg Prod.snd e
  subst e2
  have hsb := skipBlank_length rest
  rcases g3 with g3 | ⟨_, g4⟩
  · have := congrArg List.length g3
    simp at this; omega
  · subst g4; simp; omega

/-- A step does not change what the task will deliver. -/
theorem step_runTask (cfg : ReadCfg) (t t' : ParseTask) (h : t.step cfg = some t') :
    runTask cfg t' = runTask cfg t ∧ t'.rest.length < t.rest.length := by
  unfold ParseTask.step at h
  split at h
  · simp at h
  · next h0 =>
    dsimp only at h
    split at h
    · simp at h
    · next h1 =>
      cases hs : splitRow cfg.cpu cfg.dial cfg.junk (skipBlank t.rest) with
      | none => rw [hs] at h; simp at h
      | some r =>
        obtain ⟨fs, tail⟩ := r
        rw [hs] at h
        have := (Option.some.inj h).symm
        subst this
        have hlt := tail_shorter cfg t.rest fs tail h1 hs
        refine ⟨?_, hlt⟩
        unfold runTask
        dsimp only
        conv_rhs => unfold parseRows
        simp only [h0, h1, if_false, hs]
        exact (parseRows_enough cfg _ _ _ _ (by omega)).symm

theorem ended_runTask (cfg : ReadCfg) (t : ParseTask) (h : t.step cfg = none) : runTask cfg t = some (t.cols, t.rows) := by
  unfold runTask parseRows
  unfold ParseTask.step at h
  split at h
  · next h0 => rw [if_pos h0]
  · next h0 =>
    rw [if_neg h0]
    dsimp only at h ⊢
    split at h
    · next h1 => rw [if_pos h1]
    · next h1 =>
      exfalso
      obtain ⟨fs, tail, g1, _⟩ := C12_no_loss cfg.cpu cfg.dial cfg.junk (skipBlank t.rest)
      rw [g1] at h; simp at h

theorem init_runTask (cfg : ReadCfg) (n : Nat) (ins : Bool) (data : Bytes) :
    runTask cfg (ParseTask.init cfg n ins data) = parseChunk cfg n ins data := by
  unfold runTask ParseTask.init parseChunk
  dsimp only
  by_cases h : data.length = 0 ∨ n = 0
  · simp only [if_pos h]; rfl
  · simp only [if_neg h]
    symm
    apply parseRows_enough
    have skipClose : ∀ q (l : Bytes), (skipToClose q l).2.length ≤ l.length := by
      intro q l
      fun_induction skipToClose q l <;> simp_all <;> omega
    have skipRow : ∀ q b (l : Bytes), (skipPartialRow q b l).length ≤ l.length := by
      intro q b l
      fun_induction skipPartialRow q b l <;> simp_all <;> omega
    split
    · have := skipClose cfg.quote data
      have := skipRow cfg.quote (skipToClose cfg.quote data).1 (skipToClose cfg.quote data).2
      omega
    · exact Nat.le_refl _

/-- What every reachable state satisfies. -/
def PoolInv (cfg : ReadCfg) (n : Nat) (chunks : List Bytes) : PoolState → Prop
  | .analyzing slots => slots.length = chunks.length ∧
      ∀ (i : Nat) (c : Bytes) (a : DualStats), chunks[i]? = some c → slots[i]? = some (some a) → a = analyzeDual cfg.cpu cfg.quote c
  | .parsing k slots => k = (analyzeAndLink cfg.cpu cfg.quote chunks).2 ∧
      slots.map (runTask cfg) = (chunks.zip (analyzeAndLink cfg.cpu cfg.quote chunks).1).map (fun p => parseChunk cfg n p.2 p.1)
  | .done res => readChunks cfg n chunks = some res

theorem mapM_of_map {α β : Type} (f : α → Option β) (l : List α) (bs : List β) (h : l.map f = bs.map some) :
    l.mapM f = some bs := by
  induction l generalizing bs with
  | nil => cases bs with
    | nil => rfl
    | cons b bs => simp at h
  | cons a l ih =>
    cases bs with
    | nil => simp at h
    | cons b bs =>
      simp only [List.map_cons, List.cons.injEq] at h
      rw [List.mapM_cons, h.1, ih bs h.2]; rfl

theorem inv_step (cfg : ReadCfg) (n : Nat) (chunks : List Bytes) (s s' : PoolState) (h : PoolStep cfg n chunks s s')
    (hinv : PoolInv cfg n chunks s) : PoolInv cfg n chunks s' := by
  cases h with
  | analyze slots i c hc hi =>
    obtain ⟨h1, h2⟩ := hinv
    refine ⟨by simpa using h1, ?_⟩
    intro j c' a hc' ha
    by_cases hij : i = j
    · subst hij
      rw [hc] at hc'
      have := Option.some.inj hc'
      subst this
      have hlt : i < slots.length := by
        by_contra hge
        rw [List.getElem?_eq_none (by omega)] at hi; simp at hi
      rw [List.getElem?_set_self hlt] at ha
      exact (Option.some.inj (Option.some.inj ha)).symm
    · rw [List.getElem?_set_ne hij] at ha
      exact h2 j c' a hc' ha
  | link slots as h =>
    obtain ⟨h1, h2⟩ := hinv
    have has : as = chunks.map (analyzeDual cfg.cpu cfg.quote) := by
      apply List.ext_getElem?
      intro i
      have hl : as.length = chunks.length := by rw [← h1, h]; simp
      by_cases hi : i < chunks.length
      · have hc : chunks[i]? = some chunks[i] := List.getElem?_eq_getElem hi
        have ha : as[i]? = some (as[i]'(by omega)) := List.getElem?_eq_getElem (by omega)
        have := h2 i chunks[i] (as[i]'(by omega)) hc (by rw [h, List.getElem?_map, ha]; rfl)
        rw [ha, this, List.getElem?_map, hc]; rfl
      · rw [List.getElem?_eq_none (by omega), List.getElem?_eq_none (by simp; omega)]
    subst has
    refine ⟨rfl, ?_⟩
    unfold analyzeAndLink
    rw [List.map_map]
    apply List.map_congr_left
    intro p _
    exact init_runTask cfg n p.2 p.1
  | parse k slots i t t' hi ht =>
    obtain ⟨h1, h2⟩ := hinv
    refine ⟨h1, ?_⟩
    rw [← h2]
    apply List.ext_getElem?
    intro j
    simp only [List.getElem?_map]
    by_cases hij : i = j
    · subst hij
      have hlt : i < slots.length := by
        by_contra hge
        rw [List.getElem?_eq_none (by omega)] at hi; simp at hi
      rw [List.getElem?_set_self hlt, hi]
      simp [(step_runTask cfg t t' ht).1]
    · rw [List.getElem?_set_ne hij]
  | collect k slots h =>
    obtain ⟨h1, h2⟩ := hinv
    have hmap : slots.map (runTask cfg) = slots.map (fun t => some (t.cols, t.rows)) := by
      apply List.map_congr_left
      intro t ht
      exact ended_runTask cfg t (h t ht)
    rw [hmap] at h2
    have := mapM_of_map (fun p : Bytes × Bool => parseChunk cfg n p.2 p.1)
      (chunks.zip (analyzeAndLink cfg.cpu cfg.quote chunks).1) (slots.map (fun t => (t.cols, t.rows))) (by
        rw [List.map_map]; exact h2.symm)
    show readChunks cfg n chunks = some _
    unfold readChunks
    simp only [this, Option.bind_eq_bind, Option.bind_some]
    rw [h1]
    simp [List.map_map, Function.comp_def]

theorem inv_start (cfg : ReadCfg) (n : Nat) (chunks : List Bytes) : PoolInv cfg n chunks (.start chunks) := by
  refine ⟨by simp, ?_⟩
  intro i c a hc ha
  rw [List.getElem?_replicate] at ha
  split at ha <;> simp at ha

theorem inv_run (cfg : ReadCfg) (n : Nat) (chunks : List Bytes) (s s' : PoolState) (h : PoolRun cfg n chunks s s')
    (hinv : PoolInv cfg n chunks s) : PoolInv cfg n chunks s' := by
  induction h with
  | refl => exact hinv
  | tail _ hstep ih => exact inv_step cfg n chunks _ _ hstep ih

/-- C10: under every interleaving of the worker tasks, if the read returns, it returns the result of
evaluating the chunks one after the other. -/
theorem C10_schedule_independent (cfg : ReadCfg) (n : Nat) (chunks : List Bytes) (res : ReadResult)
    (h : PoolRun cfg n chunks (.start chunks) (.done res)) : readChunks cfg n chunks = some res :=
  inv_run cfg n chunks _ _ h (inv_start cfg n chunks)

/-- C10: two schedules cannot return different results. -/
theorem C10_deterministic (cfg : ReadCfg) (n : Nat) (chunks : List Bytes) (r1 r2 : ReadResult)
    (h1 : PoolRun cfg n chunks (.start chunks) (.done r1)) (h2 : PoolRun cfg n chunks (.start chunks) (.done r2)) :
    r1 = r2 :=
  Option.some.inj ((C10_schedule_independent cfg n chunks r1 h1).symm.trans (C10_schedule_independent cfg n chunks r2 h2))

/-- Work left: pending analyses, then unread bytes. -/
def poolWork (chunks : List Bytes) : PoolState → Nat
  | .analyzing slots => (slots.countP (· == none)) + 2 + ((chunks.map List.length).sum)
  | .parsing _ slots => 1 + ((slots.map (fun t => t.rest.length)).sum)
  | .done _ => 0

theorem sum_set_lt (l : List ParseTask) (i : Nat) (t t' : ParseTask) (hi : l[i]? = some t) (h : t'.rest.length < t.rest.length) :
    ((l.set i t').map (fun t => t.rest.length)).sum < (l.map (fun t => t.rest.length)).sum := by
  induction l generalizing i with
  | nil => simp at hi
  | cons a l ih =>
    cases i with
    | zero =>
      have : a = t := by simpa using hi
      subst this; simp only [List.set_cons_zero, List.map_cons, List.sum_cons]; omega
    | succ i =>
      have := ih i (by simpa using hi)
      simp only [List.set_cons_succ, List.map_cons, List.sum_cons]; omega

theorem countP_set_lt (l : List (Option DualStats)) (i : Nat) (a : DualStats) (hi : l[i]? = some none) :
    (l.set i (some a)).countP (· == none) < l.countP (· == none) := by
  induction l generalizing i with
  | nil => simp at hi
  | cons b l ih =>
    cases i with
    | zero =>
      have : b = none := by simpa using hi
      subst this; simp
    | succ i =>
      have := ih i (by simpa using hi)
      simp only [List.set_cons_succ, List.countP_cons]
      omega

theorem init_rest_le (cfg : ReadCfg) (n : Nat) (ins : Bool) (data : Bytes) :
    (ParseTask.init cfg n ins data).rest.length ≤ data.length := by
  unfold ParseTask.init
  dsimp only
  split
  · simp
  · have skipClose : ∀ q (l : Bytes), (skipToClose q l).2.length ≤ l.length := by
      intro q l
      fun_induction skipToClose q l <;> simp_all <;> omega
    have skipRow : ∀ q b (l : Bytes), (skipPartialRow q b l).length ≤ l.length := by
      intro q b l
      fun_induction skipPartialRow q b l <;> simp_all <;> omega
    dsimp only
    split
    · have := skipClose cfg.quote data
      have := skipRow cfg.quote (skipToClose cfg.quote data).1 (skipToClose cfg.quote data).2
      omega
    · exact Nat.le_refl _

/-- C10: every step makes progress, so every schedule is finite. -/
theorem C10_terminates (cfg : ReadCfg) (n : Nat) (chunks : List Bytes) (s s' : PoolState) (h : PoolStep cfg n chunks s s') :
    poolWork chunks s' < poolWork chunks s := by
  cases h with
  | analyze slots i c hc hi =>
    have := countP_set_lt slots i (analyzeDual cfg.cpu cfg.quote c) hi
    simp only [poolWork]; omega
  | link slots as h =>
    simp only [poolWork]
    have : (((chunks.zip (linkStates false as)).map (fun p => ParseTask.init cfg n p.2 p.1)).map (fun t => t.rest.length)).sum
        ≤ (chunks.map List.length).sum := by
      generalize linkStates false as = st
      induction chunks generalizing st with
      | nil => simp
      | cons c cs ih =>
        cases st with
        | nil => simp
        | cons b st =>
          have := ih st
          have := init_rest_le cfg n b c
          simp only [List.zip_cons_cons, List.map_cons, List.sum_cons]
          omega
    omega
  | parse k slots i t t' hi ht =>
    have := sum_set_lt slots i t t' hi (step_runTask cfg t t' ht).2
    simp only [poolWork]; omega
  | collect k slots h => simp only [poolWork]; omega

/-- C10: no reachable state is stuck before the result is delivered. -/
theorem C10_progress (cfg : ReadCfg) (n : Nat) (chunks : List Bytes) (s : PoolState)
    (h : PoolRun cfg n chunks (.start chunks) s) : (∃ res, s = .done res) ∨ ∃ s', PoolStep cfg n chunks s s' := by
  have hinv := inv_run cfg n chunks _ _ h (inv_start cfg n chunks)
  cases s with
  | done res => exact Or.inl ⟨res, rfl⟩
  | analyzing slots =>
    right
    by_cases hp : ∃ i : Nat, slots[i]? = some none
    · obtain ⟨i, hi⟩ := hp
      have hlt : i < slots.length := by
        by_contra hge
        rw [List.getElem?_eq_none (by omega)] at hi; simp at hi
      have hlt' : i < chunks.length := by rw [← hinv.1]; exact hlt
      exact ⟨_, .analyze slots i chunks[i] (List.getElem?_eq_getElem hlt') hi⟩
    · have : ∃ as : List DualStats, slots = as.map some := by
        clear hinv h
        induction slots with
        | nil => exact ⟨[], rfl⟩
        | cons b l ih =>
          obtain ⟨as, has⟩ := ih (fun ⟨i, hi⟩ => hp ⟨i + 1, by simpa using hi⟩)
          cases b with
          | none => exact absurd ⟨0, rfl⟩ hp
          | some a => exact ⟨a :: as, by rw [has]; rfl⟩
      obtain ⟨as, has⟩ := this
      exact ⟨_, .link slots as has⟩
  | parsing k slots =>
    right
    by_cases hall : ∀ t ∈ slots, t.step cfg = none
    · exact ⟨_, .collect k slots hall⟩
    · have : ∃ t ∈ slots, t.step cfg ≠ none := by
        by_contra hc
        apply hall
        intro t ht
        by_contra hne
        exact hc ⟨t, ht, hne⟩
      obtain ⟨t, ht, hne⟩ := this
      obtain ⟨i, hi⟩ := List.getElem?_of_mem ht
      cases hs : t.step cfg with
      | none => exact absurd hs hne
      | some t' => exact ⟨_, .parse k slots i t t' hi hs⟩

/-- Non-vacuity: a two-chunk run in which the second chunk's tasks go first. -/
example : ∃ res, PoolRun cfg0 1 [[97, 10], [98, 10]] (.start [[97, 10], [98, 10]]) (.done res) ∧ res.totalRows = 2 := by
  refine ⟨_, .tail (.tail (.tail (.tail (.tail (.tail (.refl _)
    (.analyze _ 1 [98, 10] rfl rfl)) (.analyze _ 0 [97, 10] rfl rfl)) (.link _ [analyzeDual cfg0.cpu cfg0.quote [97,10], analyzeDual cfg0.cpu cfg0.quote [98,10]] rfl))
    (.parse _ _ 1 { cols := [[]], rows := 0, rest := [98, 10] } { cols := [[.text [98]]], rows := 1, rest := [] }
      (by decide +kernel) (by decide +kernel)))
    (.parse _ _ 0 { cols := [[]], rows := 0, rest := [97, 10] } { cols := [[.text [97]]], rows := 1, rest := [] }
      (by decide +kernel) (by decide +kernel)))
    (.collect _ _ (by decide +kernel)), by decide +kernel⟩

end Vroom
