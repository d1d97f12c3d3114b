import Verif.Spec.Race
import Mathlib.Tactic.ByContra
/-
A discipline that excludes data races: every object has tokens; each token is known at certain places (threads
or synchronisation objects); reading needs one token, writing all of them.
-/
namespace Vroom.Race

variable {T L S : Type}

theorem getElem?_append_one {α : Type} {xs : List α} {x a : α} {i : Nat} (h : (xs ++ [x])[i]? = some a) :
    xs[i]? = some a ∨ (i = xs.length ∧ a = x) := by
  rcases Nat.lt_trichotomy i xs.length with h1 | h1 | h1
  · left; rwa [List.getElem?_append_left h1] at h
  · right; subst h1; simp at h; exact ⟨rfl, h.symm⟩
  · rw [List.getElem?_append_right (by omega)] at h
    have : i - xs.length ≠ 0 := by omega
    rcases hz : i - xs.length with _ | m
    · omega
    · rw [hz] at h; simp at h

theorem HB.append {tr ext : List (Event T L S)} {i j : Nat} (h : HB tr i j) : HB (tr ++ ext) i j := by
  have ext' : ∀ {n : Nat} {a : Event T L S}, tr[n]? = some a → (tr ++ ext)[n]? = some a := by
    intro n a hn
    have : n < tr.length := by
      by_contra hc
      rw [List.getElem?_eq_none (by omega)] at hn; cases hn
    rw [List.getElem?_append_left this]; exact hn
  induction h with
  | order hlt hi hj h => exact .order hlt (ext' hi) (ext' hj) h
  | sync hlt hi hj => exact .sync hlt (ext' hi) (ext' hj)
  | trans _ _ h1 h2 => exact .trans h1 h2

theorem HB.bound {tr : List (Event T L S)} {i j : Nat} (h : HB tr i j) : i < j ∧ j < tr.length := by
  induction h with
  | order hlt _ hj _ =>
    refine ⟨hlt, ?_⟩
    by_contra hc
    rw [List.getElem?_eq_none (by omega)] at hj; cases hj
  | sync hlt _ hj =>
    refine ⟨hlt, ?_⟩
    by_contra hc
    rw [List.getElem?_eq_none (by omega)] at hj; cases hj
  | trans _ _ h1 h2 => omega

/-- `p` knows event `i`: for a thread, `i` is its own or happens before one of its events; for a synchronisation
object, the same with an event that published there. -/
def Knows (tr : List (Event T L S)) (i : Nat) : T ⊕ S → Prop
  | .inl t => ∃ j e, tr[j]? = some e ∧ e.tid = t ∧ (i = j ∨ HB tr i j)
  | .inr s => ∃ j t, tr[j]? = some ⟨t, .rel s⟩ ∧ (i = j ∨ HB tr i j)

theorem Knows.append {tr ext : List (Event T L S)} {i : Nat} {p : T ⊕ S} (h : Knows tr i p) : Knows (tr ++ ext) i p := by
  have ext' : ∀ {n : Nat} {a : Event T L S}, tr[n]? = some a → (tr ++ ext)[n]? = some a := by
    intro n a hn
    have : n < tr.length := by
      by_contra hc
      rw [List.getElem?_eq_none (by omega)] at hn; cases hn
    rw [List.getElem?_append_left this]; exact hn
  cases p with
  | inl t =>
    obtain ⟨j, e, h1, h2, h3⟩ := h
    exact ⟨j, e, ext' h1, h2, h3.imp id HB.append⟩
  | inr s =>
    obtain ⟨j, t, h1, h3⟩ := h
    exact ⟨j, t, ext' h1, h3.imp id HB.append⟩

/-- What a thread knows happens before its next event. -/
theorem Knows.next {tr : List (Event T L S)} {i : Nat} {t : T} (h : Knows tr i (.inl t)) (ev : Ev L S) :
    HB (tr ++ [⟨t, ev⟩]) i tr.length := by
  obtain ⟨j, e, h1, h2, h3⟩ := h
  have hj : j < tr.length := by
    by_contra hc
    rw [List.getElem?_eq_none (by omega)] at h1; cases h1
  have step : HB (tr ++ [⟨t, ev⟩]) j tr.length :=
    .order (a := e) (b := ⟨t, ev⟩) hj (by rw [List.getElem?_append_left hj]; exact h1) (by simp) h2
  rcases h3 with rfl | h3
  · exact step
  · exact .trans h3.append step

/-- What is published at `s` happens before the next event that takes it in. -/
theorem Knows.acquire {tr : List (Event T L S)} {i : Nat} {s : S} (h : Knows tr i (.inr s)) (t : T) :
    HB (tr ++ [⟨t, .acq s⟩]) i tr.length := by
  obtain ⟨j, u, h1, h3⟩ := h
  have hj : j < tr.length := by
    by_contra hc
    rw [List.getElem?_eq_none (by omega)] at h1; cases h1
  have step : HB (tr ++ [⟨t, .acq s⟩]) j tr.length :=
    .sync (t := u) (u := t) hj (by rw [List.getElem?_append_left hj]; exact h1) (by simp)
  rcases h3 with rfl | h3
  · exact step
  · exact .trans h3.append step

/-- The conditions on one step from a state with token places `H` to one with places `H'`. -/
def Obeys {K : Type} (H H' : L → K → T ⊕ S → Prop) : Option (Event T L S) → Prop
  | none => ∀ l k p, H' l k p → H l k p
  | some ⟨t, .acc .read l⟩ => (∃ k, H l k (.inl t) ∧ ∀ p, H' l k p → p = .inl t) ∧ ∀ l' k p, H' l' k p → H l' k p
  | some ⟨t, .acc .write l⟩ => (∀ k, H l k (.inl t) ∧ ∀ p, H' l k p → p = .inl t) ∧ ∀ l' k p, H' l' k p → H l' k p
  | some ⟨t, .rel s⟩ => ∀ l k p, H' l k p → H l k p ∨ (p = .inr s ∧ H l k (.inl t))
  | some ⟨t, .acq s⟩ => ∀ l k p, H' l k p → H l k p ∨ (p = .inl t ∧ H l k (.inr s))

/-- The places of a token know all writes of its object and all reads made with it. -/
def Informed {K : Type} (H : L → K → T ⊕ S → Prop) (tr : List (Event T L S)) : Prop :=
  (∀ i t l, tr[i]? = some ⟨t, .acc .write l⟩ → ∀ k p, H l k p → Knows tr i p) ∧
  (∀ i t l, tr[i]? = some ⟨t, .acc .read l⟩ → ∃ k, ∀ p, H l k p → Knows tr i p)

def RaceFree (tr : List (Event T L S)) : Prop :=
  ∀ (i j : Nat) (t u : T) (k k' : Kind) (l : L), i < j → tr[i]? = some ⟨t, .acc k l⟩ → tr[j]? = some ⟨u, .acc k' l⟩ →
    (k = .write ∨ k' = .write) → HB tr i j

theorem RaceFree.not {tr : List (Event T L S)} (h : RaceFree tr) : ¬ DataRace tr := by
  rintro ⟨i, j, t, u, k, k', l, h1, h2, h3, -, h5, h6⟩
  exact h6 (h i j t u k k' l h1 h2 h3 h5)

theorem knows_self (tr : List (Event T L S)) (t : T) (ev : Ev L S) : Knows (tr ++ [⟨t, ev⟩]) tr.length (.inl t) :=
  ⟨tr.length, ⟨t, ev⟩, by simp, rfl, .inl rfl⟩

theorem HB.knows {tr : List (Event T L S)} {i : Nat} {t : T} {ev : Ev L S} (h : HB (tr ++ [⟨t, ev⟩]) i tr.length) :
    Knows (tr ++ [⟨t, ev⟩]) i (.inl t) := ⟨tr.length, ⟨t, ev⟩, by simp, rfl, .inr h⟩

/-- One step keeps the tokens informed, whatever the step. -/
theorem informed_step {K : Type} {H H' : L → K → T ⊕ S → Prop} {tr : List (Event T L S)} {e : Option (Event T L S)}
    (hi : Informed H tr) (ho : Obeys H H' e) : Informed H' (tr ++ e.toList) := by
  cases e with
  | none =>
    simp only [Option.toList_none, List.append_nil]
    refine ⟨fun i t l h k p hp => hi.1 i t l h k p (ho _ _ _ hp), fun i t l h => ?_⟩
    obtain ⟨k, hk⟩ := hi.2 i t l h
    exact ⟨k, fun p hp => hk p (ho _ _ _ hp)⟩
  | some e =>
    obtain ⟨t, ev⟩ := e
    simp only [Option.toList_some]
    cases ev with
    | acc kd l =>
      cases kd with
      | read =>
        obtain ⟨⟨k0, hk0, hk0'⟩, hm⟩ := ho
        refine ⟨fun i u l' h k p hp => ?_, fun i u l' h => ?_⟩
        · rcases getElem?_append_one h with h | ⟨_, h⟩
          · exact (hi.1 i u l' h k p (hm _ _ _ hp)).append
          · simp at h
        · rcases getElem?_append_one h with h | ⟨hl, h⟩
          · obtain ⟨k, hk⟩ := hi.2 i u l' h
            exact ⟨k, fun p hp => (hk p (hm _ _ _ hp)).append⟩
          · obtain ⟨rfl, rfl⟩ : u = t ∧ l' = l := by simpa using h
            refine ⟨k0, fun p hp => ?_⟩
            rw [hk0' p hp, hl]
            exact knows_self _ _ _
      | write =>
        obtain ⟨ha, hm⟩ := ho
        refine ⟨fun i u l' h k p hp => ?_, fun i u l' h => ?_⟩
        · rcases getElem?_append_one h with h | ⟨hl, h⟩
          · exact (hi.1 i u l' h k p (hm _ _ _ hp)).append
          · obtain ⟨rfl, rfl⟩ : u = t ∧ l' = l := by simpa using h
            rw [(ha k).2 p hp, hl]
            exact knows_self _ _ _
        · rcases getElem?_append_one h with h | ⟨_, h⟩
          · obtain ⟨k, hk⟩ := hi.2 i u l' h
            exact ⟨k, fun p hp => (hk p (hm _ _ _ hp)).append⟩
          · simp at h
    | rel s =>
      have lift : ∀ {i : Nat} {l : L} {k : K} (_ : ∀ p, H l k p → Knows tr i p) (p : T ⊕ S), H' l k p →
          Knows (tr ++ [⟨t, .rel s⟩]) i p := by
        intro i l k hk p hp
        rcases ho l k p hp with h | ⟨rfl, h⟩
        · exact (hk p h).append
        · exact ⟨tr.length, t, by simp, .inr ((hk _ h).next _)⟩
      refine ⟨fun i u l' h k p hp => ?_, fun i u l' h => ?_⟩
      · rcases getElem?_append_one h with h | ⟨_, h⟩
        · exact lift (fun q hq => hi.1 i u l' h k q hq) p hp
        · simp at h
      · rcases getElem?_append_one h with h | ⟨_, h⟩
        · obtain ⟨k, hk⟩ := hi.2 i u l' h
          exact ⟨k, lift hk⟩
        · simp at h
    | acq s =>
      have lift : ∀ {i : Nat} {l : L} {k : K} (_ : ∀ p, H l k p → Knows tr i p) (p : T ⊕ S), H' l k p →
          Knows (tr ++ [⟨t, .acq s⟩]) i p := by
        intro i l k hk p hp
        rcases ho l k p hp with h | ⟨rfl, h⟩
        · exact (hk p h).append
        · exact ((hk _ h).acquire t).knows
      refine ⟨fun i u l' h k p hp => ?_, fun i u l' h => ?_⟩
      · rcases getElem?_append_one h with h | ⟨_, h⟩
        · exact lift (fun q hq => hi.1 i u l' h k q hq) p hp
        · simp at h
      · rcases getElem?_append_one h with h | ⟨_, h⟩
        · obtain ⟨k, hk⟩ := hi.2 i u l' h
          exact ⟨k, lift hk⟩
        · simp at h

theorem raceFree_step {K : Type} [Nonempty K] {H H' : L → K → T ⊕ S → Prop} {tr : List (Event T L S)} {e : Option (Event T L S)}
    (hr : RaceFree tr) (hi : Informed H tr) (ho : Obeys H H' e) : RaceFree (tr ++ e.toList) := by
  cases e with
  | none => simpa using hr
  | some e =>
    obtain ⟨t, ev⟩ := e
    simp only [Option.toList_some]
    intro i j u v k k' l hlt h1 h2 hw
    rcases getElem?_append_one h2 with h2 | ⟨rfl, h2'⟩
    · have hj : j < tr.length := by
        by_contra hc
        rw [List.getElem?_eq_none (by omega)] at h2; cases h2
      rw [List.getElem?_append_left (by omega)] at h1
      exact (hr i j u v k k' l hlt h1 h2 hw).append
    · rw [List.getElem?_append_left hlt] at h1
      obtain ⟨rfl, rfl⟩ : v = t ∧ Ev.acc k' l = ev := by
        constructor
        · exact congrArg Event.tid h2'
        · exact congrArg Event.ev h2'
      apply Knows.next
      cases k' with
      | read =>
        obtain ⟨⟨k0, hk0, -⟩, -⟩ := ho
        rcases hw with rfl | hw
        · exact hi.1 i u l h1 k0 _ hk0
        · cases hw
      | write =>
        cases k with
        | write =>
          obtain ⟨k0⟩ := ‹Nonempty K›
          exact hi.1 i u l h1 k0 _ (ho.1 k0).1
        | read =>
          obtain ⟨k0, hk0⟩ := hi.2 i u l h1
          exact hk0 _ (ho.1 k0).1

/-- If every step obeys the discipline in all states satisfying an invariant, no execution has a data race. -/
theorem raceFree_exec {St K : Type} [Nonempty K] {start : St → Prop} {step : St → Option (Event T L S) → St → Prop}
    (H : St → L → K → T ⊕ S → Prop) (Inv : St → Prop) (h0 : ∀ s, start s → Inv s)
    (hs : ∀ s e s', Inv s → step s e s' → Inv s' ∧ Obeys (H s) (H s') e) {tr : List (Event T L S)} {s : St}
    (h : Exec start step tr s) : RaceFree tr ∧ Inv s ∧ Informed (H s) tr := by
  induction h with
  | init hst => exact ⟨by intro i j t u k k' l _ h; simp at h, h0 _ hst, by constructor <;> (intro i t l h; simp at h)⟩
  | next _ hstep ih =>
    obtain ⟨h1, h2, h3⟩ := ih
    obtain ⟨h4, h5⟩ := hs _ _ _ h2 hstep
    exact ⟨raceFree_step h1 h3 h5, h4, informed_step h3 h5⟩

/-- What a thread did after its last publishing is known to nobody else. -/
theorem HB.same_thread {tr : List (Event T L S)} {t : T} {i j : Nat} (h : HB tr i j) :
    ∀ (_ : ∀ m u s, i ≤ m → tr[m]? = some ⟨u, .rel s⟩ → u ≠ t) {a : Event T L S} (_ : tr[i]? = some a) (_ : a.tid = t),
      ∃ b, tr[j]? = some b ∧ b.tid = t := by
  induction h with
  | order hlt hi hj h =>
    intro _ a ha hat
    rw [hi] at ha; cases ha
    exact ⟨_, hj, h ▸ hat⟩
  | sync hlt hi hj =>
    intro hno a ha hat
    rw [hi] at ha; cases ha
    exact absurd hat (hno _ _ _ (Nat.le_refl _) hi)
  | trans h1 _ ih1 ih2 =>
    intro hno a ha hat
    obtain ⟨b, hb, hbt⟩ := ih1 hno ha hat
    exact ih2 (fun m u s hm => hno m u s (by have := h1.bound; omega)) hb hbt

end Vroom.Race
