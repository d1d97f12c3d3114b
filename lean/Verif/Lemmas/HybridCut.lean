import Verif.Spec.HybridCut
import Verif.Props.Encoding
import Mathlib.Tactic.SplitIfs
/-
Lemmas for C29/C28: the streaming hybrid encoder emits the pieces of `Spec.HybridCut`.
-/
namespace Vroom
open Parquet Spec

theorem longRun_iff (l : List UInt32) : longRun l = true ↔ ∃ v r, l = List.replicate 8 v ++ r := by
  constructor
  · intro h
    cases l with
    | nil => simp [longRun] at h
    | cons v t =>
      simp only [longRun, beq_iff_eq] at h
      exact ⟨v, (v :: t).drop 8, by rw [← h, List.take_append_drop]⟩
  · rintro ⟨v, r, rfl⟩
    show ((List.replicate 8 v ++ r).take 8 == List.replicate 8 v) = true
    rw [List.take_left' (by simp)]; simp

/-- No eight equal values in a row. -/
def NoRun (l : List UInt32) : Prop := ∀ x, ¬ List.replicate 8 x <:+: l

theorem firstRun_of (l : List UInt32) : ∀ k, k < l.length → (∀ i < k, longRun (l.drop i) = false) → longRun (l.drop k) = true → firstRun l = k := by
  induction l with
  | nil => intro k hk; simp at hk
  | cons v t ih =>
    intro k hk h1 h2
    cases k with
    | zero => simp only [List.drop_zero] at h2; simp [firstRun, h2]
    | succ k =>
      have h0 := h1 0 (by omega)
      rw [List.drop_zero] at h0
      simp only [firstRun, h0, Bool.false_eq_true, if_false]
      rw [ih k (by simpa using hk) (fun i hi => by have := h1 (i + 1) (by omega); simpa using this) (by simpa using h2)]
      omega

theorem firstRun_ge (l : List UInt32) : ∀ k, (∀ i < k, longRun (l.drop i) = false) → min k l.length ≤ firstRun l := by
  induction l with
  | nil => intro k _; simp
  | cons v t ih =>
    intro k h1
    cases k with
    | zero => simp
    | succ k =>
      have h0 := h1 0 (by omega)
      rw [List.drop_zero] at h0
      simp only [firstRun, h0, Bool.false_eq_true, if_false]
      have := ih k (fun i hi => by have := h1 (i + 1) (by omega); simpa using this)
      simp only [List.length_cons]
      omega

theorem firstRun_le (l : List UInt32) : firstRun l ≤ l.length := by
  induction l with
  | nil => simp [firstRun]
  | cons v t ih => simp only [firstRun, List.length_cons]; split <;> omega

/-- A long run that starts in a part without long runs and at least eight values before its end does not exist. -/
theorem longRun_in {b : List UInt32} (hb : NoRun b) (rest : List UInt32) (i : Nat) (hi : i + 8 ≤ b.length) : longRun ((b ++ rest).drop i) = false := by
  by_contra hc
  rw [Bool.not_eq_false, longRun_iff] at hc
  obtain ⟨x, r, h⟩ := hc
  rw [List.drop_append_of_le_length (by omega)] at h
  apply hb x
  have h2 : (b.drop i).take 8 = List.replicate 8 x := by
    have := congrArg (List.take 8) h
    rwa [List.take_append_of_le_length (by simp; omega), List.take_left' (by simp)] at this
  rw [← h2]
  exact (List.take_prefix _ _).isInfix.trans (List.drop_suffix _ _).isInfix

theorem noRun_longRun {b : List UInt32} (hb : NoRun b) (i : Nat) : longRun (b.drop i) = false := by
  by_contra hc
  rw [Bool.not_eq_false, longRun_iff] at hc
  obtain ⟨x, r, h⟩ := hc
  apply hb x
  have : List.replicate 8 x <:+: b.drop i := by rw [h]; exact (List.prefix_append _ _).isInfix
  exact this.trans (List.drop_suffix _ _).isInfix

/-- The cut at a long run. -/
theorem hybridCut_run (n : Nat) (v : UInt32) (r : List UInt32) (h8 : 8 ≤ n) (h64 : n ≤ 64) (hr : n = 64 ∨ r.head? ≠ some v) :
    longRun (List.replicate n v ++ r) = true ∧ hybridCut (List.replicate n v ++ r) = n := by
  have hl : longRun (List.replicate n v ++ r) = true := by
    rw [longRun_iff]
    exact ⟨v, List.replicate (n - 8) v ++ r, by rw [← List.append_assoc, List.replicate_append_replicate]; congr 2; omega⟩
  refine ⟨hl, ?_⟩
  rw [hybridCut, if_pos hl]
  obtain ⟨m, rfl⟩ : ∃ m, n = m + 1 := ⟨n - 1, by omega⟩
  rw [List.replicate_succ, List.cons_append]
  simp only [equalPrefix]
  have key : ∀ k, (List.takeWhile (· == v) (List.replicate k v ++ r)).length = k + (List.takeWhile (· == v) r).length := by
    intro k
    induction k with
    | zero => simp
    | succ k ih => rw [List.replicate_succ, List.cons_append, List.takeWhile_cons_of_pos (by simp), List.length_cons, ih]; omega
  rw [key]
  rcases hr with h | h
  · omega
  · have : (List.takeWhile (· == v) r) = [] := by
      cases r with
      | nil => rfl
      | cons x t =>
        rw [List.takeWhile_cons_of_neg]
        simp only [List.head?_cons, ne_eq, Option.some.injEq] at h
        simpa using h
    rw [this, List.length_nil]; omega

/-- The cut before a long run. -/
theorem hybridCut_before (pre : List UInt32) (v : UInt32) (r : List UInt32) (hpre : pre ≠ []) (h64 : pre.length + 8 ≤ 64)
    (hno : NoRun (pre ++ List.replicate 7 v)) :
    longRun (pre ++ (List.replicate 8 v ++ r)) = false ∧ hybridCut (pre ++ (List.replicate 8 v ++ r)) = pre.length := by
  have hp : 0 < pre.length := List.length_pos_iff.2 hpre
  have e : pre ++ (List.replicate 8 v ++ r) = (pre ++ List.replicate 7 v) ++ (v :: r) := by
    simp [List.replicate_succ]
  have h1 : ∀ i < pre.length, longRun ((pre ++ (List.replicate 8 v ++ r)).drop i) = false := by
    intro i hi
    rw [e]
    exact longRun_in hno _ i (by simp; omega)
  have h2 : longRun ((pre ++ (List.replicate 8 v ++ r)).drop pre.length) = true := by
    rw [List.drop_left' rfl, longRun_iff]; exact ⟨_, _, rfl⟩
  have hl := h1 0 hp
  rw [List.drop_zero] at hl
  refine ⟨hl, ?_⟩
  have hf := firstRun_of _ pre.length (by simp) h1 h2
  rw [hybridCut, hl, hf]
  simp only [Bool.false_eq_true, if_false]
  rw [if_pos ⟨by simp, h64⟩]

/-- The cut of 64 values without long run. -/
theorem hybridCut_64 (b : List UInt32) (hb : NoRun b) (h64 : b.length = 64) (r : List UInt32) :
    longRun (b ++ r) = false ∧ hybridCut (b ++ r) = 64 := by
  have h1 : ∀ i < 57, longRun ((b ++ r).drop i) = false := fun i hi => longRun_in hb _ i (by omega)
  have hl := h1 0 (by omega)
  rw [List.drop_zero] at hl
  have hf := firstRun_ge _ _ h1
  refine ⟨hl, ?_⟩
  rw [hybridCut, hl]
  simp only [Bool.false_eq_true, if_false]
  rw [List.length_append] at hf ⊢
  rw [if_neg (by omega)]; omega

/-- The cut at the end. -/
theorem hybridCut_end (b : List UInt32) (hb : NoRun b) (h64 : b.length < 64) :
    longRun b = false ∧ hybridCut b = b.length := by
  have hl := noRun_longRun hb 0
  rw [List.drop_zero] at hl
  have hf := firstRun_ge b b.length (fun i _ => noRun_longRun hb i)
  refine ⟨hl, ?_⟩
  rw [hybridCut, hl]
  simp only [Bool.false_eq_true, if_false]
  rw [if_neg (by omega)]; omega

/-- The bytes for the pieces. -/
def encPieces (w : Nat) (l : List UInt32) : List UInt8 :=
  if _h : l = [] then []
  else (if longRun l then rleRun w (l.headD 0) (hybridCut l) else packedRun w (l.take (hybridCut l))) ++ encPieces w (l.drop (hybridCut l))
termination_by l.length
decreasing_by
  have := hybridCut_pos (by assumption)
  have : 0 < l.length := List.length_pos_iff.2 (by assumption)
  simp only [List.length_drop]; omega

theorem encPieces_nil (w : Nat) : encPieces w [] = [] := by rw [encPieces]; simp

theorem encPieces_run (w n : Nat) (v : UInt32) (r : List UInt32) (h8 : 8 ≤ n) (h64 : n ≤ 64) (hr : n = 64 ∨ r.head? ≠ some v) :
    encPieces w (List.replicate n v ++ r) = rleRun w v n ++ encPieces w r := by
  obtain ⟨h1, h2⟩ := hybridCut_run n v r h8 h64 hr
  rw [encPieces, dif_neg (by intro h; have := congrArg List.length h; simp at this; omega), if_pos h1, h2, List.drop_left' (by simp)]
  congr 2
  obtain ⟨m, rfl⟩ : ∃ m, n = m + 1 := ⟨n - 1, by omega⟩
  rw [List.replicate_succ]; rfl

theorem encPieces_packed (w : Nat) (b r : List UInt32) (hb : b ≠ []) (h1 : longRun (b ++ r) = false) (h2 : hybridCut (b ++ r) = b.length) :
    encPieces w (b ++ r) = packedRun w b ++ encPieces w r := by
  rw [encPieces, dif_neg (by simp [hb]), h1, h2, List.drop_left' rfl, List.take_left' rfl]
  simp

/-- State between two calls of `put`. -/
def HybridOk (s : HybridEnc) : Prop :=
  s.buf = [] ∨ ∃ pre, s.buf = pre ++ List.replicate s.rep s.cur ∧ 0 < s.rep ∧ s.buf.length < 64 ∧
    pre.getLast? ≠ some s.cur ∧ (8 ≤ s.rep → pre = []) ∧ (s.rep < 8 → NoRun s.buf)

theorem noRun_short {l : List UInt32} (h : l.length < 8) : NoRun l := by
  intro x hx
  have := hx.length_le
  simp at this; omega

/-- Eight equal values at the end of a list whose last values are fewer equal ones. -/
theorem noRun_snoc {pre : List UInt32} {n : Nat} {c : UInt32} (hpre : pre.getLast? ≠ some c) (hn : n < 8)
    (h0 : 0 < n) (hno : NoRun (pre ++ List.replicate (n - 1) c)) : NoRun (pre ++ List.replicate n c) := by
  obtain ⟨m, rfl⟩ : ∃ m, n = m + 1 := ⟨n - 1, by omega⟩
  simp only [Nat.add_sub_cancel] at hno
  intro x hx
  rw [List.replicate_succ' (n := m), ← List.append_assoc] at hx
  obtain ⟨a, b, hab⟩ := hx
  rcases List.eq_nil_or_concat b with rfl | ⟨b', y, rfl⟩
  · -- the run is a suffix
    rw [List.append_nil, show (8 : Nat) = 7 + 1 from rfl, List.replicate_succ', ← List.append_assoc] at hab
    have h1 := List.append_inj' hab rfl
    obtain ⟨h1, h2⟩ := h1
    simp only [List.cons.injEq, and_true] at h2
    subst h2
    -- a ++ replicate 7 x = pre ++ replicate m x, m < 7
    have h3 : pre = a ++ List.replicate (7 - m) x := by
      have : a ++ List.replicate 7 x = (a ++ List.replicate (7 - m) x) ++ List.replicate m x := by
        rw [List.append_assoc, List.replicate_append_replicate]; congr 2; omega
      rw [this] at h1
      exact (List.append_inj_left' h1 rfl).symm
    apply hpre
    rw [h3, show 7 - m = (6 - m) + 1 by omega, List.replicate_succ', ← List.append_assoc, List.getLast?_concat]
  · rw [List.concat_eq_append, ← List.append_assoc] at hab
    have h1 := List.append_inj' hab rfl
    exact hno x ⟨a, b', h1.1⟩

/-- What `put` does when the buffer may have become full. -/
theorem hybrid_full (w : Nat) (t : HybridEnc) (rest : List UInt32) (hb : t.buf ≠ []) (pre : List UInt32) (h1 : t.buf = pre ++ List.replicate t.rep t.cur)
    (h2 : 0 < t.rep) (h3 : t.buf.length ≤ 64) (h4 : pre.getLast? ≠ some t.cur) (h5 : 8 ≤ t.rep → pre = []) (h6 : t.rep < 8 → NoRun t.buf) :
    let t' := if 64 ≤ t.buf.length then t.flushBuffered w else t
    HybridOk t' ∧ t'.out ++ encPieces w (t'.buf ++ rest) = t.out ++ encPieces w (t.buf ++ rest) := by
  intro t'
  by_cases h : 64 ≤ t.buf.length
  · have hl : t.buf.length = 64 := by omega
    have ht : t' = t.flushBuffered w := if_pos h
    rw [ht]
    by_cases h8 : 8 ≤ t.rep
    · have hp := h5 h8
      rw [hp, List.nil_append] at h1
      have hr : t.rep = 64 := by rw [h1] at hl; simpa using hl
      have e : t.flushBuffered w = { t with out := t.out ++ rleRun w t.cur t.rep, buf := [], rep := 0 } := by
        rw [HybridEnc.flushBuffered, if_neg hb]
        dsimp only
        rw [if_pos ⟨h8, by omega⟩, HybridEnc.flushRle, if_neg (by omega)]
      rw [e]
      refine ⟨.inl rfl, ?_⟩
      dsimp only
      rw [h1, encPieces_run w t.rep t.cur rest h8 (by omega) (.inl hr)]
      simp
    · have e : t.flushBuffered w = { t with out := t.out ++ packedRun w t.buf, buf := [], rep := 0 } := by
        rw [HybridEnc.flushBuffered, if_neg hb]
        dsimp only
        rw [if_neg (by omega), if_neg (by omega), HybridEnc.flushPacked, if_neg (by omega), List.take_length]
      rw [e]
      refine ⟨.inl rfl, ?_⟩
      dsimp only
      obtain ⟨g1, g2⟩ := hybridCut_64 t.buf (h6 (by omega)) hl rest
      rw [encPieces_packed w t.buf rest hb g1 (by omega)]
      simp
  · have ht : t' = t := if_neg h
    rw [ht]
    exact ⟨.inr ⟨pre, h1, h2, by omega, h4, h5, h6⟩, rfl⟩

theorem hybrid_put (w : Nat) (s : HybridEnc) (v : UInt32) (rest : List UInt32) (hs : HybridOk s) :
    HybridOk (s.put w v) ∧ (s.put w v).out ++ encPieces w ((s.put w v).buf ++ rest) = s.out ++ encPieces w (s.buf ++ v :: rest) := by
  rw [HybridEnc.put]
  by_cases hb : s.buf = []
  · rw [if_pos hb]
    refine ⟨.inr ⟨[], by simp, by simp, by simp, by simp, by simp, fun _ => noRun_short (by simp)⟩, ?_⟩
    simp [hb]
  · rw [if_neg hb]
    obtain ⟨pre, h1, h2, h3, h4, h5, h6⟩ := hs.resolve_left hb
    dsimp only
    by_cases hc : v = s.cur
    · rw [if_pos hc]
      subst hc
      have e1 : s.buf ++ [s.cur] = pre ++ List.replicate (s.rep + 1) s.cur := by rw [h1, List.replicate_succ']; simp
      have hbl : s.buf.length = pre.length + s.rep := by rw [h1]; simp
      by_cases h8 : 8 ≤ s.rep + 1
      · rw [if_pos h8]
        have hk : (s.buf ++ [s.cur]).length - (s.rep + 1) = pre.length := by simp; omega
        by_cases hp : pre = []
        · rw [if_neg (show ¬ 0 < (s.buf ++ [s.cur]).length - (s.rep + 1) by rw [hk, hp]; simp)]
          have := hybrid_full w { s with rep := s.rep + 1, buf := s.buf ++ [s.cur] } rest (by simp) [] (by simpa [hp] using e1) (by simp) (by rw [List.length_append, List.length_singleton]; omega) (by simp)
            (by simp) (by dsimp only; omega)
          simpa using this
        · have hpl : 0 < pre.length := List.length_pos_iff.2 hp
          rw [if_pos (show 0 < (s.buf ++ [s.cur]).length - (s.rep + 1) by rw [hk]; exact hpl)]
          have h7 : s.rep = 7 := by
            by_contra hne
            exact hp (h5 (by omega))
          rw [hk, HybridEnc.flushPacked, if_neg (show ¬ pre.length = 0 by omega)]
          dsimp only
          rw [hk, e1, List.take_left' rfl, List.drop_left' rfl]
          have hlen8 : ¬ 64 ≤ (List.replicate (s.rep + 1) s.cur).length := by simp; omega
          rw [if_neg hlen8]
          refine ⟨.inr ⟨[], by simp, by simp, by simp; omega, by simp, by simp, by dsimp only; omega⟩, ?_⟩
          dsimp only
          have hno : NoRun (pre ++ List.replicate 7 s.cur) := by
            have := h6 (by omega)
            rwa [h1, h7] at this
          obtain ⟨g1, g2⟩ := hybridCut_before pre s.cur rest hp (by omega) hno
          have e2 : s.buf ++ s.cur :: rest = pre ++ (List.replicate 8 s.cur ++ rest) := by
            rw [show s.buf ++ s.cur :: rest = (s.buf ++ [s.cur]) ++ rest by simp, e1, h7, List.append_assoc]
          rw [e2, encPieces_packed w pre _ hp g1 g2, h7]
          simp
      · rw [if_neg h8]
        have := hybrid_full w { s with rep := s.rep + 1, buf := s.buf ++ [s.cur] } rest (by simp) pre e1 (by simp) (by simp; omega) h4
          (by dsimp only; omega) (by
            intro _
            dsimp only
            rw [e1]
            refine noRun_snoc h4 (by omega) (by omega) ?_
            rw [Nat.add_sub_cancel, ← h1]
            exact h6 (by omega))
        simpa using this
    · rw [if_neg hc]
      by_cases h8 : 8 ≤ s.rep
      · have hfl : s.flushRle w = { s with out := s.out ++ rleRun w s.cur s.rep, rep := 0 } := by rw [HybridEnc.flushRle, if_neg (by omega)]
        rw [if_pos h8, hfl]
        dsimp only
        rw [if_neg (show ¬ 64 ≤ (([] : List UInt32) ++ [v]).length by simp)]
        have hp := h5 h8
        rw [hp, List.nil_append] at h1
        refine ⟨.inr ⟨[], by simp, by simp, by simp, by simp, by simp, fun _ => noRun_short (by simp)⟩, ?_⟩
        dsimp only
        have hl : s.rep < 64 := by rw [h1] at h3; simpa using h3
        rw [h1, encPieces_run w s.rep s.cur (v :: rest) h8 (by omega) (.inr (by simpa using hc))]
        simp
      · rw [if_neg h8]
        have hgl : s.buf.getLast? = some s.cur := by
          rw [h1, show s.rep = (s.rep - 1) + 1 by omega, List.replicate_succ', ← List.append_assoc, List.getLast?_concat]
        have := hybrid_full w { s with cur := v, rep := 1, buf := s.buf ++ [v] } rest (by simp) s.buf (by simp) (by simp) (by simp; omega)
          (by dsimp only; rw [hgl]; simp only [ne_eq, Option.some.injEq]; exact fun h => hc h.symm) (by simp) (by
            intro _
            dsimp only
            have := noRun_snoc (pre := s.buf) (n := 1) (c := v) (by rw [hgl]; simp only [ne_eq, Option.some.injEq]; exact fun h => hc h.symm) (by omega) (by omega)
              (by simpa using h6 (by omega))
            simpa using this)
        simpa using this

theorem hybrid_fold (w : Nat) (todo : List UInt32) : ∀ s, HybridOk s →
    ((todo.foldl (fun s v => s.put w v) s).flushBuffered w).out = s.out ++ encPieces w (s.buf ++ todo) := by
  induction todo with
  | nil =>
    intro s hs
    rw [List.foldl_nil, List.append_nil, HybridEnc.flushBuffered]
    by_cases hb : s.buf = []
    · rw [if_pos hb, hb, encPieces_nil, List.append_nil]
    · rw [if_neg hb]
      obtain ⟨pre, h1, h2, h3, h4, h5, h6⟩ := hs.resolve_left hb
      dsimp only
      by_cases h8 : 8 ≤ s.rep
      · have hp := h5 h8
        rw [hp, List.nil_append] at h1
        have hl : s.buf.length = s.rep := by rw [h1]; simp
        rw [if_pos ⟨h8, hl⟩, HybridEnc.flushRle, if_neg (by omega)]
        dsimp only
        have := encPieces_run w s.rep s.cur [] h8 (by omega) (.inr (by simp))
        rw [List.append_nil, ← h1, encPieces_nil, List.append_nil] at this
        rw [this]
      · have hbl : 0 < s.buf.length := List.length_pos_iff.2 hb
        rw [if_neg (by omega), if_neg (by omega), HybridEnc.flushPacked, if_neg (by omega), List.take_length]
        dsimp only
        obtain ⟨g1, g2⟩ := hybridCut_end s.buf (h6 (by omega)) h3
        have := encPieces_packed w s.buf [] hb (by simpa using g1) (by simpa using g2)
        rw [List.append_nil, encPieces_nil, List.append_nil] at this
        rw [this]
  | cons v t ih =>
    intro s hs
    obtain ⟨g1, g2⟩ := hybrid_put w s v t hs
    rw [List.foldl_cons, ih _ g1, g2]

theorem encodeHybridRle_pieces (w : Nat) (vs : List UInt32) : encodeHybridRle w vs = encPieces w vs := by
  rw [encodeHybridRle]
  by_cases h : vs.length = 0
  · rw [if_pos h, List.length_eq_zero_iff.1 h, encPieces_nil]
  · rw [if_neg h, hybrid_fold w vs {} (.inl rfl)]
    simp

end Vroom
