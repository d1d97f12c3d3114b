import Verif.Lemmas.Dialect
import Verif.Lemmas.ReaderFile
import Mathlib.Tactic.ByContra

/-!
Sampling of a written table, and skipping of comments.
-/
namespace Vroom
open Spec

/-- A complete piece of text: quotes balanced, nothing pending, and every byte of `stop` in it is quoted or escaped. -/
structure Whole (Q : Quoting) (stop : UInt8 → Bool) (f : List UInt8) : Prop where
  settled : settled Q f = true
  even : liveQuotes Q f % 2 = 0
  inside : ∀ (k : Nat) (c : UInt8), f[k]? = some c → stop c = true → outside Q (f.take k) = false

theorem outside_append (Q : Quoting) (A B : List UInt8) (hs : settled Q A = true) (he : liveQuotes Q A % 2 = 0) : outside Q (A ++ B) = outside Q B := by
  unfold outside
  rw [settled_append Q A B hs, liveQuotes_append Q A B hs]
  congr 2
  omega

theorem outside_nil (Q : Quoting) : outside Q [] = true := by simp [outside, settled, liveQuotes]

/-- Cutting after a complete field. -/
theorem fieldCuts_whole (Q : Quoting) (dl : UInt8) (f rest : List UInt8) (hf : Whole Q (· == dl) f)
    (he : Q.esc ≠ some dl) (hq : Q.quote ≠ some dl) :
    fieldCuts Q dl (f ++ dl :: rest) = f.length :: (fieldCuts Q dl rest).map (f.length + 1 + ·) := by
  have hs1 : settled Q (f ++ [dl]) = true := settled_one Q f dl hf.settled he
  have hl1 : liveQuotes Q (f ++ [dl]) % 2 = 0 := by rw [live_one Q f dl hf.settled, if_neg hq]; exact hf.even
  unfold fieldCuts
  rw [show (f ++ dl :: rest).length = f.length + (1 + rest.length) by simp; omega, List.range_add, List.filter_append]
  have h1 : (List.range f.length).filter (fun i => (f ++ dl :: rest)[i]? == some dl && outside Q ((f ++ dl :: rest).take i)) = [] := by
    rw [List.filter_eq_nil_iff]
    intro i hi
    rw [List.mem_range] at hi
    rw [List.getElem?_append_left hi, List.take_append_of_le_length (by omega)]
    intro hc
    simp only [Bool.and_eq_true, beq_iff_eq] at hc
    have := hf.inside i dl hc.1 (by simp)
    rw [this] at hc; simp at hc
  rw [h1, List.nil_append, List.range_add, List.map_append, List.filter_append]
  have h2 : ((List.range 1).map (f.length + ·)).filter (fun i => (f ++ dl :: rest)[i]? == some dl && outside Q ((f ++ dl :: rest).take i)) = [f.length] := by
    rw [show (List.range 1).map (f.length + ·) = [f.length] from rfl, List.filter_cons, if_pos ?_]
    · rfl
    · rw [List.getElem?_append_right (by omega), List.take_left' rfl]
      have := outside_append Q f [] hf.settled hf.even
      rw [List.append_nil, outside_nil] at this
      simp [this]
  rw [h2, List.map_map, List.filter_map, List.singleton_append]
  congr 1
  have hfun : (fun i => f.length + i) ∘ (fun i => 1 + i) = fun i => f.length + 1 + i := by funext i; simp; omega
  rw [hfun]
  congr 1
  apply List.filter_congr
  intro i hi
  simp only [Function.comp]
  rw [show f ++ dl :: rest = (f ++ [dl]) ++ rest by simp]
  rw [List.getElem?_append_right (by simp), List.take_append,
    List.take_of_length_le (by simp), outside_append Q _ _ hs1 hl1]
  simp

theorem pieces_shift (A t : List UInt8) : ∀ (cuts : List Nat) (s : Nat), pieces (A ++ t) (A.length + s) (cuts.map (A.length + ·)) = pieces t s cuts
  | [], s => by simp [pieces, List.drop_append, List.drop_eq_nil_of_le]
  | c :: cs, s => by
    simp only [List.map_cons, pieces]
    rw [show A.length + c + 1 = A.length + (c + 1) by omega, pieces_shift A t cs (c + 1), List.drop_append, List.drop_eq_nil_of_le (by omega)]
    rw [show A.length + c - (A.length + s) = c - s by omega, show A.length + s - A.length = s by omega]; rfl

/-- Splitting a joined row gives its fields back. -/
theorem pieces_join (Q : Quoting) (dl : UInt8) (he : Q.esc ≠ some dl) (hq : Q.quote ≠ some dl) :
    ∀ fs : List (List UInt8), fs ≠ [] → (∀ f ∈ fs, Whole Q (· == dl) f) → pieces (joinFields dl fs) 0 (fieldCuts Q dl (joinFields dl fs)) = fs
  | [], h, _ => absurd rfl h
  | [f], _, hw => by
    have hf := hw f (by simp)
    have : fieldCuts Q dl f = [] := by
      unfold fieldCuts
      rw [List.filter_eq_nil_iff]
      intro i hi hc
      simp only [Bool.and_eq_true, beq_iff_eq] at hc
      have := hf.inside i dl hc.1 (by simp)
      rw [this] at hc; simp at hc
    simp [joinFields, this, pieces]
  | f :: g :: fs, _, hw => by
    have ih := pieces_join Q dl he hq (g :: fs) (by simp) (fun x hx => hw x (List.mem_cons_of_mem _ hx))
    rw [show joinFields dl (f :: g :: fs) = f ++ dl :: joinFields dl (g :: fs) from rfl, fieldCuts_whole Q dl f _ (hw f (by simp)) he hq]
    simp only [pieces]
    have hp := pieces_shift (f ++ [dl]) (joinFields dl (g :: fs)) (fieldCuts Q dl (joinFields dl (g :: fs))) 0
    rw [List.length_append, List.length_singleton, ih] at hp
    rw [show f ++ dl :: joinFields dl (g :: fs) = f ++ [dl] ++ joinFields dl (g :: fs) by simp]
    rw [show f.length + 1 = f.length + 1 + 0 by rfl, hp]
    simp

/-! ### Lines -/

/-- Bytes that end a line. -/
def isBreak (c : UInt8) : Bool := c == 10 || c == 13

/-- The terminator of a line. -/
def termOf (crlf : Bool) : List UInt8 := if crlf then [13, 10] else [10]

theorem lineEnds_append (Q : Quoting) (A B : List UInt8) (hs : settled Q A = true) (he : liveQuotes Q A % 2 = 0)
    (N : List Nat)
    (h0 : (List.range A.length).filter (fun i => ((A ++ B)[i]? == some 10 || ((A ++ B)[i]? == some 13 && (A ++ B)[i + 1]? != some 10)) && outside Q ((A ++ B).take i)) = N) :
    lineEnds Q (A ++ B) = N ++ (lineEnds Q B).map (A.length + ·) := by
  unfold lineEnds
  rw [List.length_append, List.range_add, List.filter_append, h0, List.filter_map]
  congr 2
  apply List.filter_congr
  intro i hi
  simp only [Function.comp]
  rw [List.getElem?_append_right (by omega), show A.length + i + 1 = A.length + (i + 1) by omega, List.getElem?_append_right (by omega),
    List.take_append, List.take_of_length_le (by omega), outside_append Q _ _ hs he]
  rw [show A.length + i - A.length = i by omega, show A.length + (i + 1) - A.length = i + 1 by omega]

theorem last_not_cr (Q : Quoting) (l : List UInt8) (hl : Whole Q isBreak l) (hq : Q.quote ≠ some 13) (he : Q.esc = none) :
    l.getLast? ≠ some 13 := by
  intro h
  rw [List.getLast?_eq_some_iff] at h
  obtain ⟨ys, rfl⟩ := h
  have h1 := hl.inside ys.length 13 (by simp) (by decide)
  rw [List.take_left' rfl] at h1
  have hset : ∀ x : List UInt8, settled Q x = true := by
    intro x
    induction x with
    | nil => rfl
    | cons a x ih =>
      cases x with
      | nil => simp [settled, he]
      | cons b x => simp only [settled]; rw [if_neg (by simp [he])]; exact ih
  have h2 := hl.even
  rw [live_one Q ys 13 (hset ys), if_neg hq] at h2
  unfold outside at h1
  rw [hset, Bool.true_and] at h1
  simp at h1
  omega

/-- The line end of a complete line. -/
theorem lineEnds_line (Q : Quoting) (l rest : List UInt8) (crlf : Bool) (hl : Whole Q isBreak l) (hq : Q.quote ≠ some 13) (hq2 : Q.quote ≠ some 10)
    (he : Q.esc = none) :
    lineEnds Q (l ++ termOf crlf ++ rest) =
      (l.length + (termOf crlf).length - 1) :: (lineEnds Q rest).map ((l ++ termOf crlf).length + ·) := by
  have hset : ∀ x : List UInt8, settled Q x = true := by
    intro x
    induction x with
    | nil => rfl
    | cons a x ih =>
      cases x with
      | nil => simp [settled, he]
      | cons b x => simp only [settled]; rw [if_neg (by simp [he])]; exact ih
  have hlive : liveQuotes Q (l ++ termOf crlf) % 2 = 0 := by
    rw [liveQuotes_append Q _ _ (hset l)]
    have : liveQuotes Q (termOf crlf) = 0 := by
      cases crlf <;> simp [termOf, liveQuotes, hq, hq2, he]
    rw [this]; exact hl.even
  have hol : ∀ x, outside Q (l ++ x) = outside Q x := fun x => outside_append Q l x (hset l) hl.even
  refine lineEnds_append Q _ rest (hset _) hlive [_] ?_
  · rw [List.length_append, List.range_add, List.filter_append]
    have h1 : (List.range l.length).filter (fun i => ((l ++ termOf crlf ++ rest)[i]? == some 10 || ((l ++ termOf crlf ++ rest)[i]? == some 13 && (l ++ termOf crlf ++ rest)[i + 1]? != some 10)) && outside Q ((l ++ termOf crlf ++ rest).take i)) = [] := by
      rw [List.filter_eq_nil_iff]
      intro i hi
      rw [List.mem_range] at hi
      intro hc
      simp only [Bool.and_eq_true] at hc
      rw [List.append_assoc, List.take_append_of_le_length (by omega)] at hc
      have hx : (l ++ (termOf crlf ++ rest))[i]? = l[i]? := List.getElem?_append_left hi
      rw [hx] at hc
      obtain ⟨c, hcc⟩ : ∃ c, l[i]? = some c := ⟨_, List.getElem?_eq_getElem hi⟩
      rw [hcc] at hc
      have hb : isBreak c = true := by
        obtain ⟨ho, _⟩ := hc
        simp only [Bool.or_eq_true, Bool.and_eq_true, beq_iff_eq, Option.some.injEq] at ho
        unfold isBreak
        rcases ho with h | h
        · simp [h]
        · simp [h.1]
      rw [hl.inside i c hcc hb] at hc
      simp at hc
    rw [h1, List.nil_append]
    cases crlf with
    | false =>
      rw [show termOf false = [10] from rfl]
      rw [show (List.range [(10 : UInt8)].length).map (l.length + ·) = [l.length] from rfl, List.filter_cons, if_pos ?_]
      · rfl
      · rw [List.append_assoc, List.getElem?_append_right (by omega), List.take_left' rfl]
        have := hol []
        rw [List.append_nil, outside_nil] at this
        simp [this]
    | true =>
      rw [show termOf true = [13, 10] from rfl]
      rw [show (List.range [(13 : UInt8), 10].length).map (l.length + ·) = [l.length, l.length + 1] from rfl, List.filter_cons, if_neg ?_,
        List.filter_cons, if_pos ?_]
      · rfl
      · have g1 : (l ++ [13, 10] ++ rest)[l.length + 1]? = some 10 := by
          rw [List.append_assoc, List.getElem?_append_right (by omega), show l.length + 1 - l.length = 1 by omega]; rfl
        have g2 : (l ++ [13, 10] ++ rest).take (l.length + 1) = l ++ [13] := by
          rw [show l ++ [13, 10] ++ rest = (l ++ [13]) ++ (10 :: rest) by simp]; exact List.take_left' (by simp)
        rw [g1, g2, hol]
        simp [outside, hset, liveQuotes, hq]
      · have g0 : (l ++ [13, 10] ++ rest)[l.length]? = some 13 := by simp
        have g1 : (l ++ [13, 10] ++ rest)[l.length + 1]? = some 10 := by
          rw [List.append_assoc, List.getElem?_append_right (by omega), show l.length + 1 - l.length = 1 by omega]; rfl
        rw [g0, g1]; simp

theorem lineRanges_shift (A t : List UInt8) : ∀ (ends : List Nat) (s : Nat), (∀ e ∈ ends, s ≤ e) →
    ends.Pairwise (· < ·) →
    lineRanges (A ++ t) (A.length + s) (ends.map (A.length + ·)) = (lineRanges t s ends).map (fun r => (A.length + r.1, A.length + r.2))
  | [], s, _, _ => by
    simp only [List.map_nil, lineRanges, List.length_append]
    by_cases h : s < t.length
    · rw [if_pos (by omega), if_pos h]; rfl
    · rw [if_neg (by omega), if_neg h]; rfl
  | e :: es, s, hb, hp => by
    simp only [List.map_cons, lineRanges]
    rw [List.pairwise_cons] at hp
    rw [show A.length + e + 1 = A.length + (e + 1) by omega,
      lineRanges_shift A t es (e + 1) (fun x hx => hp.1 x hx) hp.2]
    congr 1
    congr 1
    rw [List.getElem?_append_right (by omega), show A.length + e - A.length = e by omega]
    by_cases h : s < e
    · rw [List.getElem?_append_right (by omega), show A.length + e - 1 - A.length = e - 1 by omega]
      simp only [Nat.add_lt_add_iff_left]
      by_cases h2 : t[e]? = some 10 ∧ s < e ∧ t[e - 1]? = some 13
      · rw [if_pos h2, if_pos h2]; omega
      · rw [if_neg h2, if_neg h2]
    · rw [if_neg (by omega), if_neg (by omega)]

theorem lineEnds_sorted (Q : Quoting) (t : List UInt8) : (lineEnds Q t).Pairwise (· < ·) :=
  List.Pairwise.sublist List.filter_sublist List.pairwise_lt_range

/-- The text of a range. -/
def sliceOf (t : List UInt8) (r : Nat × Nat) : List UInt8 := (t.drop r.1).take (r.2 - r.1)

/-- Lines with their terminators. -/
def terminated : List (List UInt8 × Bool) → List UInt8
  | [] => []
  | (l, c) :: ls => l ++ termOf c ++ terminated ls

theorem slice_shift (A t : List UInt8) (r : Nat × Nat) : sliceOf (A ++ t) (A.length + r.1, A.length + r.2) = sliceOf t r := by
  unfold sliceOf
  simp only
  rw [List.drop_append, List.drop_eq_nil_of_le (by omega), show A.length + r.2 - (A.length + r.1) = r.2 - r.1 by omega,
    show A.length + r.1 - A.length = r.1 by omega]; rfl

/-- The lines of a text of complete lines are those lines. -/
theorem ranges_terminated (Q : Quoting) (hq : Q.quote ≠ some 13) (hq2 : Q.quote ≠ some 10) (he : Q.esc = none) :
    ∀ ls : List (List UInt8 × Bool), (∀ l ∈ ls, Whole Q isBreak l.1) →
      (lineRanges (terminated ls) 0 (lineEnds Q (terminated ls))).map (fun r => (decide (r.1 < r.2), sliceOf (terminated ls) r)) =
        ls.map (fun l => (decide (l.1 ≠ []), l.1))
  | [], _ => rfl
  | (l, c) :: ls, hw => by
    have hl := hw (l, c) (by simp)
    have ih := ranges_terminated Q hq hq2 he ls (fun x hx => hw x (List.mem_cons_of_mem _ hx))
    rw [show terminated ((l, c) :: ls) = l ++ termOf c ++ terminated ls from rfl]
    rw [lineEnds_line Q l (terminated ls) c hl hq hq2 he, lineRanges, List.map_cons, List.map_cons]
    have hlen : l.length + (termOf c).length - 1 + 1 = (l ++ termOf c).length + 0 := by
      cases c <;> simp [termOf]
    rw [hlen, lineRanges_shift (l ++ termOf c) (terminated ls) _ 0 (by simp) (lineEnds_sorted _ _), List.map_map]
    have hend : (if (l ++ termOf c ++ terminated ls)[l.length + (termOf c).length - 1]? = some 10 ∧ 0 < l.length + (termOf c).length - 1 ∧
        (l ++ termOf c ++ terminated ls)[l.length + (termOf c).length - 1 - 1]? = some 13 then l.length + (termOf c).length - 1 - 1
        else l.length + (termOf c).length - 1) = l.length := by
      cases c with
      | true =>
        rw [if_pos]
        · simp [termOf]
        · refine ⟨?_, ?_, ?_⟩
          · simp only [termOf, if_true, List.length_cons, List.length_nil]
            rw [List.append_assoc, List.getElem?_append_right (by omega)]; simp
          · simp [termOf]
          · simp only [termOf, if_true, List.length_cons, List.length_nil]
            rw [List.append_assoc, List.getElem?_append_right (by omega)]; simp
      | false =>
        rw [if_neg]
        · simp [termOf]
        · intro h
          simp only [termOf, Bool.false_eq_true, if_false, List.length_cons, List.length_nil] at h
          obtain ⟨_, h2, h3⟩ := h
          rw [List.append_assoc, List.getElem?_append_left (by omega)] at h3
          have := last_not_cr Q l hl hq he
          rw [List.getLast?_eq_getElem?] at this
          exact this (by rw [← h3]; congr 1)
    rw [hend]
    congr 1
    · simp only [sliceOf, List.drop_zero, Nat.sub_zero]
      rw [List.append_assoc, List.take_left' rfl]
      congr 1
      cases l <;> simp
    · rw [← ih]
      apply List.map_congr_left
      intro r _
      simp only [Function.comp]
      rw [slice_shift]
      congr 1
      simp

/-! ### Written fields -/

theorem settled_noesc (Q : Quoting) (he : Q.esc = none) : ∀ x : List UInt8, settled Q x = true
  | [] => rfl
  | [a] => by simp [settled, he]
  | a :: b :: x => by simp only [settled]; rw [if_neg (by simp [he])]; exact settled_noesc Q he (b :: x)

theorem live_noesc (Q : Quoting) (q : UInt8) (hq : Q.quote = some q) (he : Q.esc = none) : ∀ x : List UInt8, liveQuotes Q x = x.count q
  | [] => rfl
  | [a] => by
    simp only [liveQuotes, hq, List.count_cons, List.count_nil, Nat.zero_add, Option.some.injEq, beq_iff_eq]
    by_cases h : q = a
    · rw [if_pos h, if_pos h.symm]
    · rw [if_neg h, if_neg (fun h2 => h h2.symm)]
  | a :: b :: x => by
    simp only [liveQuotes]
    rw [if_neg (by simp [he]), live_noesc Q q hq he (b :: x), hq, List.count_cons (a := q) (b := a)]
    simp only [beq_iff_eq, Option.some.injEq]
    rw [Nat.add_comm]; congr 1
    by_cases h : q = a
    · rw [if_pos h, if_pos h.symm]
    · rw [if_neg h, if_neg (fun h2 => h h2.symm)]

theorem outside_noesc (Q : Quoting) (q : UInt8) (hq : Q.quote = some q) (he : Q.esc = none) (x : List UInt8) :
    outside Q x = (x.count q % 2 == 0) := by
  unfold outside; rw [settled_noesc Q he, live_noesc Q q hq he]; simp

theorem whole_plain (Q : Quoting) (q : UInt8) (hq : Q.quote = some q) (he : Q.esc = none) (stop : UInt8 → Bool) (s : List UInt8)
    (hns : ∀ c ∈ s, stop c = false) (hnq : q ∉ s) : Whole Q stop s := by
  refine ⟨settled_noesc Q he s, ?_, ?_⟩
  · rw [live_noesc Q q hq he, List.count_eq_zero.2 hnq]
  · intro k c hk hc
    have := hns c (List.mem_of_getElem? hk)
    rw [this] at hc; simp at hc

theorem whole_quoted (Q : Quoting) (q : UInt8) (hq : Q.quote = some q) (he : Q.esc = none) (stop : UInt8 → Bool) (b : List UInt8)
    (hsq : stop q = false) : Whole Q stop (q :: escape q b ++ [q]) := by
  refine ⟨settled_noesc Q he _, ?_, ?_⟩
  · rw [live_noesc Q q hq he, List.count_append, List.count_cons, escape_count]; simp; omega
  · intro k c hk hc
    have hcq : c ≠ q := by rintro rfl; rw [hsq] at hc; simp at hc
    rw [outside_noesc Q q hq he]
    cases k with
    | zero => simp at hk; exact absurd hk.symm hcq
    | succ k =>
      rw [List.cons_append, List.getElem?_cons_succ] at hk
      have hlt : k < (escape q b).length := by
        by_contra hge
        rw [List.getElem?_append_right (by omega)] at hk
        have := List.mem_of_getElem? hk
        simp at this
        exact hcq this
      rw [List.getElem?_append_left hlt] at hk
      have hp := escape_parity q b k c hk hcq
      rw [List.cons_append, List.take_succ_cons, List.take_append_of_le_length (by omega), List.count_cons]
      simp
      omega

theorem whole_join (Q : Quoting) (stop : UInt8 → Bool) (dl : UInt8) (he : Q.esc = none) (hq : Q.quote ≠ some dl) (hd : stop dl = false) :
    ∀ fs : List (List UInt8), (∀ f ∈ fs, Whole Q stop f) → Whole Q stop (joinFields dl fs)
  | [], _ => ⟨rfl, rfl, by intro k c h; simp [joinFields] at h⟩
  | [f], h => h f (by simp)
  | f :: g :: fs, h => by
    have hf := h f (by simp)
    have ih := whole_join Q stop dl he hq hd (g :: fs) (fun x hx => h x (List.mem_cons_of_mem _ hx))
    rw [show joinFields dl (f :: g :: fs) = f ++ dl :: joinFields dl (g :: fs) from rfl]
    have hs1 := settled_noesc Q he
    have hl1 : liveQuotes Q (f ++ [dl]) % 2 = 0 := by rw [live_one Q f dl (hs1 f), if_neg hq]; exact hf.even
    refine ⟨hs1 _, ?_, ?_⟩
    · rw [show f ++ dl :: joinFields dl (g :: fs) = (f ++ [dl]) ++ joinFields dl (g :: fs) by simp, liveQuotes_append Q _ _ (hs1 _)]
      have := ih.even
      omega
    · intro k c hk hc
      rcases Nat.lt_trichotomy k f.length with hlt | heq | hgt
      · rw [List.getElem?_append_left hlt] at hk
        rw [List.take_append_of_le_length (by omega)]
        exact hf.inside k c hk hc
      · subst heq
        simp at hk
        rw [← hk, hd] at hc; simp at hc
      · rw [show f ++ dl :: joinFields dl (g :: fs) = (f ++ [dl]) ++ joinFields dl (g :: fs) by simp] at hk ⊢
        rw [List.getElem?_append_right (by simp; omega)] at hk
        rw [List.take_append, List.take_of_length_le (by simp; omega), outside_append Q _ _ (hs1 _) hl1]
        exact ih.inside _ c hk hc

/-- What the sampler reports for a written field: bare text, or the written content between the quotes. -/
def sampledText (q : UInt8) : WField → List UInt8
  | .plain s => s
  | .quoted b => escape q b

theorem unquote_plain (Q : Quoting) (q : UInt8) (hq : Q.quote = some q) (s : List UInt8) (hn : q ∉ s) : unquote Q s = s := by
  unfold unquote
  rw [hq]
  dsimp only
  rw [if_neg]
  rintro ⟨_, h, _⟩
  exact hn (List.mem_of_mem_head? h)

theorem unquote_quoted (Q : Quoting) (q : UInt8) (hq : Q.quote = some q) (e : List UInt8) : unquote Q (q :: e ++ [q]) = e := by
  unfold unquote
  rw [hq]
  dsimp only
  rw [if_pos ⟨by simp, by simp, by rw [List.getLast?_append]; simp⟩]
  simp

theorem unquote_render (Q : Quoting) (q : UInt8) (hq : Q.quote = some q) (M : Marks) (hM : M.quote = q) (f : WField) (hf : f.WF M) :
    unquote Q (f.render q) = sampledText q f := by
  cases f with
  | plain s => exact unquote_plain Q q hq s (hM ▸ hf.2.1)
  | quoted b => exact unquote_quoted Q q hq (escape q b)

theorem ranges_text (Q : Quoting) (chars : List UInt8) (limit : Nat) (hq : Q.quote ≠ some 13) (hq2 : Q.quote ≠ some 10) (he : Q.esc = none)
    (ls : List (List UInt8 × Bool)) (hw : ∀ l ∈ ls, Whole Q isBreak l.1) :
    (sampleRows Q chars limit (terminated ls)).map (sliceOf (terminated ls)) =
      ((ls.map Prod.fst).filter (fun l => decide (l ≠ []) && !commentLine chars l)).take limit := by
  have h := ranges_terminated Q hq hq2 he ls hw
  unfold sampleRows
  rw [List.map_take]
  congr 1
  generalize hR : lineRanges (terminated ls) 0 (lineEnds Q (terminated ls)) = R at h
  generalize terminated ls = t at h
  clear hR hw
  induction R generalizing ls with
  | nil =>
    cases ls with
    | nil => rfl
    | cons a b => simp at h
  | cons r R ih =>
    cases ls with
    | nil => simp at h
    | cons l ls =>
      simp only [List.map_cons, List.cons.injEq, Prod.mk.injEq] at h
      obtain ⟨⟨h1, h2⟩, h3⟩ := h
      have ih' := ih ls h3
      rw [List.filter_cons, List.map_cons, List.filter_cons]
      have hk : (decide (r.1 < r.2) && !commentLine chars ((t.drop r.1).take (r.2 - r.1))) = (decide (l.1 ≠ []) && !commentLine chars l.1) := by
        rw [h1, show (t.drop r.1).take (r.2 - r.1) = l.1 from h2]
      rw [hk]
      by_cases hc : (decide (l.1 ≠ []) && !commentLine chars l.1) = true
      · rw [if_pos hc, if_pos hc, List.map_cons, ih', h2]
      · rw [if_neg hc, if_neg hc, ih']

end Vroom
