import Verif.Model.Dialect
import Verif.Spec.Dialect
import Mathlib.Data.List.Basic

/-!
Lemmas on dialect detection.
-/
namespace Vroom
open Spec

/-- The quoting rules of a dialect. -/
def Dialect.quoting (d : Dialect) : Quoting :=
  { quote := if d.quote = 0 then none else some d.quote, esc := if d.doubleQuote = true ∨ d.escape = 0 then none else some d.escape }

theorem quotes_iff (d : Dialect) (c : UInt8) : d.quotes c = true ↔ d.quoting.quote = some c := by
  simp only [Dialect.quotes, Dialect.quoting]
  by_cases h : d.quote = 0
  · simp [h]
  · simp [h]; exact eq_comm

theorem escapes_iff (d : Dialect) (c : UInt8) : d.escapes c = true ↔ d.quoting.esc = some c := by
  simp only [Dialect.escapes, Dialect.quoting]
  by_cases h : d.doubleQuote = true
  · simp [h]
  · by_cases h2 : d.escape = 0
    · simp [h2]
    · simp [h, h2]; exact eq_comm

theorem settled_append (Q : Quoting) : ∀ (A B : List UInt8), settled Q A = true → settled Q (A ++ B) = settled Q B
  | [], B, _ => rfl
  | [c], B, h => by
    have hc : Q.esc ≠ some c := by simpa [settled] using h
    cases B with
    | nil => simpa [settled] using h
    | cons b B => simp only [List.cons_append, List.nil_append, settled]; rw [if_neg hc]
  | c :: c' :: A, B, h => by
    simp only [settled] at h
    simp only [List.cons_append, settled]
    by_cases hc : Q.esc = some c
    · rw [if_pos hc] at h ⊢; exact settled_append Q A B h
    · rw [if_neg hc] at h ⊢; exact settled_append Q (c' :: A) B h

theorem liveQuotes_append (Q : Quoting) : ∀ (A B : List UInt8), settled Q A = true → liveQuotes Q (A ++ B) = liveQuotes Q A + liveQuotes Q B
  | [], B, _ => by simp [liveQuotes]
  | [c], B, h => by
    have hc : Q.esc ≠ some c := by simpa [settled] using h
    cases B with
    | nil => simp [liveQuotes]
    | cons b B => simp only [List.cons_append, List.nil_append, liveQuotes]; rw [if_neg hc]
  | c :: c' :: A, B, h => by
    simp only [settled] at h
    simp only [List.cons_append, liveQuotes]
    by_cases hc : Q.esc = some c
    · rw [if_pos hc] at h; rw [if_pos hc, if_pos hc]; exact liveQuotes_append Q A B h
    · rw [if_neg hc] at h; rw [if_neg hc, if_neg hc, Nat.add_assoc]
      rw [← liveQuotes_append Q (c' :: A) B h]; rfl

/-- Facts about a dialect with sensible characters. -/
structure Dialect.Sane (d : Dialect) : Prop where
  q_delim : d.quote ≠ d.delimiter
  q_lf : d.quote ≠ 10
  q_cr : d.quote ≠ 13
  e_q : d.doubleQuote = false → d.escape ≠ 0 → d.escape ≠ d.quote
  e_delim : d.doubleQuote = false → d.escape ≠ 0 → d.escape ≠ d.delimiter
  e_lf : d.doubleQuote = false → d.escape ≠ 10
  e_cr : d.doubleQuote = false → d.escape ≠ 13

theorem esc_facts {d : Dialect} (h : d.Sane) {c : UInt8} (hc : d.quoting.esc = some c) :
    d.quoting.quote ≠ some c ∧ c ≠ d.delimiter ∧ c ≠ 10 ∧ c ≠ 13 := by
  simp only [Dialect.quoting] at hc ⊢
  by_cases h1 : d.doubleQuote = true ∨ d.escape = 0
  · rw [if_pos h1] at hc; simp at hc
  · rw [if_neg h1] at hc
    simp only [not_or] at h1
    have hdq : d.doubleQuote = false := by simpa using h1.1
    simp at hc; subst hc
    refine ⟨?_, h.e_delim hdq h1.2, h.e_lf hdq, h.e_cr hdq⟩
    by_cases h2 : d.quote = 0
    · simp [h2]
    · simp [h2]; exact fun he => h.e_q hdq h1.2 he.symm

theorem quote_facts {d : Dialect} (h : d.Sane) {c : UInt8} (hc : d.quoting.quote = some c) :
    c ≠ d.delimiter ∧ c ≠ 10 ∧ c ≠ 13 ∧ c = d.quote := by
  simp only [Dialect.quoting] at hc
  by_cases h2 : d.quote = 0
  · simp [h2] at hc
  · simp [h2] at hc; subst hc; exact ⟨h.q_delim, h.q_lf, h.q_cr, rfl⟩

/-- How the reading position moves over one ordinary byte. -/
theorem settled_one (Q : Quoting) (pre : List UInt8) (c : UInt8) (hs : settled Q pre = true) (hc : Q.esc ≠ some c) : settled Q (pre ++ [c]) = true := by
  rw [settled_append Q _ _ hs]; simp [settled, hc]

theorem live_one (Q : Quoting) (pre : List UInt8) (c : UInt8) (hs : settled Q pre = true) :
    liveQuotes Q (pre ++ [c]) = liveQuotes Q pre + (if Q.quote = some c then 1 else 0) := by
  rw [liveQuotes_append Q _ _ hs]; simp [liveQuotes]

theorem settled_escaped (Q : Quoting) (pre : List UInt8) (c c' : UInt8) (hs : settled Q pre = true) (hc : Q.esc = some c) :
    settled Q (pre ++ [c, c']) = true ∧ liveQuotes Q (pre ++ [c, c']) = liveQuotes Q pre ∧ settled Q (pre ++ [c]) = false := by
  rw [settled_append Q _ _ hs, settled_append Q _ _ hs, liveQuotes_append Q _ _ hs]; simp [settled, liveQuotes, hc]

/-! ### Fields -/

/-- Cut positions from `k` on. -/
def cutsFrom (Q : Quoting) (delim : UInt8) (t : List UInt8) (k n : Nat) : List Nat :=
  (List.range' k n).filter (fun i => t[i]? == some delim && outside Q (t.take i))

theorem cutsFrom_succ (Q : Quoting) (delim : UInt8) (t : List UInt8) (k n : Nat) :
    cutsFrom Q delim t k (n + 1) =
      if (t[k]? == some delim && outside Q (t.take k)) = true then k :: cutsFrom Q delim t (k + 1) n else cutsFrom Q delim t (k + 1) n := by
  simp only [cutsFrom]
  rw [List.range'_succ, List.filter_cons]

theorem at_pre {pre rest t : List UInt8} {c : UInt8} (ht : t = pre ++ c :: rest) : t[pre.length]? = some c ∧ t.take pre.length = pre := by
  subst ht; simp

theorem slice_pre (t pre rest : List UInt8) (fs : Nat) (ht : t = pre ++ rest) : (t.drop fs).take (pre.length - fs) = pre.drop fs := by
  subst ht
  by_cases h : fs ≤ pre.length
  · rw [List.drop_append_of_le_length h, List.take_append_of_le_length (by simp), List.take_of_length_le (by simp)]
  · rw [show pre.length - fs = 0 by omega, List.take_zero, List.drop_eq_nil_of_le (by omega)]

theorem drop_append_one (pre : List UInt8) (c : UInt8) (fs : Nat) (h : fs ≤ pre.length) : pre.drop fs ++ [c] = (pre ++ [c]).drop fs := by
  rw [List.drop_append_of_le_length h]

theorem extractLoop_spec (d : Dialect) (hd : d.Sane) (t : List UInt8) :
    ∀ (rest : List UInt8) (inQ : Bool) (cur : List UInt8) (pre : List UInt8) (fs : Nat), t = pre ++ rest → fs ≤ pre.length → cur = pre.drop fs →
      settled d.quoting pre = true → inQ = (liveQuotes d.quoting pre % 2 == 1) →
      extractLoop d rest inQ cur = pieces t fs (cutsFrom d.quoting d.delimiter t pre.length rest.length) := by
  intro rest inQ cur
  have hout : ∀ (pre : List UInt8) (inQ : Bool), settled d.quoting pre = true → inQ = (liveQuotes d.quoting pre % 2 == 1) →
      outside d.quoting pre = !inQ := by
    intro pre inQ hs hq
    simp only [outside, hs, Bool.true_and, hq]
    rcases Nat.mod_two_eq_zero_or_one (liveQuotes d.quoting pre) with h | h <;> simp [h]
  fun_induction extractLoop d rest inQ cur with
  | case1 inQ cur =>
    intro pre fs ht hfs hcur hs hq
    have : t = pre := by simpa using ht
    simp [cutsFrom, pieces, this, hcur]
  | case2 c inQ cur h =>
    intro pre fs ht hfs hcur hs hq
    have hq' := (quotes_iff d c).1 h
    have hf := quote_facts hd hq'
    have ha := at_pre ht
    simp only [List.length_singleton]
    rw [cutsFrom_succ, ha.1, if_neg (by simp [hf.1])]
    simp [cutsFrom, pieces, ht, hcur, List.drop_append_of_le_length hfs]
  | case3 c inQ cur h1 h2 =>
    intro pre fs ht hfs hcur hs hq
    have ha := at_pre ht
    simp only [Bool.and_eq_true, Bool.not_eq_true', beq_iff_eq] at h2
    simp only [List.length_singleton]
    rw [cutsFrom_succ, ha.1, ha.2, hout pre inQ hs hq, if_pos (by simp [h2])]
    simp only [cutsFrom, List.range'_zero, List.filter_nil, pieces]
    rw [slice_pre t pre [c] fs ht, hcur, List.drop_eq_nil_of_le (as := t) (by rw [ht]; simp)]
  | case4 c inQ cur h1 h2 =>
    intro pre fs ht hfs hcur hs hq
    have ha := at_pre ht
    simp only [List.length_singleton]
    rw [cutsFrom_succ, ha.1, ha.2, hout pre inQ hs hq, if_neg (by simp at h2 ⊢; intro he; cases inQ <;> simp_all)]
    simp [cutsFrom, pieces, ht, hcur, List.drop_append_of_le_length hfs]
  | case5 c c' rest inQ cur h ih =>
    intro pre fs ht hfs hcur hs hq
    have he := (escapes_iff d c).1 h
    have hf := esc_facts hd he
    have ha := at_pre ht
    obtain ⟨s1, s2, s3⟩ := settled_escaped d.quoting pre c c' hs he
    have hih := ih (pre ++ [c, c']) fs (by simp [ht]) (by simp; omega) (by rw [hcur, List.drop_append_of_le_length hfs]) s1 (by rw [s2]; exact hq)
    rw [hih]
    have ha2 : t.take (pre.length + 1) = pre ++ [c] := by rw [ht, show pre ++ c :: c' :: rest = (pre ++ [c]) ++ (c' :: rest) by simp]; exact List.take_left' (by simp)
    rw [show (c :: c' :: rest).length = rest.length + 1 + 1 by simp]
    rw [cutsFrom_succ, ha.1, if_neg (by simp [hf.2.1])]
    rw [cutsFrom_succ, ha2, outside, s3, Bool.false_and, Bool.and_false, if_neg (by simp)]
    simp
  | case6 c c' rest inQ cur h1 h2 h3 ih =>
    intro pre fs ht hfs hcur hs hq
    have hqc := (quotes_iff d c).1 h2
    have hf := quote_facts hd hqc
    have ha := at_pre ht
    simp only [Bool.and_eq_true, beq_iff_eq] at h3
    have hc' : c' = c := by rw [h3.2, hf.2.2.2]
    have hne : d.quoting.esc ≠ some c := fun he => h1 ((escapes_iff d c).2 he)
    have s1 := settled_one d.quoting pre c hs hne
    have s2 := settled_one d.quoting (pre ++ [c]) c s1 hne
    have l1 := live_one d.quoting pre c hs
    have l2 := live_one d.quoting (pre ++ [c]) c s1
    rw [if_pos hqc] at l1 l2
    subst hc'
    have hih := ih (pre ++ [c', c']) fs (by simp [ht]) (by simp; omega) (by rw [hcur, List.drop_append_of_le_length hfs])
      (by simpa using s2) (by rw [show pre ++ [c', c'] = pre ++ [c'] ++ [c'] by simp, l2, l1, hq]; congr 1; omega)
    rw [hih]
    have ha2 : t[pre.length + 1]? = some c' := by rw [ht]; simp
    rw [show (c' :: c' :: rest).length = rest.length + 1 + 1 by simp]
    rw [cutsFrom_succ, ha.1, if_neg (by simp [hf.1]), cutsFrom_succ, ha2, if_neg (by simp [hf.1])]
    simp
  | case7 c c' rest inQ cur h1 h2 h3 ih =>
    intro pre fs ht hfs hcur hs hq
    have hqc := (quotes_iff d c).1 h2
    have hf := quote_facts hd hqc
    have ha := at_pre ht
    have hne : d.quoting.esc ≠ some c := fun he => h1 ((escapes_iff d c).2 he)
    have l1 := live_one d.quoting pre c hs
    rw [if_pos hqc] at l1
    have hih := ih (pre ++ [c]) fs (by simp [ht]) (by simp; omega) (by rw [hcur, List.drop_append_of_le_length hfs])
      (settled_one d.quoting pre c hs hne)
      (by rw [l1, hq]; rcases Nat.mod_two_eq_zero_or_one (liveQuotes d.quoting pre) with h | h <;> simp [h, Nat.add_mod])
    rw [hih]
    rw [show (c :: c' :: rest).length = (c' :: rest).length + 1 by simp]
    rw [cutsFrom_succ, ha.1, if_neg (by simp [hf.1])]
    simp
  | case8 c c' rest inQ cur h1 h2 h3 ih =>
    intro pre fs ht hfs hcur hs hq
    have ha := at_pre ht
    have hne : d.quoting.esc ≠ some c := fun he => h1 ((escapes_iff d c).2 he)
    have hnq : ¬ d.quoting.quote = some c := fun he => h2 ((quotes_iff d c).2 he)
    have l1 := live_one d.quoting pre c hs
    rw [if_neg hnq] at l1
    simp only [Bool.and_eq_true, Bool.not_eq_true', beq_iff_eq] at h3
    have hih := ih (pre ++ [c]) (pre.length + 1) (by simp [ht]) (by simp) (by simp)
      (settled_one d.quoting pre c hs hne) (by rw [l1, hq]; rfl)
    rw [hih]
    rw [show (c :: c' :: rest).length = (c' :: rest).length + 1 by simp]
    rw [cutsFrom_succ, ha.1, ha.2, hout pre inQ hs hq, if_pos (by simp [h3]), pieces, slice_pre t pre _ fs ht, hcur]
    simp
  | case9 c c' rest inQ cur h1 h2 h3 ih =>
    intro pre fs ht hfs hcur hs hq
    have ha := at_pre ht
    have hne : d.quoting.esc ≠ some c := fun he => h1 ((escapes_iff d c).2 he)
    have hnq : ¬ d.quoting.quote = some c := fun he => h2 ((quotes_iff d c).2 he)
    have l1 := live_one d.quoting pre c hs
    rw [if_neg hnq] at l1
    have hih := ih (pre ++ [c]) fs (by simp [ht]) (by simp; omega) (by rw [hcur, List.drop_append_of_le_length hfs])
      (settled_one d.quoting pre c hs hne) (by rw [l1, hq]; rfl)
    rw [hih]
    rw [show (c :: c' :: rest).length = (c' :: rest).length + 1 by simp]
    rw [cutsFrom_succ, ha.1, ha.2, hout pre inQ hs hq, if_neg (by simp at h3 ⊢; intro he; cases inQ <;> simp_all)]
    simp

theorem extractFields_spec (d : Dialect) (hd : d.Sane) (row : List UInt8) (hr : row ≠ []) :
    extractFields d row = (pieces row 0 (fieldCuts d.quoting d.delimiter row)).map (unquote d.quoting) := by
  have h0 : extractLoop d row false [] = pieces row 0 (fieldCuts d.quoting d.delimiter row) := by
    rw [extractLoop_spec d hd row row false [] [] 0 (by simp) (by simp) (by simp) (by simp [settled]) (by simp [liveQuotes])]
    simp [cutsFrom, fieldCuts, List.range_eq_range']
  have h1 : ∀ f, stripQuotes d f = unquote d.quoting f := by
    intro f
    simp only [stripQuotes, unquote, Dialect.quoting]
    by_cases h : d.quote = 0
    · simp [h]
    · simp [h, and_assoc]
  unfold extractFields
  rw [if_neg (by simpa using hr), h0]
  exact List.map_congr_left (fun f _ => h1 f)

/-! ### Rows -/

theorem isCommentLine_spec (o : DetectOptions) (row : List UInt8) : isCommentLine o row = commentLine o.commentChars row := by
  unfold isCommentLine commentLine firstInk
  by_cases h : (o.commentChars.isEmpty || row.isEmpty) = true
  · rw [if_pos h]
    simp only [Bool.or_eq_true, List.isEmpty_iff] at h
    rcases h with h | h
    · rw [h]; split <;> simp
    · rw [h]; simp
  · rw [if_neg h]
    cases row.dropWhile (fun c => c == 32 || c == 9) <;> rfl

/-- Rows worth keeping. -/
def keepRow (o : DetectOptions) (buf : List UInt8) (r : Nat × Nat) : Bool :=
  decide (r.1 < r.2) && !commentLine o.commentChars ((buf.drop r.1).take (r.2 - r.1))

theorem pushRow_spec (o : DetectOptions) (buf : List UInt8) (rows : List (Nat × Nat)) (s e : Nat) :
    pushRow o buf rows s e = rows ++ [(s, e)].filter (keepRow o buf) := by
  unfold pushRow
  rw [isCommentLine_spec]
  by_cases h : s < e
  · rw [if_pos h]
    by_cases hc : commentLine o.commentChars ((buf.drop s).take (e - s)) = true
    · simp [keepRow, hc]
    · simp [keepRow, hc, h]
  · rw [if_neg h]; simp [keepRow, h]

/-- Line ends from `k` on. -/
def endsFrom (Q : Quoting) (t : List UInt8) (k n : Nat) : List Nat :=
  (List.range' k n).filter (fun i => (t[i]? == some 10 || (t[i]? == some 13 && t[i + 1]? != some 10)) && outside Q (t.take i))

theorem endsFrom_skip (Q : Quoting) (t : List UInt8) (k n : Nat)
    (h : ((t[k]? == some 10 || (t[k]? == some 13 && t[k + 1]? != some 10)) && outside Q (t.take k)) = false) :
    endsFrom Q t k (n + 1) = endsFrom Q t (k + 1) n := by
  simp only [endsFrom]
  rw [List.range'_succ, List.filter_cons, if_neg (by rw [h]; simp)]

theorem endsFrom_hit (Q : Quoting) (t : List UInt8) (k n : Nat)
    (h : ((t[k]? == some 10 || (t[k]? == some 13 && t[k + 1]? != some 10)) && outside Q (t.take k)) = true) :
    endsFrom Q t k (n + 1) = k :: endsFrom Q t (k + 1) n := by
  simp only [endsFrom]
  rw [List.range'_succ, List.filter_cons, if_pos h]

/-- The end of `find_rows`. -/
def finishRows (o : DetectOptions) (buf : List UInt8) (r : List (Nat × Nat) × Nat) : List (Nat × Nat) :=
  if r.2 < buf.length && r.1.length < o.maxRows then
    if !isCommentLine o (buf.drop r.2) then r.1 ++ [(r.2, buf.length)] else r.1
  else r.1

theorem finish_full (o : DetectOptions) (buf : List UInt8) (rows X : List (Nat × Nat)) (rs : Nat) (h : rows.length = o.maxRows) :
    finishRows o buf (rows, rs) = (rows ++ X).take o.maxRows := by
  unfold finishRows
  rw [if_neg (by simp [h]), List.take_append_of_le_length (by omega), List.take_of_length_le (by omega)]

theorem finish_end (o : DetectOptions) (buf : List UInt8) (rows : List (Nat × Nat)) (rs : Nat) (h : rows.length ≤ o.maxRows) :
    finishRows o buf (rows, rs) = (rows ++ (lineRanges buf rs []).filter (keepRow o buf)).take o.maxRows := by
  rcases Nat.lt_or_eq_of_le h with h | h
  · unfold finishRows lineRanges
    by_cases h2 : rs < buf.length
    · rw [if_pos (by simp [h, h2]), if_pos h2, isCommentLine_spec]
      have hk : keepRow o buf (rs, buf.length) = !commentLine o.commentChars (buf.drop rs) := by
        unfold keepRow
        rw [List.take_of_length_le (by simp)]; simp [h2]
      rw [List.filter_cons, hk]
      cases commentLine o.commentChars (buf.drop rs)
      · simp; rw [List.take_of_length_le (by simp; omega)]
      · simp; rw [List.take_of_length_le (by omega)]
    · rw [if_neg (by simp [h2]), if_neg h2]; simp; rw [List.take_of_length_le (by omega)]
  · exact finish_full o buf rows _ rs h

theorem push_len (o : DetectOptions) (buf : List UInt8) (rows : List (Nat × Nat)) (s e : Nat) : (pushRow o buf rows s e).length ≤ rows.length + 1 := by
  rw [pushRow_spec]
  have := List.length_filter_le (keepRow o buf) [(s, e)]
  simp at this ⊢; omega

theorem filter_cons_eq (p : Nat × Nat → Bool) (x : Nat × Nat) (l : List (Nat × Nat)) : (x :: l).filter p = [x].filter p ++ l.filter p := by
  rw [← List.filter_append]; rfl

theorem lf_end (buf pre : List UInt8) (rs : Nat) (prev : UInt8) (e : Nat)
    (h : e = if (decide (pre.length > rs) && prev == 13) = true then pre.length - 1 else pre.length)
    (hp : rs < pre.length → buf[pre.length - 1]? = some prev) (ha : buf[pre.length]? = some 10) :
    e = if buf[pre.length]? = some 10 ∧ rs < pre.length ∧ buf[pre.length - 1]? = some 13 then pre.length - 1 else pre.length := by
  rw [h]
  by_cases hr : rs < pre.length
  · rw [hp hr]; simp [hr, ha]
  · simp [hr]

theorem findRowsLoop_spec (o : DetectOptions) (d : Dialect) (hd : d.Sane) (buf : List UInt8) :
    ∀ (rest : List UInt8) (i : Nat) (prev : UInt8) (inQ : Bool) (rs : Nat) (rows : List (Nat × Nat)) (pre : List UInt8),
      buf = pre ++ rest → i = pre.length → rs ≤ i → (rs < i → buf[i - 1]? = some prev) → rows.length < o.maxRows →
      settled d.quoting pre = true → inQ = (liveQuotes d.quoting pre % 2 == 1) →
      finishRows o buf (findRowsLoop o d buf rest i prev inQ rs rows) =
        (rows ++ (lineRanges buf rs (endsFrom d.quoting buf i rest.length)).filter (keepRow o buf)).take o.maxRows := by
  have hout : ∀ (pre : List UInt8) (inQ : Bool), settled d.quoting pre = true → inQ = (liveQuotes d.quoting pre % 2 == 1) →
      outside d.quoting pre = !inQ := by
    intro pre inQ hs hq
    simp only [outside, hs, Bool.true_and, hq]
    rcases Nat.mod_two_eq_zero_or_one (liveQuotes d.quoting pre) with h | h <;> simp [h]
  intro rest i prev inQ rs rows
  fun_induction findRowsLoop o d buf rest i prev inQ rs rows with
  | case1 i prev inQ rs rows =>
    intro pre hb hi hrs hp hm hs hq
    exact finish_end o buf rows rs (by omega)
  | case2 c i prev inQ rs rows h =>
    intro pre hb hi hrs hp hm hs hq
    subst hi
    have ha := at_pre hb
    have hf := quote_facts hd ((quotes_iff d c).1 h)
    rw [show [c].length = 0 + 1 by rfl, endsFrom_skip _ _ _ _ (by rw [ha.1]; simp [hf.2.1, hf.2.2.1])]
    exact finish_end o buf rows rs (by omega)
  | case3 c i prev inQ rs rows h1 h2 h3 e =>
    intro pre hb hi hrs hp hm hs hq
    subst hi
    have ha := at_pre hb
    have he := lf_end buf pre rs prev e rfl hp
    simp only [Bool.not_eq_true', beq_iff_eq] at h2 h3
    subst h3
    rw [show [(10 : UInt8)].length = 0 + 1 by rfl, endsFrom_hit _ _ _ _ (by rw [ha.1, ha.2, hout pre inQ hs hq, h2]; rfl)]
    rw [finish_end o buf _ _ (by have := push_len o buf rows rs e; omega), pushRow_spec, he ha.1]
    simp only [lineRanges, endsFrom, List.range'_zero, List.filter_nil]
    rw [List.append_assoc, ← List.filter_append]; rfl
  | case4 c i prev inQ rs rows h1 h2 h3 h4 =>
    intro pre hb hi hrs hp hm hs hq
    subst hi
    have ha := at_pre hb
    simp only [Bool.not_eq_true', beq_iff_eq] at h2 h4
    subst h4
    have ha2 : buf[pre.length + 1]? = none := by rw [hb]; simp
    rw [show [(13 : UInt8)].length = 0 + 1 by rfl, endsFrom_hit _ _ _ _ (by rw [ha.1, ha.2, ha2, hout pre inQ hs hq, h2]; rfl)]
    rw [finish_end o buf _ _ (by have := push_len o buf rows rs pre.length; omega), pushRow_spec]
    simp only [lineRanges, endsFrom, List.range'_zero, List.filter_nil]
    rw [ha.1, if_neg (show ¬ (some (13 : UInt8) = some 10 ∧ rs < pre.length ∧ buf[pre.length - 1]? = some 13) by simp), List.append_assoc, ← List.filter_append]; rfl
  | case5 c i prev inQ rs rows h1 h2 h3 h4 =>
    intro pre hb hi hrs hp hm hs hq
    subst hi
    have ha := at_pre hb
    rw [show [c].length = 0 + 1 by rfl, endsFrom_skip _ _ _ _ (by rw [ha.1]; simp at h3 h4; simp [h3, h4])]
    exact finish_end o buf rows rs (by omega)
  | case6 c i prev inQ rs rows h1 h2 =>
    intro pre hb hi hrs hp hm hs hq
    subst hi
    have ha := at_pre hb
    rw [show [c].length = 0 + 1 by rfl, endsFrom_skip _ _ _ _ (by rw [ha.2, hout pre inQ hs hq]; simp at h2; simp [h2])]
    exact finish_end o buf rows rs (by omega)
  | case7 c c' rest i prev inQ rs rows h ih =>
    intro pre hb hi hrs hp hm hs hq
    subst hi
    have ha := at_pre hb
    have ha1 : buf[pre.length + 1]? = some c' := by rw [hb]; simp
    have he := (escapes_iff d c).1 h
    have hf := esc_facts hd he
    obtain ⟨s1, s2, s3⟩ := settled_escaped d.quoting pre c c' hs he
    rw [ih (pre ++ [c, c']) (by simp [hb]) (by simp) (by omega) (by intro _; exact ha1) hm s1 (by rw [s2]; exact hq)]
    have ha2 : buf.take (pre.length + 1) = pre ++ [c] := by rw [hb, show pre ++ c :: c' :: rest = (pre ++ [c]) ++ (c' :: rest) by simp]; exact List.take_left' (by simp)
    rw [show (c :: c' :: rest).length = rest.length + 1 + 1 by simp]
    rw [endsFrom_skip _ _ _ _ (by rw [ha.1]; simp [hf.2.2.1, hf.2.2.2])]
    rw [endsFrom_skip _ _ _ _ (by rw [ha2, outside, s3, Bool.false_and, Bool.and_false])]
  | case8 c c' rest i prev inQ rs rows h1 h2 h3 ih =>
    intro pre hb hi hrs hp hm hs hq
    subst hi
    have ha := at_pre hb
    have ha1 : buf[pre.length + 1]? = some c' := by rw [hb]; simp
    have hqc := (quotes_iff d c).1 h2
    have hf := quote_facts hd hqc
    have hne : d.quoting.esc ≠ some c := fun he => h1 ((escapes_iff d c).2 he)
    simp only [Bool.and_eq_true, beq_iff_eq] at h3
    have hc' : c' = c := by rw [h3.2, hf.2.2.2]
    have s1 := settled_one d.quoting pre c hs hne
    have s2 := settled_one d.quoting (pre ++ [c]) c s1 hne
    have l1 := live_one d.quoting pre c hs
    have l2 := live_one d.quoting (pre ++ [c]) c s1
    rw [if_pos hqc] at l1 l2
    subst hc'
    rw [ih (pre ++ [c', c']) (by simp [hb]) (by simp) (by omega) (by intro _; exact ha1) hm (by simpa using s2)
      (by rw [show pre ++ [c', c'] = pre ++ [c'] ++ [c'] by simp, l2, l1, hq]; congr 1; omega)]
    rw [show (c' :: c' :: rest).length = rest.length + 1 + 1 by simp]
    rw [endsFrom_skip _ _ _ _ (by rw [ha.1]; simp [hf.2.1, hf.2.2.1]), endsFrom_skip _ _ _ _ (by rw [ha1]; simp [hf.2.1, hf.2.2.1])]
  | case9 c c' rest i prev inQ rs rows h1 h2 h3 ih =>
    intro pre hb hi hrs hp hm hs hq
    subst hi
    have ha := at_pre hb
    have ha1 : buf[pre.length + 1]? = some c' := by rw [hb]; simp
    have hqc := (quotes_iff d c).1 h2
    have hf := quote_facts hd hqc
    have hne : d.quoting.esc ≠ some c := fun he => h1 ((escapes_iff d c).2 he)
    have l1 := live_one d.quoting pre c hs
    rw [if_pos hqc] at l1
    rw [ih (pre ++ [c]) (by simp [hb]) (by simp) (by omega) (by intro _; exact ha.1) hm (settled_one d.quoting pre c hs hne)
      (by rw [l1, hq]; rcases Nat.mod_two_eq_zero_or_one (liveQuotes d.quoting pre) with h | h <;> simp [h, Nat.add_mod])]
    rw [show (c :: c' :: rest).length = (c' :: rest).length + 1 by simp]
    rw [endsFrom_skip _ _ _ _ (by rw [ha.1]; simp [hf.2.1, hf.2.2.1])]
  | case10 c c' rest i prev inQ rs rows h1 h2 h3 h4 e rows' hfull =>
    intro pre hb hi hrs hp hm hs hq
    subst hi
    have ha := at_pre hb
    have ha1 : buf[pre.length + 1]? = some c' := by rw [hb]; simp
    have he := lf_end buf pre rs prev e rfl hp
    simp only [Bool.not_eq_true', beq_iff_eq] at h3 h4
    have hh : endsFrom d.quoting buf pre.length (c :: c' :: rest).length = pre.length :: endsFrom d.quoting buf (pre.length + 1) (c' :: rest).length := by
      rw [show (c :: c' :: rest).length = (c' :: rest).length + 1 by simp]
      exact endsFrom_hit _ _ _ _ (by rw [ha.1, ha.2, hout pre inQ hs hq, h3, h4]; rfl)
    have hr : rows' = rows ++ [(rs, e)].filter (keepRow o buf) := pushRow_spec o buf rows rs e
    rw [hh, lineRanges, ← he (by rw [ha.1, h4]), filter_cons_eq, ← List.append_assoc, ← hr]
    exact finish_full o buf rows' _ _ (by have := push_len o buf rows rs e; change rows'.length ≤ _ at this; simp at hfull; omega)
  | case11 c c' rest i prev inQ rs rows h1 h2 h3 h4 e rows' hfull ih =>
    intro pre hb hi hrs hp hm hs hq
    subst hi
    have ha := at_pre hb
    have ha1 : buf[pre.length + 1]? = some c' := by rw [hb]; simp
    have hne : d.quoting.esc ≠ some c := fun he => h1 ((escapes_iff d c).2 he)
    have hnq : ¬ d.quoting.quote = some c := fun he => h2 ((quotes_iff d c).2 he)
    have l1 := live_one d.quoting pre c hs
    rw [if_neg hnq] at l1
    have he := lf_end buf pre rs prev e rfl hp
    simp only [Bool.not_eq_true', beq_iff_eq] at h3 h4
    have hh : endsFrom d.quoting buf pre.length (c :: c' :: rest).length = pre.length :: endsFrom d.quoting buf (pre.length + 1) (c' :: rest).length := by
      rw [show (c :: c' :: rest).length = (c' :: rest).length + 1 by simp]
      exact endsFrom_hit _ _ _ _ (by rw [ha.1, ha.2, hout pre inQ hs hq, h3, h4]; rfl)
    have hr : rows' = rows ++ [(rs, e)].filter (keepRow o buf) := pushRow_spec o buf rows rs e
    rw [hh, lineRanges, ← he (by rw [ha.1, h4]), filter_cons_eq, ← List.append_assoc, ← hr]
    exact ih (pre ++ [c]) (by simp [hb]) (by simp) (by omega) (by omega) (by simp at hfull; omega) (settled_one d.quoting pre c hs hne) (by rw [l1, hq]; rfl)
  | case12 c c' rest i prev inQ rs rows h1 h2 h3 h4 h5 rows' hfull =>
    intro pre hb hi hrs hp hm hs hq
    subst hi
    have ha := at_pre hb
    have ha1 : buf[pre.length + 1]? = some c' := by rw [hb]; simp
    simp only [Bool.not_eq_true', Bool.and_eq_true, bne_iff_ne, ne_eq, beq_iff_eq] at h3 h5
    have hh : endsFrom d.quoting buf pre.length (c :: c' :: rest).length = pre.length :: endsFrom d.quoting buf (pre.length + 1) (c' :: rest).length := by
      rw [show (c :: c' :: rest).length = (c' :: rest).length + 1 by simp]
      exact endsFrom_hit _ _ _ _ (by rw [ha.1, ha.2, ha1, hout pre inQ hs hq, h3, h5.1]; simp [h5.2])
    have hr : rows' = rows ++ [(rs, pre.length)].filter (keepRow o buf) := pushRow_spec o buf rows rs pre.length
    rw [hh, lineRanges, if_neg (by rw [ha.1, h5.1]; simp), filter_cons_eq, ← List.append_assoc, ← hr]
    exact finish_full o buf rows' _ _ (by have := push_len o buf rows rs pre.length; change rows'.length ≤ _ at this; simp at hfull; omega)
  | case13 c c' rest i prev inQ rs rows h1 h2 h3 h4 h5 rows' hfull ih =>
    intro pre hb hi hrs hp hm hs hq
    subst hi
    have ha := at_pre hb
    have ha1 : buf[pre.length + 1]? = some c' := by rw [hb]; simp
    have hne : d.quoting.esc ≠ some c := fun he => h1 ((escapes_iff d c).2 he)
    have hnq : ¬ d.quoting.quote = some c := fun he => h2 ((quotes_iff d c).2 he)
    have l1 := live_one d.quoting pre c hs
    rw [if_neg hnq] at l1
    simp only [Bool.not_eq_true', Bool.and_eq_true, bne_iff_ne, ne_eq, beq_iff_eq] at h3 h5
    have hh : endsFrom d.quoting buf pre.length (c :: c' :: rest).length = pre.length :: endsFrom d.quoting buf (pre.length + 1) (c' :: rest).length := by
      rw [show (c :: c' :: rest).length = (c' :: rest).length + 1 by simp]
      exact endsFrom_hit _ _ _ _ (by rw [ha.1, ha.2, ha1, hout pre inQ hs hq, h3, h5.1]; simp [h5.2])
    have hr : rows' = rows ++ [(rs, pre.length)].filter (keepRow o buf) := pushRow_spec o buf rows rs pre.length
    rw [hh, lineRanges, if_neg (by rw [ha.1, h5.1]; simp), filter_cons_eq, ← List.append_assoc, ← hr]
    exact ih (pre ++ [c]) (by simp [hb]) (by simp) (by omega) (by omega) (by simp at hfull; omega) (settled_one d.quoting pre c hs hne) (by rw [l1, hq]; rfl)
  | case14 c c' rest i prev inQ rs rows h1 h2 h3 h4 h5 ih =>
    intro pre hb hi hrs hp hm hs hq
    subst hi
    have ha := at_pre hb
    have ha1 : buf[pre.length + 1]? = some c' := by rw [hb]; simp
    have hne : d.quoting.esc ≠ some c := fun he => h1 ((escapes_iff d c).2 he)
    have hnq : ¬ d.quoting.quote = some c := fun he => h2 ((quotes_iff d c).2 he)
    have l1 := live_one d.quoting pre c hs
    rw [if_neg hnq] at l1
    rw [ih (pre ++ [c]) (by simp [hb]) (by simp) (by omega) (by intro _; exact ha.1) hm (settled_one d.quoting pre c hs hne) (by rw [l1, hq]; rfl)]
    rw [show (c :: c' :: rest).length = (c' :: rest).length + 1 by simp]
    rw [endsFrom_skip _ _ _ _ (by rw [ha.1, ha1]; simp at h4 h5; simp [h4]; intro h6 h7; exact absurd (h5 h6) h7)]
  | case15 c c' rest i prev inQ rs rows h1 h2 h3 ih =>
    intro pre hb hi hrs hp hm hs hq
    subst hi
    have ha := at_pre hb
    have ha1 : buf[pre.length + 1]? = some c' := by rw [hb]; simp
    have hne : d.quoting.esc ≠ some c := fun he => h1 ((escapes_iff d c).2 he)
    have hnq : ¬ d.quoting.quote = some c := fun he => h2 ((quotes_iff d c).2 he)
    have l1 := live_one d.quoting pre c hs
    rw [if_neg hnq] at l1
    rw [ih (pre ++ [c]) (by simp [hb]) (by simp) (by omega) (by intro _; exact ha.1) hm (settled_one d.quoting pre c hs hne) (by rw [l1, hq]; rfl)]
    rw [show (c :: c' :: rest).length = (c' :: rest).length + 1 by simp]
    rw [endsFrom_skip _ _ _ _ (by rw [ha.2, hout pre inQ hs hq]; simp at h3; simp [h3])]

theorem findRows_spec (o : DetectOptions) (d : Dialect) (hd : d.Sane) (hm : 1 ≤ o.maxRows) (buf : List UInt8) :
    findRows o d buf = sampleRows d.quoting o.commentChars o.maxRows buf := by
  have := findRowsLoop_spec o d hd buf buf 0 0 false 0 [] [] (by simp) (by simp) (by simp) (by simp) (by simp; omega) (by simp [settled]) (by simp [liveQuotes])
  rw [show findRows o d buf = finishRows o buf (findRowsLoop o d buf buf 0 0 false 0 []) from rfl, this]
  simp only [List.nil_append, sampleRows, lineEnds, endsFrom, List.range_eq_range']
  rfl

end Vroom
