import Verif.Model.RowScan
import Verif.Spec.RowScan
import Verif.Lemmas.QuoteParity
namespace Vroom
open Spec (insideAt isRowEnd rowEnds stateWord)

/-! ### Block masks -/

theorem foldl_or_getLsbD {α : Type} (l : List α) (f : α → U64) (P : α → Bool) (init : U64) (i : Nat) :
    (l.foldl (fun acc a => if P a then acc ||| f a else acc) init).getLsbD i =
      (init.getLsbD i || l.any (fun a => P a && (f a).getLsbD i)) := by
  induction l generalizing init with
  | nil => simp
  | cons a l ih =>
    rw [List.foldl_cons, ih]
    cases h : P a
    · simp [h]
    · simp only [h, if_true, BitVec.getLsbD_or, List.any_cons, Bool.true_and, Bool.or_assoc]

theorem one_shift_bit (j i : Nat) (hi : i < 64) : (1#64 <<< j).getLsbD i = decide (i = j) := by
  rw [BitVec.getLsbD_shiftLeft, BitVec.getLsbD_one]
  by_cases h : i = j
  · subst h; simp [hi]
  · have : i < j ∨ ¬ i - j = 0 := by omega
    rcases this with h' | h'
    · simp [h, h']
    · simp [h, h']

theorem storeMaskByte_bit (N : Nat) (c : UInt8) (blk : Bytes) (co b i : Nat) :
    (storeMaskByte N c blk co b).getLsbD i =
      (decide (i < 8) && decide (8 * b + i < N) && (blk[co + (8 * b + i)]? == some c)) := by
  unfold storeMaskByte
  have e : (fun (acc : U64) j =>
      if 8 * b + j < N ∧ blk[co + (8 * b + j)]? = some c then acc ||| (1#64 <<< j) else acc) =
    (fun (acc : U64) j => if (decide (8 * b + j < N) && (blk[co + (8 * b + j)]? == some c)) = true
      then acc ||| (1#64 <<< j) else acc) := by
    funext acc j; simp
  rw [e, foldl_or_getLsbD (List.range 8) (fun j => 1#64 <<< j)]
  by_cases hi : i < 64
  · simp only [one_shift_bit _ i hi]
    rw [Bool.eq_iff_iff]
    simp only [BitVec.getLsbD_zero, Bool.false_or, List.any_eq_true, List.mem_range, Bool.and_eq_true,
      decide_eq_true_eq]
    constructor
    · rintro ⟨x, hx, h, rfl⟩; exact ⟨⟨hx, h.1⟩, h.2⟩
    · rintro ⟨⟨h1, h2⟩, h3⟩; exact ⟨i, h1, ⟨h2, h3⟩, rfl⟩
  · have h8 : ¬ i < 8 := by omega
    rw [Bool.eq_iff_iff]
    simp [h8]
    intro x hx
    intros
    omega

theorem foldl_or_getLsbD' {α : Type} (l : List α) (f : U64 → α → U64) (g : α → Nat → Bool)
    (h : ∀ acc a i, (f acc a).getLsbD i = (acc.getLsbD i || g a i)) (init : U64) (i : Nat) :
    (l.foldl f init).getLsbD i = (init.getLsbD i || l.any (fun a => g a i)) := by
  induction l generalizing init with
  | nil => simp
  | cons a l ih => rw [List.foldl_cons, ih, h]; simp [Bool.or_assoc]

/-- The assembled mask marks exactly the matching bytes, for any lane count dividing 64. -/
theorem blockMask_bit (N : Nat) (hN : N ∣ 64) (c : UInt8) (blk : Bytes) (i : Nat) (hi : i < 64) :
    (blockMask N c blk).getLsbD i = (blk[i]? == some c) := by
  unfold blockMask
  have hpos : 0 < N := by
    rcases Nat.eq_zero_or_pos N with h | h
    · subst h; simp at hN
    · exact h
  obtain ⟨M, hM⟩ := hN
  have hdiv : 64 / N = M := by rw [hM]; exact Nat.mul_div_cancel_left M hpos
  rw [foldl_or_getLsbD' (List.range (64 / N)) _ (fun k i => (List.range ((N + 7) / 8)).any (fun b =>
      decide (k * N + b * 8 < 64) && (storeMaskByte N c blk (k * N) b <<< (k * N + b * 8)).getLsbD i))]
  · rw [Bool.eq_iff_iff]
    simp only [BitVec.getLsbD_zero, Bool.false_or, List.any_eq_true, List.mem_range, Bool.and_eq_true,
      decide_eq_true_eq, BitVec.getLsbD_shiftLeft, storeMaskByte_bit, hdiv]
    constructor
    · rintro ⟨k, hk, b, hb, h1, ⟨h2, h3⟩, ⟨h4, h5⟩, h6⟩
      have hge : ¬ i < k * N + b * 8 := by simpa using h3
      have : k * N + (8 * b + (i - (k * N + b * 8))) = i := by omega
      rw [this] at h6; exact h6
    · intro h
      have hdm := Nat.div_add_mod i N
      have hmod := Nat.mod_lt i hpos
      have hmul : i / N * N = N * (i / N) := Nat.mul_comm _ _
      refine ⟨i / N, ?_, (i % N) / 8, ?_, ?_, ?_, ?_, ?_⟩
      · rw [Nat.div_lt_iff_lt_mul hpos, Nat.mul_comm]; omega
      · omega
      · omega
      · simp [hi]; omega
      · omega
      · have : i / N * N + (8 * (i % N / 8) + (i - (i / N * N + i % N / 8 * 8))) = i := by omega
        rw [this]; exact h
  · intro acc a i
    have e : (fun (acc : U64) b =>
        if a * N + b * 8 < 64 then acc ||| (storeMaskByte N c blk (a * N) b <<< (a * N + b * 8)) else acc) =
      (fun (acc : U64) b => if decide (a * N + b * 8 < 64) = true then
        acc ||| (storeMaskByte N c blk (a * N) b <<< (a * N + b * 8)) else acc) := by
      funext acc j; simp
    rw [e, foldl_or_getLsbD (List.range ((N + 7) / 8))
      (fun b => storeMaskByte N c blk (a * N) b <<< (a * N + b * 8))]

/-! ### Positional lemmas -/

/-- parity as a Bool -/
def oddB (n : Nat) : Bool := n % 2 == 1

theorem oddB_add (a b : Nat) : oddB (a + b) = (oddB a ^^ oddB b) := by
  unfold oddB
  rcases Nat.mod_two_eq_zero_or_one a with ha | ha <;> rcases Nat.mod_two_eq_zero_or_one b with hb | hb
  · have : (a + b) % 2 = 0 := by omega
    simp [ha, hb, this]
  · have : (a + b) % 2 = 1 := by omega
    simp [ha, hb, this]
  · have : (a + b) % 2 = 1 := by omega
    simp [ha, hb, this]
  · have : (a + b) % 2 = 0 := by omega
    simp [ha, hb, this]

theorem insideAt_eq (q : UInt8) (ins : Bool) (d : Bytes) (i : Nat) :
    insideAt q ins d i = (oddB ((d.take i).count q) ^^ ins) := rfl

theorem insideAt_drop (q : UInt8) (ins : Bool) (d : Bytes) (k i : Nat) :
    insideAt q ins d (k + i) = insideAt q (insideAt q ins d k) (d.drop k) i := by
  simp only [insideAt_eq, List.take_add, List.count_append, oddB_add]
  cases oddB (List.count q (d.take k)) <;> cases oddB (List.count q ((d.drop k).take i)) <;>
    cases ins <;> rfl

theorem isRowEnd_drop (q : UInt8) (ins : Bool) (d : Bytes) (k i : Nat) :
    isRowEnd q ins d (k + i) = isRowEnd q (insideAt q ins d k) (d.drop k) i := by
  simp only [isRowEnd, insideAt_drop, List.getElem?_drop, Nat.add_assoc]

theorem range_filter_add (f : Nat → Bool) (n m : Nat) :
    (List.range (n + m)).filter f =
      (List.range n).filter f ++ ((List.range m).filter (fun i => f (n + i))).map (n + ·) := by
  rw [List.range_add, List.filter_append, List.filter_map]; rfl

/-- Row ends of a buffer: those among the first `k` bytes, then those of the rest. -/
theorem rowEnds_split (q : UInt8) (ins : Bool) (d : Bytes) (k : Nat) (hk : k ≤ d.length) :
    rowEnds q ins d = (List.range k).filter (isRowEnd q ins d) ++
      (rowEnds q (insideAt q ins d k) (d.drop k)).map (k + ·) := by
  unfold rowEnds
  obtain ⟨m, hm⟩ := Nat.exists_eq_add_of_le hk
  rw [hm, range_filter_add, List.length_drop, hm, Nat.add_sub_cancel_left]
  simp only [isRowEnd_drop]

theorem insideAt_zero (q ins d) : insideAt q ins d 0 = ins := by
  simp [insideAt_eq, oddB]

theorem insideAt_one (q : UInt8) (ins : Bool) (c : UInt8) (rest : Bytes) :
    insideAt q ins (c :: rest) 1 = ((c == q) ^^ ins) := by
  simp only [insideAt_eq, List.take_succ_cons, List.take_zero, List.count_cons, List.count_nil]
  cases c == q <;> simp [oddB]

theorem isRowEnd_zero (q : UInt8) (ins : Bool) (c : UInt8) (rest : Bytes) :
    isRowEnd q ins (c :: rest) 0 =
      (!ins && (c == LF || (c == CR && rest.head? != some LF))) := by
  simp only [isRowEnd, insideAt_zero]
  congr 1
  cases rest <;> rfl

theorem rowEnds_cons (q : UInt8) (ins : Bool) (c : UInt8) (rest : Bytes) :
    rowEnds q ins (c :: rest) =
      (if (!ins && (c == LF || (c == CR && rest.head? != some LF))) then [0] else []) ++
      (rowEnds q ((c == q) ^^ ins) rest).map (1 + ·) := by
  rw [rowEnds_split q ins (c :: rest) 1 (by simp), insideAt_one, List.drop_one, List.tail_cons]
  congr 1
  have : List.range 1 = [0] := rfl
  rw [this, List.filter_cons, isRowEnd_zero]
  rfl

/-- Accumulating a list of row-end positions (relative to `off`) into `(rows, last)`. -/
def upd (rows last off : Nat) (E : List Nat) : Nat × Nat :=
  (rows + E.length, (E.getLast?.map (fun i => off + i + 1)).getD last)

theorem upd_nil (rows last off : Nat) : upd rows last off [] = (rows, last) := rfl

theorem upd_append_map (rows last off k : Nat) (E1 E2 : List Nat) :
    upd rows last off (E1 ++ E2.map (k + ·)) =
      upd (upd rows last off E1).1 (upd rows last off E1).2 (off + k) E2 := by
  unfold upd
  simp only [List.length_append, List.length_map, List.getLast?_append, List.getLast?_map, Prod.mk.injEq]
  refine ⟨by omega, ?_⟩
  cases h : E2.getLast? with
  | none => simp
  | some x => simp; omega

theorem stateWord_ne_zero (b : Bool) : (stateWord b ≠ 0#64) ↔ b = true := by
  cases b <;> decide

theorem stateWord_eq_zero (b : Bool) : (stateWord b = 0#64) ↔ b = false := by
  cases b <;> decide

theorem stateWord_flip (b : Bool) :
    (if stateWord b ≠ 0#64 then 0#64 else BitVec.allOnes 64) = stateWord (!b) := by
  cases b <;> decide

theorem insideAt_length_cons (q : UInt8) (ins : Bool) (c : UInt8) (rest : Bytes) :
    insideAt q ins (c :: rest) (c :: rest).length = insideAt q ((c == q) ^^ ins) rest rest.length := by
  rw [List.length_cons, Nat.add_comm, insideAt_drop, insideAt_one]; rfl

theorem analyzeTail_spec (q : UInt8) (hq1 : q ≠ LF) (hq2 : q ≠ CR) (rows last : Nat) (ins : Bool)
    (off : Nat) (rest : Bytes) :
    analyzeTail q rows last (stateWord ins) off rest =
      ((upd rows last off (rowEnds q ins rest)).1, (upd rows last off (rowEnds q ins rest)).2,
        stateWord (insideAt q ins rest rest.length)) := by
  induction h : rest.length using Nat.strongRecOn generalizing rest rows last ins off with
  | _ n ih =>
  subst h
  cases rest with
  | nil => rw [analyzeTail]; simp [rowEnds, upd, insideAt_eq, oddB]
  | cons c rest =>
    have key := ih rest.length (by simp)
    rw [analyzeTail]
    rw [insideAt_length_cons, rowEnds_cons]
    by_cases hc : c = q
    · subst hc
      have h1 : (c == LF) = false := by simp [hq1]
      have h2 : (c == CR) = false := by simp [hq2]
      simp only [h1, h2, if_true, BEq.rfl, Bool.true_xor, Bool.false_and, Bool.false_or, Bool.and_false,
        Bool.false_eq_true, if_false, List.nil_append, stateWord_ne_zero]
      have hmap := upd_append_map rows last off 1 [] (rowEnds c (!ins) rest)
      rw [List.nil_append, upd_nil] at hmap
      rw [hmap]
      by_cases hesc : ins = true ∧ rest.head? = some c
      · rw [if_pos hesc]
        obtain ⟨hi, hh⟩ := hesc
        subst hi
        cases rest with
        | nil => simp at hh
        | cons d rest2 =>
          simp only [List.head?_cons, Option.some.injEq] at hh
          subst hh
          have key2 := ih rest2.length (by simp; omega)
          rw [List.drop_one, List.tail_cons, key2 _ _ _ _ rest2 rfl, insideAt_length_cons, rowEnds_cons]
          have hmap2 := upd_append_map rows last (off + 1) 1 [] (rowEnds d true rest2)
          rw [List.nil_append, upd_nil] at hmap2
          simp [hq1, hq2]
          simp only [Nat.add_comm 1, Nat.add_assoc] at hmap2 ⊢
          rw [hmap2]; simp
      · rw [if_neg hesc]
        have := stateWord_flip ins
        simp only [stateWord_ne_zero] at this
        rw [this, key _ _ _ _ rest rfl]
    · have hcq : (c == q) = false := by simp [hc]
      simp only [hc, if_false, hcq, Bool.false_xor, stateWord_eq_zero]
      cases ins with
      | true =>
        simp only [Bool.true_eq_false, if_false, Bool.not_true, Bool.false_and, Bool.false_eq_true, if_false]
        have hmap := upd_append_map rows last off 1 [] (rowEnds q true rest)
        rw [upd_nil] at hmap
        rw [hmap, key _ _ _ _ rest rfl]
      | false =>
        simp only [if_true, Bool.not_false, Bool.true_and]
        by_cases hlf : c = LF
        · subst hlf
          simp only [if_true, BEq.rfl, Bool.true_or]
          rw [upd_append_map, key _ _ _ _ rest rfl]
          simp [upd]
        · by_cases hcr : c = CR
          · subst hcr
            by_cases hh : rest.head? = some LF
            · simp only [hh, if_true, if_false, hlf, BEq.rfl, bne_self_eq_false, Bool.and_false, 
                show ((CR == LF) = false) from rfl, Bool.false_or, Bool.false_eq_true]
              rw [upd_append_map, key _ _ _ _ rest rfl]
              simp [upd]
            · have hne : (rest.head? != some LF) = true := by simpa using hh
              simp only [hh, if_true, if_false, hlf, BEq.rfl, hne, Bool.and_true, Bool.or_true]
              rw [upd_append_map, key _ _ _ _ rest rfl]
              simp [upd]
          · have e1 : (c == LF) = false := by simpa using hlf
            have e2 : (c == CR) = false := by simpa using hcr
            simp only [hlf, hcr, e1, e2, if_false, Bool.false_and, Bool.false_or, Bool.false_eq_true]
            rw [upd_append_map, key _ _ _ _ rest rfl]
            simp [upd]

theorem countRowsScalarGo_spec (q : UInt8) (rows last : Nat) (inq : Bool) (off : Nat) (rest : Bytes) :
    countRowsScalarGo q rows last inq off rest =
      ((analyzeTail q rows last (stateWord inq) off rest).1,
       (analyzeTail q rows last (stateWord inq) off rest).2.1) := by
  fun_induction countRowsScalarGo q rows last inq off rest <;> rw [analyzeTail]
  all_goals simp_all only [if_true, if_false, stateWord_ne_zero, stateWord_eq_zero, and_self,
    Bool.false_eq_true, Bool.true_eq_false, not_and]
  rename_i inq _ _ hne _
  have hf := stateWord_flip inq
  simp only [stateWord_ne_zero] at hf
  rw [if_neg (by rintro ⟨h1, h2⟩; exact hne h1 h2), hf]

/-! ### Blocks -/

theorem filter_range_count (q : UInt8) (d : Bytes) (n : Nat) :
    ((List.range n).filter (fun i => d[i]? == some q)).length = (d.take n).count q := by
  induction n with
  | zero => simp
  | succ n ih =>
    rw [List.range_succ, List.filter_append, List.length_append, ih, List.take_add_one, List.count_append]
    congr 1
    cases h : d[n]? with
    | none => simp [h]
    | some c =>
      by_cases hc : c = q
      · subst hc; simp [h]
      · have : (c == q) = false := by simpa using hc
        simp [h, hc]

theorem par_blockMask (N : Nat) (hN : N ∣ 64) (q : UInt8) (d : Bytes) (i : Nat) (hi : i < 64) :
    par (blockMask N q (d.take 64)) i = oddB ((d.take (i + 1)).count q) := by
  rw [par_count]
  have : (List.range (i+1)).filter (blockMask N q (d.take 64)).getLsbD =
      (List.range (i+1)).filter (fun i => d[i]? == some q) := by
    apply List.filter_congr
    intro x hx
    have hx' : x < 64 := by have := List.mem_range.1 hx; omega
    rw [blockMask_bit N hN q _ x hx', List.getElem?_take_of_lt hx']
  rw [this, filter_range_count]
  rfl

theorem count_take_succ_of_ne (q : UInt8) (d : Bytes) (i : Nat) (c : UInt8) (h : d[i]? = some c) (hc : c ≠ q) :
    (d.take (i + 1)).count q = (d.take i).count q := by
  rw [List.take_add_one, List.count_append, h]
  simp [hc]

theorem validEol_bit (inside lf cr : U64) (next : Option UInt8) (i : Nat) (hi : i < 64) :
    (validEol inside lf cr next).getLsbD i =
      (!inside.getLsbD i && (lf.getLsbD i || (cr.getLsbD i &&
        !(if i = 63 then next == some LF else lf.getLsbD (i + 1))))) := by
  unfold validEol
  simp only [BitVec.getLsbD_or, BitVec.getLsbD_and, BitVec.getLsbD_not, hi, decide_true, Bool.true_and]
  have h63 : ∀ v : U64, (v &&& (1#64 <<< 63) ≠ 0#64) ↔ v.getLsbD 63 = true :=
    fun v => one_shift_and v 63 (by omega)
  simp only [h63]
  have hstd : ∀ j, j < 64 → (cr &&& ~~~inside &&& ~~~(cr &&& ~~~inside &&& lf >>> 1)).getLsbD j =
      (cr.getLsbD j && !inside.getLsbD j && !(lf.getLsbD (j + 1))) := by
    intro j hj
    simp only [BitVec.getLsbD_and, BitVec.getLsbD_not, hj, decide_true, Bool.true_and,
      BitVec.getLsbD_ushiftRight, Nat.add_comm 1]
    cases cr.getLsbD j <;> cases inside.getLsbD j <;> cases lf.getLsbD (j+1) <;> rfl
  rw [hstd 63 (by omega)]
  have hlf64 : lf.getLsbD (63 + 1) = false := BitVec.getLsbD_of_ge _ _ (by omega)
  rw [hlf64]
  by_cases hif : i = 63
  · subst hif
    simp only [if_true]
    by_cases hn : next = some LF
    · simp only [hn, if_true, BEq.rfl]
      split
      · simp only [BitVec.getLsbD_and, BitVec.getLsbD_not, one_shift_bit _ 63 (by omega)]
        cases lf.getLsbD 63 <;> cases inside.getLsbD 63 <;> simp
      · rename_i h
        rw [hstd 63 (by omega), hlf64]
        revert h
        cases lf.getLsbD 63 <;> cases inside.getLsbD 63 <;> cases cr.getLsbD 63 <;> simp
    · have hn' : (next == some LF) = false := by simpa using hn
      simp only [hn, hn', if_false, ite_self]
      rw [hstd 63 (by omega), hlf64]
      cases lf.getLsbD 63 <;> cases inside.getLsbD 63 <;> cases cr.getLsbD 63 <;> simp
  · simp only [hif, if_false]
    have hbit : (~~~(1#64 <<< 63)).getLsbD i = true := by
      rw [BitVec.getLsbD_not, one_shift_bit _ _ hi]; simp [hif, hi]
    have : ∀ (p : Prop) [Decidable p], 
      (if p then (if next = some LF then (cr &&& ~~~inside &&& ~~~(cr &&& ~~~inside &&& lf >>> 1)) &&& ~~~(1#64 <<< 63)
        else (cr &&& ~~~inside &&& ~~~(cr &&& ~~~inside &&& lf >>> 1))) 
        else (cr &&& ~~~inside &&& ~~~(cr &&& ~~~inside &&& lf >>> 1))).getLsbD i =
      (cr.getLsbD i && !inside.getLsbD i && !(lf.getLsbD (i + 1))) := by
      intro p _
      split
      · split
        · rw [BitVec.getLsbD_and, hbit, hstd i hi, Bool.and_true]
        · rw [hstd i hi]
      · rw [hstd i hi]
    rw [this]
    cases lf.getLsbD i <;> cases inside.getLsbD i <;> cases cr.getLsbD i <;> simp

/-- Bits of `valid_eol` are exactly the row ends of the block. -/
theorem validEol_isRowEnd (cpu : Cpu) (q : UInt8) (hq1 : q ≠ LF) (hq2 : q ≠ CR) (inside : U64) (ins : Bool)
    (d : Bytes) 
    (hin : ∀ i, i < 64 → inside.getLsbD i = (par (blockMask cpu.lanes q (d.take 64)) i ^^ ins))
    (i : Nat) (hi : i < 64) :
    (validEol inside (blockMask cpu.lanes LF (d.take 64)) (blockMask cpu.lanes CR (d.take 64))
      (d.drop 64).head?).getLsbD i = isRowEnd q ins d i := by
  rw [validEol_bit _ _ _ _ i hi, hin i hi, par_blockMask _ cpu.dvd q d i hi,
    blockMask_bit _ cpu.dvd _ _ i hi, blockMask_bit _ cpu.dvd _ _ i hi, List.getElem?_take_of_lt hi]
  have hnext : (if i = 63 then (d.drop 64).head? == some LF else (blockMask cpu.lanes LF (d.take 64)).getLsbD (i + 1))
      = (d[i+1]? == some LF) := by
    by_cases h : i = 63
    · subst h; simp [List.head?_drop]
    · have h64 : i + 1 < 64 := by omega
      rw [if_neg h, blockMask_bit _ cpu.dvd _ _ _ h64, List.getElem?_take_of_lt h64]
  rw [hnext]
  unfold isRowEnd
  rw [insideAt_eq]
  cases hd : d[i]? with
  | none => simp
  | some c =>
    by_cases h1 : c = LF
    · subst h1
      rw [count_take_succ_of_ne q d i LF hd (Ne.symm hq1)]
      rfl
    · by_cases h2 : c = CR
      · subst h2
        rw [count_take_succ_of_ne q d i CR hd (Ne.symm hq2)]
        rfl
      · have e1 : (some c == some LF) = false := by simpa using h1
        have e2 : (some c == some CR) = false := by simpa using h2
        simp only [e1, e2, Bool.false_and, Bool.false_or, Bool.and_false]

theorem filter_range_getLast (f : Nat → Bool) (n m : Nat) (hm : m < n) (h1 : f m = true)
    (h2 : ∀ j, m < j → j < n → f j = false) : ((List.range n).filter f).getLast? = some m := by
  obtain ⟨k, rfl⟩ := Nat.exists_eq_add_of_lt hm
  rw [show m + k + 1 = (m + 1) + k by omega, range_filter_add]
  have : (List.range k).filter (fun i => f (m + 1 + i)) = [] := by
    rw [List.filter_eq_nil_iff]
    intro a ha
    rw [h2 (m + 1 + a) (by omega) (by have := List.mem_range.1 ha; omega)]
    simp
  rw [this, List.range_succ, List.filter_append]
  simp [h1]

theorem filter_range_head (f : Nat → Bool) (n m : Nat) (hm : m < n) (h1 : f m = true)
    (h2 : ∀ j, j < m → f j = false) : ((List.range n).filter f).head? = some m := by
  obtain ⟨k, rfl⟩ := Nat.exists_eq_add_of_lt hm
  rw [show m + k + 1 = m + (1 + k) by omega, range_filter_add]
  have : (List.range m).filter f = [] := by
    rw [List.filter_eq_nil_iff]
    intro a ha
    rw [h2 a (List.mem_range.1 ha)]
    simp
  rw [this, range_filter_add]
  simp [h1]

theorem eq_zero_of_bits (x : U64) : x = 0#64 ↔ ∀ i, i < 64 → x.getLsbD i = false := by
  constructor
  · intro h; subst h; simp
  · intro h
    apply BitVec.eq_of_getLsbD_eq
    intro i hi; simp [h i hi]

theorem clz_last (x : U64) (hx : x ≠ 0#64) :
    ((List.range 64).filter x.getLsbD).getLast? = some (63 - x.clz.toNat) := by
  have h1 := BitVec.getLsbD_true_clz_of_ne_zero (x := x) (by omega) hx
  have h2 := BitVec.toNat_lt_two_pow_sub_clz (x := x)
  apply filter_range_getLast
  · omega
  · exact h1
  · intro j hj _
    rw [BitVec.getLsbD, Nat.testBit_lt_two_pow]
    refine Nat.lt_of_lt_of_le h2 (Nat.pow_le_pow_right (by omega) ?_)
    omega

theorem ctz_head (x : U64) (hx : x ≠ 0#64) :
    ((List.range 64).filter x.getLsbD).head? = some x.ctz.toNat := by
  have h1 := BitVec.getLsbD_true_ctz_of_ne_zero (x := x) hx
  apply filter_range_head
  · by_cases h : x.ctz.toNat < 64
    · exact h
    · rw [BitVec.getLsbD_of_ge _ _ (by omega)] at h1; simp at h1
  · exact h1
  · intro j hj
    exact BitVec.getLsbD_false_of_lt_ctz hj

/-- A mask whose bits are the row ends of the block performs the `upd` accumulation. -/
theorem mask_upd (x : U64) (f : Nat → Bool) (hf : ∀ i, i < 64 → x.getLsbD i = f i) (rows last off : Nat) :
    (rows + popcount x, if x ≠ 0#64 then off + (63 - x.clz.toNat) + 1 else last) =
      upd rows last off ((List.range 64).filter f) := by
  have e : (List.range 64).filter f = (List.range 64).filter x.getLsbD := by
    apply List.filter_congr
    intro i hi; rw [hf i (List.mem_range.1 hi)]
  rw [e]
  unfold upd popcount
  by_cases hx : x = 0#64
  · subst hx
    have : (List.range 64).filter (0#64).getLsbD = [] := by
      rw [List.filter_eq_nil_iff]; intro a _; simp
    rw [this]; rfl
  · rw [if_pos hx, clz_last x hx]; rfl

theorem pf_par (p : PrefixImpl) : ∀ x i, i < 64 → (p.run x).getLsbD i = par x i := by
  cases p
  · exact clmul_bit
  · exact portable_bit

theorem analyzeLoop_spec (cpu : Cpu) (q : UInt8) (hq1 : q ≠ LF) (hq2 : q ≠ CR) (rows last : Nat) (ins : Bool)
    (off : Nat) (rest : Bytes) :
    analyzeLoop cpu q rows last (stateWord ins) off rest =
      ((upd rows last off (rowEnds q ins rest)).1, (upd rows last off (rowEnds q ins rest)).2,
        stateWord (insideAt q ins rest rest.length)) := by
  induction h : rest.length using Nat.strongRecOn generalizing rest rows last ins off with
  | _ n ih =>
  subst h
  rw [analyzeLoop]
  by_cases hlen : 64 ≤ rest.length
  · rw [if_pos hlen]
    obtain ⟨s1, s2⟩ := findQuoteMask_spec cpu.pf.run (pf_par cpu.pf) (blockMask cpu.lanes q (rest.take 64)) ins
    have hbits := validEol_isRowEnd cpu q hq1 hq2 _ ins rest s1
    have hu := mask_upd _ _ hbits rows last off
    rw [Prod.ext_iff] at hu
    simp only at hu ⊢
    rw [s2, hu.1, hu.2, par_blockMask _ cpu.dvd _ _ 63 (by omega), 
      show (oddB (List.count q (List.take (63 + 1) rest)) ^^ ins) = insideAt q ins rest 64 from rfl,
      ih (rest.drop 64).length (by simp; omega) _ _ _ _ _ rfl]
    rw [rowEnds_split q ins rest 64 hlen, upd_append_map, ← insideAt_drop]
    congr 4
    simp; omega
  · rw [if_neg hlen, analyzeTail_spec q hq1 hq2]

theorem upd_zero (q : UInt8) (ins : Bool) (data : Bytes) :
    upd 0 0 0 (rowEnds q ins data) = (Spec.rowCount q ins data, Spec.lastRowEnd q ins data) := by
  unfold upd Spec.rowCount Spec.lastRowEnd
  cases (rowEnds q ins data).getLast? <;> simp

theorem analyzeChunkSimd_spec (cpu : Cpu) (q : UInt8) (hq1 : q ≠ LF) (hq2 : q ≠ CR) (ins : Bool) (data : Bytes) :
    analyzeChunkSimd cpu q ins data =
      (Spec.rowCount q ins data, Spec.lastRowEnd q ins data, insideAt q ins data data.length) := by
  unfold analyzeChunkSimd
  have hsw : (if ins = true then BitVec.allOnes 64 else 0#64) = stateWord ins := rfl
  simp only [hsw]
  split
  · rename_i h
    have : data = [] := List.length_eq_zero_iff.1 h
    subst this
    simp [Spec.rowCount, Spec.lastRowEnd, rowEnds, insideAt_eq, oddB, stateWord_eq_zero]
  · rw [analyzeLoop_spec cpu q hq1 hq2, upd_zero]
    simp only [Prod.mk.injEq, true_and]
    rw [Bool.eq_iff_iff, decide_eq_true_iff, stateWord_ne_zero]

theorem countRowsScalar_spec (q : UInt8) (hq1 : q ≠ LF) (hq2 : q ≠ CR) (data : Bytes) :
    countRowsScalar q data = (Spec.rowCount q false data, Spec.lastRowEnd q false data) := by
  unfold countRowsScalar
  rw [countRowsScalarGo_spec, analyzeTail_spec q hq1 hq2, upd_zero]

/-! ### Dual state -/

theorem dualTail_spec (q : UInt8) (hq1 : q ≠ LF) (hq2 : q ≠ CR) (s : DualStats) (par : Bool) (off : Nat)
    (rest : Bytes) :
    dualTail q s par off rest =
      { rowsOutside := (upd s.rowsOutside s.lastOutside off (rowEnds q par rest)).1
        lastOutside := (upd s.rowsOutside s.lastOutside off (rowEnds q par rest)).2
        rowsInside := (upd s.rowsInside s.lastInside off (rowEnds q (!par) rest)).1
        lastInside := (upd s.rowsInside s.lastInside off (rowEnds q (!par) rest)).2
        endsInside := insideAt q par rest rest.length } := by
  induction rest generalizing s par off with
  | nil => simp [dualTail, rowEnds, upd, insideAt_eq, oddB]
  | cons c rest ih =>
    rw [dualTail, insideAt_length_cons, rowEnds_cons, rowEnds_cons, upd_append_map, upd_append_map]
    by_cases hc : c = q
    · subst hc
      have h1 : (c == LF) = false := by simp [hq1]
      have h2 : (c == CR) = false := by simp [hq2]
      rw [if_pos rfl, ih]
      simp [h1, h2, upd_nil]
    · have hcq : (c == q) = false := by simp [hc]
      by_cases hlf : c = LF
      · subst hlf
        rw [if_neg hc, if_pos rfl]
        cases par
        · rw [if_pos rfl, ih]; simp [hcq, upd]
        · rw [if_neg (by simp), ih]; simp [hcq, upd]
      · have e1 : (c == LF) = false := by simpa using hlf
        by_cases hcr : c = CR
        · subst hcr
          rw [if_neg hc, if_neg hlf, if_pos rfl]
          by_cases hh : rest.head? = some LF
          · rw [if_pos hh, ih]; simp [hcq, hh, upd, hlf]
          · have hne : (rest.head? != some LF) = true := by simpa using hh
            rw [if_neg hh]
            cases par
            · rw [if_pos rfl, ih]; simp [hcq, upd, hh]
            · rw [if_neg (by simp), ih]; simp [hcq, upd, hh]
        · have e2 : (c == CR) = false := by simpa using hcr
          rw [if_neg hc, if_neg hlf, if_neg hcr, ih]
          simp [hcq, e1, e2, upd_nil]

/-- The two masks computed per block in the dual-state loop coincide with `validEol` for the
two opposite quote masks. -/
theorem dual_masks (parity lf cr : U64) (next : Option UInt8) :
    (if cr &&& (1#64 <<< 63) ≠ 0#64 ∧ next = some LF then
      ((lf &&& ~~~parity) ||| (cr &&& ~~~parity &&& ~~~(cr &&& (lf >>> 1)))) &&& ~~~(1#64 <<< 63)
     else (lf &&& ~~~parity) ||| (cr &&& ~~~parity &&& ~~~(cr &&& (lf >>> 1))))
      = (if lf.getLsbD 63 ∧ next = some LF ∧ cr.getLsbD 63 then 
          validEol parity lf cr next &&& ~~~(1#64 <<< 63) else validEol parity lf cr next) := by
  have h63 : (cr &&& (1#64 <<< 63) ≠ 0#64) ↔ cr.getLsbD 63 = true := one_shift_and cr 63 (by omega)
  have hlf64 : lf.getLsbD (1 + 63) = false := BitVec.getLsbD_of_ge _ _ (by omega)
  apply BitVec.eq_of_getLsbD_eq
  intro i hi
  simp only [h63]
  by_cases hi63 : i = 63
  · subst hi63
    have hb : (1#64 <<< 63).getLsbD 63 = true := by decide
    by_cases hn : next = some LF
    · cases hc : cr.getLsbD 63
      · simp only [hc, false_and, and_false, Bool.false_eq_true, if_false, validEol_bit _ _ _ _ 63 hi]
        simp only [BitVec.getLsbD_or, BitVec.getLsbD_and, BitVec.getLsbD_not, hc]
        cases lf.getLsbD 63 <;> cases parity.getLsbD 63 <;> simp
      · simp only [hn, and_self, if_true, BitVec.getLsbD_and, BitVec.getLsbD_not, hb]
        cases hl : lf.getLsbD 63
        · rw [if_neg (by simp), validEol_bit _ _ _ _ 63 hi, hl, hc]
          simp
        · simp
    · simp only [hn, and_false, false_and, if_false, validEol_bit _ _ _ _ 63 hi]
      have hn' : (next == some LF) = false := by simpa using hn
      simp only [BitVec.getLsbD_or, BitVec.getLsbD_and, BitVec.getLsbD_not, BitVec.getLsbD_ushiftRight, hlf64, hn']
      cases lf.getLsbD 63 <;> cases parity.getLsbD 63 <;> cases cr.getLsbD 63 <;> simp
  · have hb : (~~~(1#64 <<< 63)).getLsbD i = true := by
      rw [BitVec.getLsbD_not, one_shift_bit _ _ hi]; simp [hi63, hi]
    have e1 : ∀ (p : Prop) [Decidable p] (x : U64), (if p then x &&& ~~~(1#64 <<< 63) else x).getLsbD i = x.getLsbD i := by
      intro p _ x; split
      · rw [BitVec.getLsbD_and, hb, Bool.and_true]
      · rfl
    rw [e1, e1, validEol_bit _ _ _ _ i hi]
    simp only [hi63, if_false, BitVec.getLsbD_or, BitVec.getLsbD_and, BitVec.getLsbD_not,
      BitVec.getLsbD_ushiftRight, hi, decide_true, Bool.true_and, Nat.add_comm 1]
    cases lf.getLsbD i <;> cases parity.getLsbD i <;> cases cr.getLsbD i <;> cases lf.getLsbD (i+1) <;> rfl

theorem lf_cr_excl (N : Nat) (hN : N ∣ 64) (blk : Bytes) (i : Nat) (hi : i < 64) 
    (h : (blockMask N LF blk).getLsbD i = true) : (blockMask N CR blk).getLsbD i = false := by
  rw [blockMask_bit _ hN _ _ _ hi] at h ⊢
  have := eq_of_beq h
  rw [this]; rfl

theorem dualLoop_spec (cpu : Cpu) (q : UInt8) (hq1 : q ≠ LF) (hq2 : q ≠ CR) (s : DualStats) (par0 : Bool)
    (off : Nat) (rest : Bytes) :
    dualLoop cpu q s (stateWord par0) off rest =
      { rowsOutside := (upd s.rowsOutside s.lastOutside off (rowEnds q par0 rest)).1
        lastOutside := (upd s.rowsOutside s.lastOutside off (rowEnds q par0 rest)).2
        rowsInside := (upd s.rowsInside s.lastInside off (rowEnds q (!par0) rest)).1
        lastInside := (upd s.rowsInside s.lastInside off (rowEnds q (!par0) rest)).2
        endsInside := insideAt q par0 rest rest.length } := by
  induction h : rest.length using Nat.strongRecOn generalizing rest s par0 off with
  | _ n ih =>
  subst h
  rw [dualLoop]
  by_cases hlen : 64 ≤ rest.length
  · rw [if_pos hlen]
    let qm := blockMask cpu.lanes q (rest.take 64)
    let lf := blockMask cpu.lanes LF (rest.take 64)
    let cr := blockMask cpu.lanes CR (rest.take 64)
    let parity := cpu.pf.run qm ^^^ stateWord par0
    have hpb : ∀ i, i < 64 → parity.getLsbD i = (par qm i ^^ par0) := by
      intro i hi
      simp only [parity, BitVec.getLsbD_xor, pf_par cpu.pf qm i hi, stateWord_bit _ _ hi]
    have hnpb : ∀ i, i < 64 → (~~~parity).getLsbD i = (par qm i ^^ !par0) := by
      intro i hi
      rw [BitVec.getLsbD_not, hpb i hi]; simp [hi]
    have hexcl : ¬ (lf.getLsbD 63 = true ∧ (rest.drop 64).head? = some LF ∧ cr.getLsbD 63 = true) := by
      rintro ⟨h1, _, h3⟩
      rw [lf_cr_excl _ cpu.dvd _ 63 (by omega) h1] at h3
      exact absurd h3 (by simp)
    have hout := dual_masks parity lf cr (rest.drop 64).head?
    rw [if_neg hexcl] at hout
    have hins := dual_masks (~~~parity) lf cr (rest.drop 64).head?
    rw [if_neg hexcl] at hins
    simp only [BitVec.not_not] at hins
    have hbo := validEol_isRowEnd cpu q hq1 hq2 parity par0 rest hpb
    have hbi := validEol_isRowEnd cpu q hq1 hq2 (~~~parity) (!par0) rest hnpb
    have huo := mask_upd _ _ hbo s.rowsOutside s.lastOutside off
    have hui := mask_upd _ _ hbi s.rowsInside s.lastInside off
    have hst : parity.sshiftRight 63 = stateWord (insideAt q par0 rest 64) := by
      rw [sshift63, hpb 63 (by omega), par_blockMask _ cpu.dvd _ _ 63 (by omega)]; rfl
    simp only [parity, lf, cr, qm] at hout hins huo hui hst
    rw [Prod.ext_iff] at huo hui
    simp only at huo hui ⊢
    rw [hout, hins, huo.1, huo.2, hui.1, hui.2, hst, ih (rest.drop 64).length (by simp; omega) _ _ _ _ rfl]
    have hneg : (!insideAt q par0 rest 64) = insideAt q (!par0) rest 64 := by
      simp only [insideAt_eq]; cases oddB (List.count q (rest.take 64)) <;> cases par0 <;> rfl
    rw [rowEnds_split q par0 rest 64 hlen, upd_append_map, rowEnds_split q (!par0) rest 64 hlen, upd_append_map,
      ← insideAt_drop, hneg]
    have : 64 + (rest.drop 64).length = rest.length := by simp; omega
    rw [this]
  · rw [if_neg hlen]
    have : decide (stateWord par0 ≠ 0#64) = par0 := by
      rw [Bool.eq_iff_iff, decide_eq_true_iff, stateWord_ne_zero]
    rw [this, dualTail_spec q hq1 hq2]

theorem analyzeDual_spec (cpu : Cpu) (q : UInt8) (hq1 : q ≠ LF) (hq2 : q ≠ CR) (data : Bytes) :
    analyzeDual cpu q data =
      { rowsOutside := Spec.rowCount q false data, lastOutside := Spec.lastRowEnd q false data
        rowsInside := Spec.rowCount q true data, lastInside := Spec.lastRowEnd q true data
        endsInside := insideAt q false data data.length } := by
  unfold analyzeDual
  split
  · rename_i h
    have : data = [] := List.length_eq_zero_iff.1 h
    subst this
    simp [Spec.rowCount, Spec.lastRowEnd, rowEnds, insideAt_eq, oddB]
  · rw [show (0#64) = stateWord false from rfl, dualLoop_spec cpu q hq1 hq2]
    simp only [Bool.not_false, upd_zero]

/-! ### Row end search -/

/-- Offset after the first row end in `E`, or `size`. -/
def firstEnd (off size : Nat) (E : List Nat) : Nat := (E.head?.map (fun i => off + i + 1)).getD size

theorem firstEnd_append_map (off size k : Nat) (E1 E2 : List Nat) :
    firstEnd off size (E1 ++ E2.map (k + ·)) =
      match E1.head? with | some i => off + i + 1 | none => firstEnd (off + k) size E2 := by
  unfold firstEnd
  cases E1 with
  | nil => simp only [List.nil_append, List.head?_map, List.head?_nil, Option.map_map]
           congr 2; funext i; simp; omega
  | cons a E1 => simp

theorem findRowEndGo_spec (q : UInt8) (hq1 : q ≠ LF) (hq2 : q ≠ CR) (inq : Bool) (off : Nat) (rest : Bytes) :
    findRowEndGo q inq off rest = firstEnd off (off + rest.length) (rowEnds q inq rest) := by
  induction h : rest.length using Nat.strongRecOn generalizing rest inq off with
  | _ n ih =>
  subst h
  cases rest with
  | nil => rw [findRowEndGo]; simp [rowEnds, firstEnd]
  | cons c rest =>
    have key := fun inq off => ih rest.length (by simp) inq off rest rfl
    have hl : off + (c :: rest).length = off + 1 + rest.length := by simp; omega
    rw [findRowEndGo, rowEnds_cons, firstEnd_append_map, hl]
    by_cases hc : c = q
    · subst hc
      have h1 : (c == LF) = false := by simp [hq1]
      have h2 : (c == CR) = false := by simp [hq2]
      simp only [h1, h2, if_true, BEq.rfl, Bool.true_xor, Bool.false_and, Bool.false_or, Bool.and_false,
        Bool.false_eq_true, if_false, List.head?_nil]
      split
      · rename_i hesc
        obtain ⟨hi, hh⟩ := hesc
        subst hi
        cases rest with
        | nil => simp at hh
        | cons d rest2 =>
          simp only [List.head?_cons, Option.some.injEq] at hh
          subst hh
          rw [List.drop_one, List.tail_cons, ih rest2.length (by simp; omega) _ _ rest2 rfl, rowEnds_cons,
            firstEnd_append_map]
          simp [hq1, hq2]
          congr 1; omega
      · rw [key]
    · have hcq : (c == q) = false := by simp [hc]
      simp only [hc, if_false, hcq, Bool.false_xor]
      cases inq with
      | true => simp [key]
      | false =>
        simp only [if_true, Bool.not_false, Bool.true_and]
        by_cases hlf : c = LF
        · subst hlf; simp
        · have e1 : (c == LF) = false := by simpa using hlf
          by_cases hcr : c = CR
          · subst hcr
            by_cases hh : rest.head? = some LF
            · cases rest with
              | nil => simp at hh
              | cons d rest2 =>
                simp only [List.head?_cons, Option.some.injEq] at hh
                subst hh
                have : firstEnd (off + 1) (off + 1 + (LF :: rest2).length) (rowEnds q false (LF :: rest2)) = off + 2 := by
                  rw [rowEnds_cons, firstEnd_append_map]; simp
                have e3 : (CR == LF) = false := rfl
                simp only [hlf, e3, if_true, if_false, List.head?_cons, bne_self_eq_false, Bool.and_false,
                  Bool.false_or, Bool.false_eq_true, List.head?_nil, this]
            · have hne : (rest.head? != some LF) = true := by simpa using hh
              simp [hh]
          · have e2 : (c == CR) = false := by simpa using hcr
            simp [hlf, hcr, key]

theorem rowEndLoop_spec (cpu : Cpu) (q : UInt8) (hq1 : q ≠ LF) (hq2 : q ≠ CR) (inq : Bool) (off : Nat) (rest : Bytes) :
    rowEndLoop cpu q (stateWord inq) off rest = firstEnd off (off + rest.length) (rowEnds q inq rest) := by
  induction h : rest.length using Nat.strongRecOn generalizing rest inq off with
  | _ n ih =>
  subst h
  rw [rowEndLoop]
  by_cases hlen : 64 ≤ rest.length
  · rw [if_pos hlen]
    obtain ⟨s1, s2⟩ := findQuoteMask_spec cpu.pf.run (pf_par cpu.pf) (blockMask cpu.lanes q (rest.take 64)) inq
    have hbits := validEol_isRowEnd cpu q hq1 hq2 _ inq rest s1
    rw [rowEnds_split q inq rest 64 hlen, firstEnd_append_map]
    dsimp only
    have e : (List.range 64).filter (isRowEnd q inq rest) = (List.range 64).filter
        (validEol (findQuoteMask cpu.pf.run (blockMask cpu.lanes q (rest.take 64)) (stateWord inq)).1
          (blockMask cpu.lanes LF (rest.take 64)) (blockMask cpu.lanes CR (rest.take 64))
          (rest.drop 64).head?).getLsbD := by
      apply List.filter_congr
      intro i hi; rw [hbits i (List.mem_range.1 hi)]
    generalize hx : validEol (findQuoteMask cpu.pf.run (blockMask cpu.lanes q (rest.take 64)) (stateWord inq)).1
          (blockMask cpu.lanes LF (rest.take 64)) (blockMask cpu.lanes CR (rest.take 64))
          (rest.drop 64).head? = x at *
    by_cases hx0 : x = 0#64
    · have hnil : (List.range 64).filter (isRowEnd q inq rest) = [] := by
        rw [e, hx0, List.filter_eq_nil_iff]; intro a _; simp
      simp only [hx0, hnil, ne_eq, not_true_eq_false, if_false, List.head?_nil]
      rw [s2, par_blockMask _ cpu.dvd _ _ 63 (by omega), 
        show (oddB (List.count q (List.take (63 + 1) rest)) ^^ inq) = insideAt q inq rest 64 from rfl,
        ih (rest.drop 64).length (by simp; omega) _ _ _ rfl]
      congr 1
      simp; omega
    · rw [e, ctz_head x hx0]
      have hm : x.ctz.toNat ∈ (List.range 64).filter x.getLsbD := List.mem_of_head? (ctz_head x hx0)
      rw [← e, List.mem_filter] at hm
      obtain ⟨_, hm⟩ := hm
      unfold isRowEnd at hm
      simp only [ne_eq, hx0, not_false_eq_true, if_true]
      by_cases h1 : rest[x.ctz.toNat]? = some LF
      · simp [h1]
      · have h1' : (rest[x.ctz.toNat]? == some 10) = false := by simpa using h1
        have h2 : ¬ rest[x.ctz.toNat + 1]? = some LF := by
          rw [h1'] at hm
          simp at hm
          exact hm.2.2
        simp [h1, h2]
  · rw [if_neg hlen]
    have : decide (stateWord inq ≠ 0#64) = inq := by
      rw [Bool.eq_iff_iff, decide_eq_true_iff, stateWord_ne_zero]
    rw [this, findRowEndGo_spec q hq1 hq2]

theorem rowEndPrefix_spec (cpu : Cpu) (q : UInt8) (hq1 : q ≠ LF) (hq2 : q ≠ CR) (al : Nat) (inq : Bool) (off : Nat)
    (rest : Bytes) :
    rowEndPrefix cpu q al inq off rest = findRowEndGo q inq off rest := by
  induction h : rest.length using Nat.strongRecOn generalizing rest inq off with
  | _ n ih =>
  subst h
  have hsw : (if inq = true then BitVec.allOnes 64 else 0#64) = stateWord inq := rfl
  rw [rowEndPrefix.eq_def]
  rw [hsw]
  split
  · cases rest with
    | nil => simp only []; rw [rowEndLoop_spec cpu q hq1 hq2, findRowEndGo_spec q hq1 hq2]
    | cons c rest =>
      rw [findRowEndGo]
      simp only []
      rw [ih (rest.drop 1).length (by simp; omega) _ _ _ rfl, ih rest.length (by simp) _ _ _ rfl,
        ih rest.length (by simp) _ _ _ rfl]
  · rw [rowEndLoop_spec cpu q hq1 hq2, findRowEndGo_spec q hq1 hq2]

end Vroom
