import Verif.Model.QuoteParity
import Verif.Spec.QuoteParity
namespace Vroom

/-- xor of bits `i, i-1, ..., i-n+1` (those that exist). -/
def xr (x : U64) (i : Nat) : Nat → Bool
  | 0 => false
  | n + 1 => xr x i n ^^ (decide (n ≤ i) && x.getLsbD (i - n))

theorem xr_add (x : U64) (i n m : Nat) :
    xr x i (n + m) = (xr x i n ^^ (decide (n ≤ i) && xr x (i - n) m)) := by
  induction m with
  | zero => simp [xr]
  | succ m ih =>
    rw [← Nat.add_assoc, xr, ih, xr]
    by_cases h : n ≤ i
    · by_cases h2 : n + m ≤ i
      · have : m ≤ i - n := by omega
        simp [h, h2, this, Nat.sub_sub]
      · have : ¬ m ≤ i - n := by omega
        simp [h, h2, this]
    · have : ¬ n + m ≤ i := by omega
      simp [h, this]

theorem xr_stable (x : U64) (i n : Nat) (h : i < n) : xr x i n = xr x i (i + 1) := by
  obtain ⟨k, rfl⟩ := Nat.exists_eq_add_of_lt h
  rw [show i + k + 1 = (i + 1) + k by omega, xr_add]
  have : ¬ (i + 1 ≤ i) := by omega
  simp [this]

/-- parity of set bits among `0..i`. -/
def par (x : U64) : Nat → Bool
  | 0 => x.getLsbD 0
  | i + 1 => par x i ^^ x.getLsbD (i + 1)

theorem xr_full (x : U64) (i : Nat) : xr x i (i + 1) = par x i := by
  induction i with
  | zero => simp [xr, par]
  | succ i ih =>
    rw [show i + 1 + 1 = 1 + (i + 1) by omega, xr_add, show i + 1 - 1 = i by omega, ih, par, Bool.xor_comm]
    simp [xr]

theorem portable_step (x y : U64) (n : Nat) 
    (h : ∀ i, i < 64 → y.getLsbD i = xr x i n) :
    ∀ i, i < 64 → (y ^^^ (y <<< n)).getLsbD i = xr x i (n + n) := by
  intro i hi
  rw [xr_add, BitVec.getLsbD_xor, BitVec.getLsbD_shiftLeft, h i hi]
  by_cases hn : n ≤ i
  · have h1 : ¬ i < n := by omega
    have h2 : i - n < 64 := by omega
    simp [hi, hn, h1, h _ h2]
  · have h1 : i < n := by omega
    simp [hn, h1]

theorem portable_bit (x : U64) (i : Nat) (hi : i < 64) :
    (portablePrefixXor x).getLsbD i = par x i := by
  have h0 : ∀ i, i < 64 → x.getLsbD i = xr x i 1 := by intro i _; simp [xr]
  have h1 := portable_step x _ 1 h0
  have h2 := portable_step x _ 2 h1
  have h3 := portable_step x _ 4 h2
  have h4 := portable_step x _ 8 h3
  have h5 := portable_step x _ 16 h4
  have h6 := portable_step x _ 32 h5
  have := h6 i hi
  rw [xr_stable x i _ (by omega), xr_full] at this
  rw [← this]
  rfl

theorem clmul_fold (x : U64) (n i : Nat) (hi : i < 64) (hn : n ≤ 64) :
    ((List.range n).foldl (fun acc j => if (BitVec.allOnes 64).getLsbD j then acc ^^^ (x <<< j) else acc)
      0#64).getLsbD i = xr x i n := by
  induction n with
  | zero => simp [xr]
  | succ n ih =>
    rw [List.range_succ, List.foldl_append]
    have hlt : n < 64 := by omega
    simp only [List.foldl_cons, List.foldl_nil, BitVec.getLsbD_allOnes, hlt, decide_true, if_true,
      BitVec.getLsbD_xor, BitVec.getLsbD_shiftLeft]
    have ih' := ih (by omega)
    simp only [BitVec.getLsbD_allOnes] at ih'
    rw [ih', xr]
    by_cases h : n ≤ i
    · have : ¬ i < n := by omega
      simp [h, this, hi]
    · have : i < n := by omega
      simp [h, this]

theorem clmul_bit (x : U64) (i : Nat) (hi : i < 64) :
    (clmulPrefixXor x).getLsbD i = par x i := by
  unfold clmulPrefixXor clmulLow
  rw [clmul_fold x 64 i hi (by omega), xr_stable x i 64 hi, xr_full]

theorem clmul_eq_portable : clmulPrefixXor = portablePrefixXor := by
  funext x
  apply BitVec.eq_of_getLsbD_eq
  intro i hi
  rw [clmul_bit x i hi, portable_bit x i hi]

theorem stateWord_bit (b : Bool) (i : Nat) (hi : i < 64) : (Spec.stateWord b).getLsbD i = b := by
  unfold Spec.stateWord
  cases b
  · simp
  · rw [if_pos rfl, BitVec.getLsbD_allOnes]; simp [hi]

theorem sshift63 (m : U64) : m.sshiftRight 63 = Spec.stateWord (m.getLsbD 63) := by
  apply BitVec.eq_of_getLsbD_eq
  intro i hi
  rw [stateWord_bit _ _ hi, BitVec.getLsbD_sshiftRight]
  by_cases h : 63 + i < 64
  · have : i = 0 := by omega
    subst this; simp
  · simp [h, BitVec.msb, BitVec.getMsbD]; omega

/-- bits and next state of one `find_quote_mask` call. -/
theorem findQuoteMask_spec (p : U64 → U64) (hp : ∀ x i, i < 64 → (p x).getLsbD i = par x i)
    (bits : U64) (ins : Bool) :
    (∀ i, i < 64 → (findQuoteMask p bits (Spec.stateWord ins)).1.getLsbD i = (par bits i ^^ ins)) ∧
    (findQuoteMask p bits (Spec.stateWord ins)).2 = Spec.stateWord (par bits 63 ^^ ins) := by
  have h1 : ∀ i, i < 64 → (findQuoteMask p bits (Spec.stateWord ins)).1.getLsbD i = (par bits i ^^ ins) := by
    intro i hi
    simp [findQuoteMask, hp bits i hi, stateWord_bit _ _ hi]
  refine ⟨h1, ?_⟩
  have : (findQuoteMask p bits (Spec.stateWord ins)).2 =
      (findQuoteMask p bits (Spec.stateWord ins)).1.sshiftRight 63 := rfl
  rw [this, sshift63, h1 63 (by omega)]

def bw (b : Bool) : U64 := if b then 1#64 else 0#64

theorem one_shift_and (bits : U64) (i : Nat) (hi : i < 64) :
    (bits &&& (1#64 <<< i) ≠ 0#64) ↔ bits.getLsbD i = true := by
  constructor
  · intro h
    cases hb : bits.getLsbD i with
    | true => rfl
    | false =>
      exfalso; apply h
      apply BitVec.eq_of_getLsbD_eq
      intro j hj
      simp only [BitVec.getLsbD_and, BitVec.getLsbD_shiftLeft, BitVec.getLsbD_one]
      by_cases hij : j = i
      · subst hij; simp [hb]
      · have : j < i ∨ ¬ j - i = 0 := by omega
        rcases this with h | h
        · simp [h]
        · simp [h]
  · intro h h0
    have := congrArg (fun v => v.getLsbD i) h0
    rw [BitVec.getLsbD_and, h, BitVec.getLsbD_shiftLeft] at this
    simp [hi] at this

/-- parity of set bits strictly below `n`. -/
def parBefore (x : U64) : Nat → Bool
  | 0 => false
  | n + 1 => par x n

theorem par_eq_parBefore (x : U64) (n : Nat) : par x n = (parBefore x n ^^ x.getLsbD n) := by
  cases n <;> simp [par, parBefore]

theorem scalar_fold (bits : U64) (ins : Bool) (n : Nat) (hn : n ≤ 64) :
    (∀ i, i < 64 → ((List.range n).foldl (scalarQuoteStep bits) (0#64, bw ins)).1.getLsbD i =
      (decide (i < n) && (par bits i ^^ ins))) ∧
    ((List.range n).foldl (scalarQuoteStep bits) (0#64, bw ins)).2 =
      bw (parBefore bits n ^^ ins) := by
  induction n with
  | zero => simp [parBefore]
  | succ n ih =>
    obtain ⟨ih1, ih2⟩ := ih (by omega)
    rw [List.range_succ, List.foldl_append]
    have hst : (scalarQuoteStep bits ((List.range n).foldl (scalarQuoteStep bits) (0#64, bw ins)) n).2
        = bw (par bits n ^^ ins) := by
      simp only [scalarQuoteStep]
      rw [ih2]
      have hb := one_shift_and bits n (by omega)
      rw [par_eq_parBefore]
      cases hq : bits.getLsbD n
      · rw [if_neg (fun h => by simp [hb.1 h] at hq)]
        simp
      · rw [if_pos (hb.2 hq)]
        cases parBefore bits n <;> cases ins <;> decide
    refine ⟨?_, hst⟩
    intro i hi
    simp only [List.foldl_cons, List.foldl_nil]
    have e : (scalarQuoteStep bits ((List.range n).foldl (scalarQuoteStep bits) (0#64, bw ins)) n).1 =
      ((List.range n).foldl (scalarQuoteStep bits) (0#64, bw ins)).1 |||
      ((scalarQuoteStep bits ((List.range n).foldl (scalarQuoteStep bits) (0#64, bw ins)) n).2 <<< n) := rfl
    rw [e, hst, BitVec.getLsbD_or, ih1 i hi, BitVec.getLsbD_shiftLeft]
    by_cases h1 : i < n
    · have : i < n + 1 := by omega
      simp [h1, this]
    · by_cases h2 : i = n
      · subst h2
        simp [hi]
        cases h : (par bits i ^^ ins) <;> simp [bw]
      · have h3 : ¬ i < n + 1 := by omega
        have h4 : i - n ≠ 0 := by omega
        simp only [h1, h3, hi, decide_false, decide_true, Bool.false_and, Bool.false_or, Bool.not_false,
          Bool.true_and]
        cases h : (par bits n ^^ ins) <;> simp [bw, h4]

theorem par_count (x : U64) (i : Nat) :
    par x i = decide (((List.range (i+1)).filter x.getLsbD).length % 2 = 1) := by
  induction i with
  | zero => cases h : x.getLsbD 0 <;> simp only [List.range_succ, List.range_zero, List.nil_append,
      List.filter_cons, h, par, List.filter_nil] <;> decide
  | succ i ih =>
    rw [List.range_succ, List.filter_append, List.length_append, par, ih]
    cases h : x.getLsbD (i+1)
    · simp only [List.filter_cons, h]; simp
    · simp only [List.filter_cons, h, if_true, List.filter_nil, List.length_cons, List.length_nil]
      generalize (List.filter x.getLsbD (List.range (i + 1))).length = k
      by_cases hk : k % 2 = 1
      · have : ¬ (k + (0 + 1)) % 2 = 1 := by omega
        simp only [hk, this]; decide
      · have : (k + (0 + 1)) % 2 = 1 := by omega
        simp only [hk, this]; decide

theorem scalarFindQuoteMask_bit (bits : U64) (prev : U64) (i : Nat) (hi : i < 64) :
    (scalarFindQuoteMask bits prev).getLsbD i = (par bits i ^^ prev.getLsbD 0) := by
  unfold scalarFindQuoteMask
  have : prev &&& 1#64 = bw (prev.getLsbD 0) := by
    apply BitVec.eq_of_getLsbD_eq
    intro j hj
    rw [BitVec.getLsbD_and, BitVec.getLsbD_one]
    by_cases h : j = 0
    · subst h; cases h : prev.getLsbD 0 <;> simp only [bw, Bool.false_and] <;> decide
    · cases h2 : prev.getLsbD 0 <;> simp [bw, h]
  rw [this, (scalar_fold bits _ 64 (by omega)).1 i hi]
  simp [hi]

theorem streamBit_cons_lt (b : BitVec 64) (bs : List (BitVec 64)) (p : Nat) (h : p < 64) :
    Spec.streamBit (b :: bs) p = b.getLsbD p := by
  unfold Spec.streamBit
  rw [Nat.div_eq_of_lt h, Nat.mod_eq_of_lt h]; rfl

theorem streamBit_cons_ge (b : BitVec 64) (bs : List (BitVec 64)) (p : Nat) :
    Spec.streamBit (b :: bs) (64 + p) = Spec.streamBit bs p := by
  unfold Spec.streamBit
  rw [show (64 + p) / 64 = p / 64 + 1 by omega, show (64 + p) % 64 = p % 64 by omega]; rfl

theorem range_add_filter (f : Nat → Bool) (n m : Nat) :
    ((List.range (n + m)).filter f).length =
      ((List.range n).filter f).length + ((List.range m).filter (fun i => f (n + i))).length := by
  rw [List.range_add, List.filter_append, List.length_append, List.filter_map, List.length_map]
  rfl

theorem quotesUpTo_cons_ge (b : BitVec 64) (bs : List (BitVec 64)) (p : Nat) :
    Spec.quotesUpTo (b :: bs) (64 + p) =
      ((List.range 64).filter b.getLsbD).length + Spec.quotesUpTo bs p := by
  unfold Spec.quotesUpTo
  rw [show 64 + p + 1 = 64 + (p + 1) by omega, range_add_filter]
  have h1 : (List.range 64).filter (Spec.streamBit (b :: bs)) = (List.range 64).filter b.getLsbD := by
    apply List.filter_congr
    intro x hx
    exact streamBit_cons_lt b bs x (List.mem_range.1 hx)
  rw [h1]
  simp only [streamBit_cons_ge]

theorem quotesUpTo_cons_lt (b : BitVec 64) (bs : List (BitVec 64)) (p : Nat) (h : p < 64) :
    decide (Spec.quotesUpTo (b :: bs) p % 2 = 1) = par b p := by
  rw [par_count]
  unfold Spec.quotesUpTo
  have h1 : (List.range (p+1)).filter (Spec.streamBit (b :: bs)) = (List.range (p+1)).filter b.getLsbD := by
    apply List.filter_congr
    intro x hx
    exact streamBit_cons_lt b bs x (by have := List.mem_range.1 hx; omega)
  rw [h1]

theorem decide_parity_add (a b : Nat) :
    decide ((a + b) % 2 = 1) = (decide (a % 2 = 1) ^^ decide (b % 2 = 1)) := by
  by_cases ha : a % 2 = 1 <;> by_cases hb : b % 2 = 1
  · have : ¬ (a + b) % 2 = 1 := by omega
    simp [ha, hb, this]
  · have : (a + b) % 2 = 1 := by omega
    simp [ha, hb, this]
  · have : (a + b) % 2 = 1 := by omega
    simp [ha, hb, this]
  · have : ¬ (a + b) % 2 = 1 := by omega
    simp [ha, hb, this]

theorem quoteMasks_spec (pf : U64 → U64) (hp : ∀ x i, i < 64 → (pf x).getLsbD i = par x i)
    (blocks : List U64) (ins : Bool) (p : Nat) (hlt : p < 64 * blocks.length) :
    Spec.streamBit (quoteMasks pf (Spec.stateWord ins) blocks) p =
      (decide (Spec.quotesUpTo blocks p % 2 = 1) ^^ ins) := by
  induction blocks generalizing ins p with
  | nil => simp at hlt
  | cons b bs ih =>
    obtain ⟨h1, h2⟩ := findQuoteMask_spec pf hp b ins
    simp only [quoteMasks]
    by_cases h : p < 64
    · rw [streamBit_cons_lt _ _ _ h, quotesUpTo_cons_lt _ _ _ h, h1 p h]
    · obtain ⟨k, rfl⟩ := Nat.exists_eq_add_of_le (Nat.not_lt.1 h)
      rw [streamBit_cons_ge, h2, ih _ _ (by simp at hlt; omega), quotesUpTo_cons_ge,
        decide_parity_add, ← par_count b 63]
      cases decide (Spec.quotesUpTo bs k % 2 = 1) <;> cases par b 63 <;> cases ins <;> rfl

end Vroom
