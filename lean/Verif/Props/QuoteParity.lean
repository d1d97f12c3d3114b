import Verif.Lemmas.QuoteParity
/-
C01: the quote mask is the running quote parity; all implementations agree.
-/
namespace Vroom

/-- C01, every stream of blocks, every implementation, both initial states: the bit
of byte `p` in the produced masks is set iff the number of quotes in bytes `0..p` is
odd (even, when the stream starts inside a quote). -/
theorem C01_quote_mask_is_parity (impl : PrefixImpl) (blocks : List (BitVec 64)) (inside : Bool)
    (p : Nat) (hp : p < 64 * blocks.length) :
    Spec.streamBit (quoteMasks impl.run (Spec.stateWord inside) blocks) p =
      ((Spec.quotesUpTo blocks p % 2 == 1) != inside) := by
  have h : ∀ x i, i < 64 → (impl.run x).getLsbD i = par x i := by
    cases impl
    · exact clmul_bit
    · exact portable_bit
  rw [quoteMasks_spec impl.run h blocks inside p hp]
  cases inside <;> simp [BEq.beq]

/-- One mask per block. -/
theorem C01_one_mask_per_block (impl : PrefixImpl) (blocks : List (BitVec 64)) (inside : Bool) :
    (quoteMasks impl.run (Spec.stateWord inside) blocks).length = blocks.length := by
  generalize Spec.stateWord inside = s
  induction blocks generalizing s with
  | nil => rfl
  | cons b bs ih => simp [quoteMasks, ih]

/-- C01: the state handed to the next block is all-ones iff an odd number of quotes was
seen so far in this block (relative to the start state), else zero: no third value. -/
theorem C01_carried_state (impl : PrefixImpl) (bits : BitVec 64) (inside : Bool) :
    (findQuoteMask impl.run bits (Spec.stateWord inside)).2 =
      Spec.stateWord ((((List.range 64).filter bits.getLsbD).length % 2 == 1) != inside) := by
  have h : ∀ x i, i < 64 → (impl.run x).getLsbD i = par x i := by
    cases impl
    · exact clmul_bit
    · exact portable_bit
  rw [(findQuoteMask_spec impl.run h bits inside).2, par_count]
  cases inside <;> simp [BEq.beq]

/-- C01: CLMUL and the doubling trick are the same function on all 2^64 words. -/
theorem C01_clmul_eq_portable (x : BitVec 64) :
    PrefixImpl.clmul.run x = PrefixImpl.portable.run x := by
  rw [show PrefixImpl.clmul.run x = clmulPrefixXor x from rfl, clmul_eq_portable]; rfl

/-- C01: the bit-loop reference equals the vector version on every word and state. -/
theorem C01_scalar_eq_simd (impl : PrefixImpl) (bits : BitVec 64) (inside : Bool) :
    scalarFindQuoteMask bits (Spec.stateWord inside) =
      (findQuoteMask impl.run bits (Spec.stateWord inside)).1 := by
  have h : ∀ x i, i < 64 → (impl.run x).getLsbD i = par x i := by
    cases impl
    · exact clmul_bit
    · exact portable_bit
  apply BitVec.eq_of_getLsbD_eq
  intro i hi
  rw [(findQuoteMask_spec impl.run h bits inside).1 i hi, scalarFindQuoteMask_bit _ _ _ hi,
    stateWord_bit _ _ (by omega)]

/-- Non-vacuity: a two-block stream whose quote opens in the first block and closes in the
second; the byte in between is inside, the one after outside. -/
example :
    Spec.streamBit (quoteMasks PrefixImpl.portable.run (Spec.stateWord false) [4#64, 2#64]) 64 = true ∧
    Spec.streamBit (quoteMasks PrefixImpl.clmul.run (Spec.stateWord false) [4#64, 2#64]) 66 = false ∧
    66 < 64 * [4#64, 2#64].length := by decide

end Vroom
