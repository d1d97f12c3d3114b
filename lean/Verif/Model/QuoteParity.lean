/-
Model of the quote-parity primitives.
Sources: /repo/src/parser/quote_parity.cpp, /repo/src/parser/quote_parity-inl.h
-/
namespace Vroom

/-- `uint64_t` (quote_parity-inl.h:18-54). -/
abbrev U64 := BitVec 64

/-- `portable_prefix_xorsum_inclusive` (quote_parity.cpp:36-47) and
`PortablePrefixXorsum` (quote_parity-inl.h:17-22):
`for (i = 0; i < 6; i++) x ^= x << (1 << i)`. -/
def portablePrefixXor (x : U64) : U64 :=
  (List.range 6).foldl (fun x i => x ^^^ (x <<< (1 <<< i))) x

/-- `hn::CLMulLower` (low 64 bits of the carry-less product), as used in
quote_parity-inl.h:30-38.  The instruction is modelled by the schoolbook
carry-less multiplication. -/
def clmulLow (a b : U64) : U64 :=
  (List.range 64).foldl (fun acc j => if b.getLsbD j then acc ^^^ (a <<< j) else acc) 0#64

/-- `PrefixXorsumInclusiveImpl` on CLMUL targets (quote_parity-inl.h:30-38). -/
def clmulPrefixXor (x : U64) : U64 := clmulLow x (BitVec.allOnes 64)

/-- The prefix-xor implementations among which Highway's dispatch chooses
(quote_parity-inl.h:26-39). -/
inductive PrefixImpl | clmul | portable

/-- Dispatch (quote_parity-inl.h:26-39). -/
def PrefixImpl.run : PrefixImpl → U64 → U64
  | .clmul => clmulPrefixXor
  | .portable => portablePrefixXor

/-- `FindQuoteMaskImpl` (quote_parity-inl.h:42-54), parametric in the prefix-xor
implementation chosen at run time by Highway's dispatch.  Returns the mask and
the updated `prev_iter_inside_quote`. -/
def findQuoteMask (prefixXor : U64 → U64) (bits prev : U64) : U64 × U64 :=
  let mask := prefixXor bits ^^^ prev
  (mask, mask.sshiftRight 63)

/-- Loop body of `scalar_find_quote_mask` (quote_parity.cpp:55-60);
state is `(quote_mask, state)`. -/
def scalarQuoteStep (bits : U64) (s : U64 × U64) (i : Nat) : U64 × U64 :=
  let st := if bits &&& (1#64 <<< i) ≠ 0#64 then s.2 ^^^ 1#64 else s.2
  (s.1 ||| (st <<< i), st)

/-- `scalar_find_quote_mask` (quote_parity.cpp:51-63). -/
def scalarFindQuoteMask (bits prev : U64) : U64 :=
  ((List.range 64).foldl (scalarQuoteStep bits) (0#64, prev &&& 1#64)).1

/-- Successive calls of `find_quote_mask` over the blocks of a stream, threading
the state exactly as the callers do (simd_chunk_finder.cpp:108, 431). -/
def quoteMasks (prefixXor : U64 → U64) (prev : U64) : List U64 → List U64
  | [] => []
  | b :: bs =>
    let r := findQuoteMask prefixXor b prev
    r.1 :: quoteMasks prefixXor r.2 bs

end Vroom
