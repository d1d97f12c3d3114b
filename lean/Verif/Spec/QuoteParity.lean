/-
Specification of quote parity, with no reference to the model.
A stream of blocks is a list of 64-bit words, word `k` bit `j` telling whether
byte `64*k + j` is a quote.
-/
namespace Vroom.Spec

/-- Is byte number `p` of the stream a quote? -/
def streamBit (blocks : List (BitVec 64)) (p : Nat) : Bool :=
  (blocks.getD (p / 64) 0#64).getLsbD (p % 64)

/-- Number of quotes among bytes `0 .. p` inclusive. -/
def quotesUpTo (blocks : List (BitVec 64)) (p : Nat) : Nat :=
  ((List.range (p + 1)).filter (streamBit blocks)).length

/-- State word for "inside a quote" / "outside". -/
def stateWord (inside : Bool) : BitVec 64 :=
  if inside then BitVec.allOnes 64 else 0#64

end Vroom.Spec
