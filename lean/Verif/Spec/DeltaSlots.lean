import Verif.Spec.DeltaGap
/-
Specification for C31: what is left of each difference of a DELTA_BINARY_PACKED section when the slots are written
through an accumulator of 64 bits.  A slot that begins in the middle of a byte shares the accumulator with the bits
pending before it; whatever does not fit into the remaining bits is lost.
-/
namespace Vroom.Spec

/-- Smallest difference of the block (128 differences) that holds difference `i`. -/
def blockMin (ds : List Int) (i : Nat) : Int := least ((ds.drop (i / 128 * 128)).take 128)

/-- Width of the slot of difference `i`: that of the largest adjusted difference of its miniblock (32 differences). -/
def slotWidth (ds : List Int) (i : Nat) : Nat :=
  binDigits ((((ds.drop (i / 32 * 32)).take 32).map (fun d => (d - blockMin ds i).toNat)).foldl max 0)

/-- Bits of the accumulator left for the slot of difference `i`: 64 minus the bits of the last unfinished byte. -/
def slotRoom (ds : List Int) (i : Nat) : Nat := 64 - i % 32 * slotWidth ds i % 8

/-- The differences as they are stored. -/
def storedDiffs (ds : List Int) : List Int :=
  ds.mapIdx (fun i d => blockMin ds i + (((d - blockMin ds i).toNat % 2 ^ slotRoom ds i : Nat) : Int))

/-- No slot loses bits. -/
def SlotsFit (ds : List Int) : Prop := ∀ (i : Nat) (d : Int), ds[i]? = some d → d - blockMin ds i < 2 ^ slotRoom ds i

end Vroom.Spec
