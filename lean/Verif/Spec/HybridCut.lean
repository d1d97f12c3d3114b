/-
Specification for C29/C28: how the streaming hybrid encoder cuts a list of values, and what a reader makes of the cuts.
Nothing here mentions the encoder's state.
-/
namespace Vroom.Spec

/-- The list starts with eight equal values. -/
def longRun (l : List UInt32) : Bool :=
  match l with
  | [] => false
  | v :: _ => l.take 8 == List.replicate 8 v

/-- Position of the first eight equal values in a row (the length of the list if there are none). -/
def firstRun : List UInt32 → Nat
  | [] => 0
  | v :: t => if longRun (v :: t) then 0 else 1 + firstRun t

/-- How many values at the front are equal to the first. -/
def equalPrefix : List UInt32 → Nat
  | [] => 0
  | v :: t => 1 + (t.takeWhile (· == v)).length

/-- Length of the first piece: a long run (at most 64 values of it), or all values before the first long run if that run's first eight values lie within the next 64, or the next 64 values. -/
def hybridCut (l : List UInt32) : Nat :=
  if longRun l then min 64 (equalPrefix l)
  else if firstRun l < l.length ∧ firstRun l + 8 ≤ 64 then firstRun l
  else min 64 l.length

theorem firstRun_pos {l : List UInt32} (hl : l ≠ []) (h : longRun l = false) : 0 < firstRun l := by
  cases l with
  | nil => exact absurd rfl hl
  | cons v t => simp only [firstRun, h, Bool.false_eq_true, if_false]; omega

theorem hybridCut_pos {l : List UInt32} (hl : l ≠ []) : 0 < hybridCut l := by
  have hlen : 0 < l.length := List.length_pos_iff.2 hl
  unfold hybridCut
  by_cases h : longRun l = true
  · rw [if_pos h]
    cases l with
    | nil => exact absurd rfl hl
    | cons v t => simp only [equalPrefix]; omega
  · rw [if_neg h]
    have := firstRun_pos hl (by simpa using h)
    by_cases h2 : firstRun l < l.length ∧ firstRun l + 8 ≤ 64
    · rw [if_pos h2]; exact this
    · rw [if_neg h2]; omega

/-- The values a reader sees: every piece that is not a long run is filled up with zeros to a multiple of eight (bit-packed groups hold eight values). -/
def readBack (l : List UInt32) : List UInt32 :=
  if h : l = [] then []
  else
    (if longRun l then l.take (hybridCut l)
     else l.take (hybridCut l) ++ List.replicate ((8 - (l.take (hybridCut l)).length % 8) % 8) 0) ++ readBack (l.drop (hybridCut l))
termination_by l.length
decreasing_by
  have := hybridCut_pos (by assumption)
  have : 0 < l.length := List.length_pos_iff.2 (by assumption)
  simp only [List.length_drop]; omega

/-- The first position behind which everything is displaced: the end of the first piece that is neither a long run nor a multiple of eight values long, provided values follow. -/
def displacedFrom (l : List UInt32) : Option Nat :=
  if _h : l = [] then none
  else if longRun l = true ∨ hybridCut l % 8 = 0 then (displacedFrom (l.drop (hybridCut l))).map (hybridCut l + ·)
  else if hybridCut l < l.length then some (hybridCut l)
  else none
termination_by l.length
decreasing_by
  have := hybridCut_pos (by assumption)
  have : 0 < l.length := List.length_pos_iff.2 (by assumption)
  simp only [List.length_drop]; omega

end Vroom.Spec
