import Verif.Lemmas.MemDialect4
import Verif.Props.Detect
/-
C96: dialect detection stays inside the buffer it is given.
-/
namespace Vroom
open Mem

/-! `m` is the memory behind the caller's pointer and `len` the length passed along; `some` says that every load was in range and no subtraction of sizes
wrapped. -/

/-- **C96** `DialectDetector::detect` looks only at the `len` bytes it is given, for all bytes, options and candidate orders, and what it finds is what
the model of C46-C49 and C77 finds in these bytes. -/
theorem C96_detect (sq : Rat → Rat) (modal : List Nat → Nat) (sort : List DialectCandidate → List DialectCandidate) (o : DetectOptions) {m : List UInt8} {len : Nat}
    (hs : len ≤ m.length) : detectM sq modal sort o m len = some (detect (detectFns sq modal) sort o (m.take len)) := detect_eq sq modal sort o hs

/-- **C96** The detected dialect does not depend on what follows the buffer in memory, not even when the buffer ends in the middle of a line, of a quoted field
or of a carriage return and line feed. -/
theorem C96_detect_nothing_behind (sq : Rat → Rat) (modal : List Nat → Nat) (sort : List DialectCandidate → List DialectCandidate) (o : DetectOptions) (buf a b : List UInt8) :
    detectM sq modal sort o (buf ++ a) buf.length = detectM sq modal sort o (buf ++ b) buf.length := by
  rw [C96_detect sq modal sort o (by simp), C96_detect sq modal sort o (by simp)]
  simp

/-- **C96** A row cut out by detection lies inside the buffer, and every field of the row, with or without its quotes, lies inside the row. -/
theorem C96_detect_fields (o : DetectOptions) (d : Dialect) {m : List UInt8} {len : Nat} (hs : len ≤ m.length) :
    ∃ rows, findRowsM o d m len = some rows ∧ ∀ r ∈ rows, r.1 ≤ r.2 ∧ r.2 ≤ len ∧
      ∃ vs, extractFieldsM d (m.drop r.1) (r.2 - r.1) = some vs ∧ ∀ v ∈ vs, r.1 + v.1 + v.2 ≤ r.2 := by
  obtain ⟨h1, h2⟩ := findRows_eq o d hs
  refine ⟨_, h1, fun r hr => ?_⟩
  have hr2 := h2 r hr
  refine ⟨Nat.le_of_lt hr2.1, hr2.2, ?_⟩
  obtain ⟨vs, h3, h4⟩ := extractFields_eq d (p := m.drop r.1) (len := r.2 - r.1) (by rw [List.length_drop]; omega)
  refine ⟨vs, h3, fun v hv => ?_⟩
  have := h4.1 v hv
  omega

/-- **C96** Looking at a cell to find its type never looks outside the cell: every load is checked against the cell itself. -/
theorem C96_cell_type (cell : List UInt8) : inferCellTypeM cell = some (inferCellType cell) ∧ couldBeIntegerM cell = some (couldBeInteger cell) ∧
    couldBeFloatM cell = some (couldBeFloat cell) := ⟨inferCellType_eq cell, couldBeInteger_eq cell, couldBeFloat_eq cell⟩

/-! Concrete: a buffer ending in a carriage return, the line feed of which lies behind it; cells that are almost dates, times and infinities. -/

example : (detectM sqrtApprox firstModal sortCandidates {} ([97, 59, 98, 13, 49, 59, 50, 13, 51, 59, 52, 13] ++ [10, 44, 44]) 12).map
    (fun r => (r.dialect.delimiter, r.rows, r.columns, r.hasHeader, r.lineEnding)) = some (59, 3, 2, true, .CR) := by
  rw [C96_detect _ _ _ _ (by decide)]
  decide +kernel

example : detectLineEndingM [97, 13, 10] 2 = some .CR ∧ detectLineEndingM [97, 13, 10] 3 = some .CRLF := by decide +kernel

example :
    inferCellTypeM "2024-01-1".toUTF8.toList = some .STRING ∧ inferCellTypeM "12:3".toUTF8.toList = some .STRING ∧ couldBeFloatM "+inf".toUTF8.toList = some true ∧
    couldBeFloatM "-".toUTF8.toList = some false ∧ couldBeFloatM "1e".toUTF8.toList = some false := by decide +kernel

/-- Memory shorter than the length passed along is an out-of-bounds load, and the model says so. -/
example : detectLineEndingM [97, 13] 3 = none := by decide +kernel

end Vroom
