/-
What the legacy storage types should behave like, independent of the code.
-/
namespace Vroom

/-! ### Copy-on-write buffers: a collection of independent variables -/

/-- One step of a program using copy-on-write buffers; variables are numbered in order of creation.
`mutate` stands for every mutating member (`push_back`, `resize`, `clear`, `operator[]` assignment, ...) by its effect
on the content; a default-constructed or moved-from buffer has empty content. -/
inductive CowOp (α : Type) where
  /-- Construct a buffer with this content. -/
  | new (content : List α)
  /-- Copy-construct (or `share`) a new variable from variable `i`. -/
  | copy (i : Nat)
  /-- Move-construct a new variable from variable `i`. -/
  | move (i : Nat)
  /-- Variable `i` = variable `j`. -/
  | assign (i j : Nat)
  /-- Variable `i` = std::move(variable `j`). -/
  | moveAssign (i j : Nat)
  | mutate (i : Nat) (f : List α → List α)
  /-- Take the vector out of variable `i`. -/
  | intoVec (i : Nat)
  | swap (i j : Nat)
  /-- Variable `i` goes out of scope. -/
  | destroy (i : Nat)

/-- Independent variables: every variable owns its content. -/
def CowOp.apply {α : Type} (vars : List (List α)) : CowOp α → List (List α)
  | .new c => vars ++ [c]
  | .copy i => vars ++ [vars.getD i []]
  | .move i => vars.set i [] ++ [vars.getD i []]
  | .assign i j => vars.set i (vars.getD j [])
  | .moveAssign i j => if i = j then vars else (vars.set i (vars.getD j [])).set j []
  | .mutate i f => vars.set i (f (vars.getD i []))
  | .intoVec i => vars.set i []
  | .swap i j => (vars.set i (vars.getD j [])).set j (vars.getD i [])
  | .destroy i => vars.set i []

/-- The operation only names existing variables. -/
def CowOp.Valid {α : Type} (n : Nat) : CowOp α → Prop
  | .new _ => True
  | .copy i => i < n
  | .move i => i < n
  | .assign i j => i < n ∧ j < n
  | .moveAssign i j => i < n ∧ j < n
  | .mutate i _ => i < n
  | .intoVec i => i < n
  | .swap i j => i < n ∧ j < n
  | .destroy i => i < n

/-! ### Chunked columns: a sequence of cells -/

/-- How a chunked storage or a legacy column builder came about. -/
inductive ColHistory (α : Type) where
  | new
  /-- Append one value or a null. -/
  | append (h : ColHistory α) (v : Option α)
  /-- Write values and null flags straight into the active vectors. -/
  | direct (h : ColHistory α) (cells : List (α × Bool))
  /-- Finalize, or look at chunks or statistics. -/
  | finalize (h : ColHistory α)
  /-- Look at the concatenated values or the null bitmap. -/
  | read (h : ColHistory α)
  /-- `h` after merging `other` into it. -/
  | merge (h other : ColHistory α)
  /-- `other` after having been merged into `h`. -/
  | drained (h other : ColHistory α)

/-- The cells appended, in order: stored value and null flag; `d` is the stored value of a null. -/
def ColHistory.cells {α : Type} (d : α) : ColHistory α → List (α × Bool)
  | .new => []
  | .append h none => h.cells d ++ [(d, true)]
  | .append h (some v) => h.cells d ++ [(v, false)]
  | .direct h cs => h.cells d ++ cs
  | .finalize h => h.cells d
  | .read h => h.cells d
  | .merge h other => h.cells d ++ other.cells d
  | .drained _ _ => []

/-- The same cells as optional values. -/
def optCells {α : Type} (cells : List (α × Bool)) : List (Option α) := cells.map (fun c => if c.2 then none else some c.1)

/-- Only single values appended: no merge and no direct writing (reading is fine). -/
def ColHistory.Simple {α : Type} : ColHistory α → Prop
  | .new => True
  | .append h _ => h.Simple
  | .finalize h => h.Simple
  | .read h => h.Simple
  | _ => False

/-- All stored values satisfy `p`. -/
def ColHistory.All {α : Type} (p : α → Prop) : ColHistory α → Prop
  | .new => True
  | .append h v => h.All p ∧ ∀ x, v = some x → p x
  | .direct h cs => h.All p ∧ ∀ c ∈ cs, p c.1
  | .finalize h => h.All p
  | .read h => h.All p
  | .merge h other => h.All p ∧ other.All p
  | .drained h other => h.All p ∧ other.All p

end Vroom
