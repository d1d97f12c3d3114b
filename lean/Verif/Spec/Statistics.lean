/-
What column statistics should report, independent of the code: the column is a list of cells, `none` for null.
-/
namespace Vroom

/-- `m` is a smallest element of `xs`: one of them, and none of them is below it. -/
def IsLeast {α : Type} (lt : α → α → Bool) (xs : List α) (m : α) : Prop := m ∈ xs ∧ ∀ x ∈ xs, lt x m = false

/-- `m` is a largest element of `xs`. -/
def IsGreatest {α : Type} (lt : α → α → Bool) (xs : List α) (m : α) : Prop := m ∈ xs ∧ ∀ x ∈ xs, lt m x = false

/-- The non-null values of a column. -/
def present {α : Type} (cells : List (Option α)) : List α := cells.filterMap id

/-- The number of nulls in a column. -/
def nullCount {α : Type} (cells : List (Option α)) : Nat := (cells.filter Option.isNone).length

/-- What a statistics object has to report about a column: exact counts; a value is reported iff there is one;
and then the minimum and maximum are a smallest and a largest non-null value of the column. -/
structure Reports {α : Type} (lt : α → α → Bool) (cells : List (Option α)) (nulls values : Nat) (has : Bool) (min max : α) : Prop where
  nulls : nulls = nullCount cells
  values : values = (present cells).length
  has_iff : has = true ↔ present cells ≠ []
  bounds : has = true → IsLeast lt (present cells) min ∧ IsGreatest lt (present cells) max

/-- How a batch and its null bitmap are read: an entry the bitmap does not cover is not null. -/
def bitmapCells {α : Type} : List α → List Bool → List (Option α)
  | [], _ => []
  | v :: vs, [] => some v :: bitmapCells vs []
  | v :: vs, b :: bs => (if b then none else some v) :: bitmapCells vs bs

/-- A statistics object as built by its users: every way to construct it. -/
inductive StatHistory (α : Type) where
  | new
  | value (h : StatHistory α) (v : α)
  | null (h : StatHistory α)
  | batch (h : StatHistory α) (vs : List α)
  | batchNulls (h : StatHistory α) (vs : List α) (bitmap : List Bool)
  | merge (h other : StatHistory α)
  | reset (h : StatHistory α)

/-- The column a history has gone through; `nan` tells which values count as null. -/
def StatHistory.cells {α : Type} (nan : α → Bool) : StatHistory α → List (Option α)
  | .new => []
  | .value h v => h.cells nan ++ [if nan v then none else some v]
  | .null h => h.cells nan ++ [none]
  | .batch h vs => h.cells nan ++ vs.map (fun v => if nan v then none else some v)
  | .batchNulls h vs bitmap => h.cells nan ++ (bitmapCells vs bitmap).map (fun c => c.filter (fun v => !nan v))
  | .merge h other => h.cells nan ++ other.cells nan
  | .reset _ => []

/-- No NaN in any batch given without a null bitmap. -/
def StatHistory.NoNanBatch {α : Type} (nan : α → Bool) : StatHistory α → Prop
  | .new => True
  | .value h _ => h.NoNanBatch nan
  | .null h => h.NoNanBatch nan
  | .batch h vs => h.NoNanBatch nan ∧ ∀ v ∈ vs, nan v = false
  | .batchNulls h _ _ => h.NoNanBatch nan
  | .merge h other => h.NoNanBatch nan ∧ other.NoNanBatch nan
  | .reset h => h.NoNanBatch nan

end Vroom
