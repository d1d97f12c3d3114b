/-
Outcome of a C++ call that may reject its input or run into undefined behaviour.
-/
namespace Vroom

/-- `ok v`: the function returned true and stored `v`; `reject`: it returned false;
`ub`: the execution has undefined behaviour (e.g. signed overflow) (simd_atoi-inl.h:95-172: results of the integer parsers). -/
inductive Outcome (α : Type) where
  | ok (v : α)
  | reject
  | ub
deriving DecidableEq, Repr

end Vroom
