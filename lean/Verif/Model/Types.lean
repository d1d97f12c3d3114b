/-
Model of the column type lattice.
Source: /repo/include/libvroom/types.h:16-53
-/
namespace Vroom

/-- `enum class DataType : uint8_t` (types.h:16-26). -/
inductive DataType where
  | unknown | bool | int32 | int64 | float64 | string | date | timestamp | na
deriving DecidableEq, Repr

/-- Numeric codes of the enumerators (types.h:17-25). -/
def DataType.code : DataType → Nat
  | .unknown => 0 | .bool => 1 | .int32 => 2 | .int64 => 3 | .float64 => 4
  | .string => 5 | .date => 6 | .timestamp => 7 | .na => 255

/-- `can_promote` (types.h:29-35). -/
def canPromote (src dst : DataType) : Bool :=
  if src = .na ∨ src = .unknown then true
  else if dst = .string then true
  else decide (src.code ≤ dst.code)

/-- `wider_type` (types.h:38-54); the comparisons `b >= BOOL && b <= FLOAT64` compare codes. -/
def widerType (a b : DataType) : DataType :=
  if a = .na ∨ a = .unknown then b
  else if b = .na ∨ b = .unknown then a
  else if a = .string ∨ b = .string then .string
  else if (a = .date ∨ a = .timestamp) ∧ (DataType.bool.code ≤ b.code ∧ b.code ≤ DataType.float64.code) then .string
  else if (b = .date ∨ b = .timestamp) ∧ (DataType.bool.code ≤ a.code ∧ a.code ≤ DataType.float64.code) then .string
  else if a.code > b.code then a else b

end Vroom
