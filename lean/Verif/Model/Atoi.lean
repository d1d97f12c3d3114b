import Verif.Model.Outcome
import Verif.Model.RowScan
/-
Model of the integer parsers.
Source: /repo/src/parser/simd_atoi-inl.h, /repo/include/libvroom/simd_atoi.h,
/repo/include/libvroom/fast_column_context.h
`uint64_t` arithmetic is `UInt64` (wrapping), `unsigned char` arithmetic is `UInt8` (wrapping).
-/
namespace Vroom

/-- The digit loop `c = p[i] - '0'; if (c > 9) return false; result = result*10 + c`
(simd_atoi-inl.h:28-34, 47-53; simd_atoi.h:23-28). -/
def scalarDigits : UInt64 → Bytes → Option UInt64
  | acc, [] => some acc
  | acc, b :: bs => if b - 48 > 9 then none else scalarDigits (acc * 10 + (b - 48).toUInt64) bs

/-- Result combination without checks (simd_atoi-inl.h:86-91). -/
def combineDigits : UInt64 → Bytes → UInt64
  | acc, [] => acc
  | acc, b :: bs => combineDigits (acc * 10 + (b - 48).toUInt64) bs

/-- Invalid-lane flags of `hn::Or(Lt(chunk,'0'), Gt(chunk,'9'))` for the first `lanes` bytes of the
zero-padded 64-byte buffer (simd_atoi-inl.h:61-79). -/
def invalidLanes (lanes : Nat) (p : Bytes) : List Bool :=
  ((p.take 64 ++ List.replicate (64 - p.length) 0).take lanes).map (fun b => decide (b < 48) || decide (b > 57))

/-- `ParseUint64SimdImpl` (simd_atoi-inl.h:20-92). `lanes` = `hn::Lanes(d)`, the vector size in bytes.
`none` = false. (`hn::Load` from the 64-byte buffer needs `lanes ≤ 64`; see the trusted base.) -/
def parseUint64Simd (lanes : Nat) (p : Bytes) : Option UInt64 :=
  if p.length = 0 ∨ p.length > 16 then none
  else if p.length ≤ 8 then scalarDigits 0 p
  else if lanes < 16 then scalarDigits 0 p
  else if (invalidLanes lanes p).take p.length |>.any id then none
  else some (combineDigits 0 p)

/-- Sign prefix shared by all signed parsers: `none` = return false, otherwise (negative, rest)
(simd_atoi-inl.h:98-111, 131-144). The caller has checked `len != 0`. -/
def takeSign : Bytes → Option (Bool × Bytes)
  | [] => none
  | b :: rest =>
    if b = 45 then (if rest.length = 0 then none else some (true, rest))
    else if b = 43 then (if rest.length = 0 then none else some (false, rest))
    else some (false, b :: rest)

/-- `out = negative ? -static_cast<intN_t>(result) : static_cast<intN_t>(result)` after the range
checks, where `lim = 2^(N-1)` (simd_atoi-inl.h:119-125, 166-172).  The cast of `2^(N-1)` is the minimum
value, whose negation is signed overflow: undefined behaviour. -/
def finishSigned (lim : Nat) (negative : Bool) (result : UInt64) : Outcome Int :=
  if result.toNat > lim - 1 ∧ negative = false then .reject
  else if result.toNat > lim ∧ negative = true then .reject
  else if negative then (if result.toNat = lim then .ub else .ok (-(result.toNat : Int)))
  else .ok (result.toNat : Int)

/-- `ParseInt32SimdImpl` (simd_atoi-inl.h:95-125). -/
def parseInt32Simd (lanes : Nat) (p : Bytes) : Outcome Int :=
  if p.length = 0 ∨ p.length > 11 then .reject
  else match takeSign p with
    | none => .reject
    | some (neg, ds) => match parseUint64Simd lanes ds with
      | none => .reject
      | some r => finishSigned 2147483648 neg r

/-- The checked loop for more than 16 digits (simd_atoi-inl.h:151-161). -/
def checkedDigits : UInt64 → Bytes → Option UInt64
  | acc, [] => some acc
  | acc, b :: bs =>
    let c := b - 48
    if c > 9 then none
    else if acc > (18446744073709551615 - c.toUInt64) / 10 then none
    else checkedDigits (acc * 10 + c.toUInt64) bs

/-- `ParseInt64SimdImpl` (simd_atoi-inl.h:128-172). -/
def parseInt64Simd (lanes : Nat) (p : Bytes) : Outcome Int :=
  if p.length = 0 ∨ p.length > 20 then .reject
  else match takeSign p with
    | none => .reject
    | some (neg, ds) => match (if ds.length > 16 then checkedDigits 0 ds else parseUint64Simd lanes ds) with
      | none => .reject
      | some r => finishSigned 9223372036854775808 neg r

/-- `parse_uint64_scalar` (simd_atoi.h:18-30). -/
def parseUint64Scalar (p : Bytes) : Option UInt64 :=
  if p.length = 0 ∨ p.length > 20 then none else scalarDigits 0 p

/-- `parse_int32_scalar` (simd_atoi.h:32-61). -/
def parseInt32Scalar (p : Bytes) : Outcome Int :=
  if p.length = 0 ∨ p.length > 11 then .reject
  else match takeSign p with
    | none => .reject
    | some (neg, ds) => match parseUint64Scalar ds with
      | none => .reject
      | some r => finishSigned 2147483648 neg r

/-- `parse_int64_scalar` (simd_atoi.h:63-91). -/
def parseInt64Scalar (p : Bytes) : Outcome Int :=
  if p.length = 0 ∨ p.length > 20 then .reject
  else match takeSign p with
    | none => .reject
    | some (neg, ds) => match parseUint64Scalar ds with
      | none => .reject
      | some r => finishSigned 9223372036854775808 neg r

/-- `std::from_chars(p, end, out)` for a signed type requiring `ptr == end`: optional '-', digits,
in range `[-lim, lim)`. Contract of the C++ standard library, [charconv.from.chars] (called in fast_arrow_context.h:89, 146 and fast_column_context.h:87, 148; C++ library). -/
def fromChars (lim : Nat) (p : Bytes) : Option Int :=
  let (neg, ds) := match p with
    | 45 :: rest => (true, rest)
    | ds => (false, ds)
  if ds.length = 0 ∨ ds.any (fun b => decide (b - 48 > 9)) then none
  else
    let v := ds.foldl (fun a d => a * 10 + (d - 48).toNat) 0
    if neg then (if v ≤ lim then some (-(v : Int)) else none)
    else (if v < lim then some (v : Int) else none)

/-- `parse_int32_fast` / `parse_int64_fast` of the legacy context (fast_column_context.h:52-92, 113-153):
`maxLen`/`fast` are 11/9 resp. 20/18, `lim = 2^(N-1)`.  Up to `fast` digits cannot wrap in the unsigned type, so
the fast path is modelled over `Nat`. -/
def parseIntFast (maxLen fast lim : Nat) (p : Bytes) : Outcome Int :=
  if p.length = 0 ∨ p.length > maxLen then .reject
  else match takeSign p with
    | none => .reject
    | some (neg, ds) =>
      if ds.length ≤ fast then
        match scalarDigits 0 ds with
        | none => .reject
        | some r => .ok (if neg then -(r.toNat : Int) else r.toNat)
      else match fromChars lim ds with
        | none => .reject
        | some v => if neg then (if v = -(lim : Int) then .ub else .ok (-v)) else .ok v

/-- fast_column_context.h:52-92 -/
def parseInt32Fast := parseIntFast 11 9 2147483648
/-- fast_column_context.h:113-153 -/
def parseInt64Fast := parseIntFast 20 18 9223372036854775808

end Vroom
