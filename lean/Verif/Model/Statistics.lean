import Verif.Spec.Statistics

/-
Model of column statistics.
Sources: /repo/include/libvroom/statistics.h, /repo/src/simd/statistics_simd.cpp,
/repo/src/writer/statistics.cpp.
The five classes are one model over a value type: the comparison `<`, `std::isnan` (constantly false except
for `double`) and Highway's lane-wise minimum and maximum are parameters.  Counters are natural numbers.
The histories of public calls are those of the specification (`StatHistory`).
-/
namespace Vroom

/-- What the statistics code uses of a value type. `hmin`/`hmax`: one lane of `hn::Min`/`hn::Max`; `lanes`:
`hn::Lanes(d)` (not code of /repo: comparison and vector minimum used in statistics.h and statistics_simd.cpp:30-147). -/
structure StatOps (α : Type) where
  lt : α → α → Bool
  nan : α → Bool
  hmin : α → α → α
  hmax : α → α → α
  lanes : Nat

/-- The members (statistics.h:206-211, 309-314, 438-443, 529-534, 611-615). -/
structure Stats (α : Type) where
  min : α
  max : α
  nulls : Nat := 0
  values : Nat := 0
  has : Bool := false
deriving DecidableEq, Repr

namespace Stats
variable {α : Type}

/-- A new or reset object; `d` is the filler in `min_`/`max_` (statistics.h:94-100 and the other `reset`s). -/
def new (d : α) : Stats α := { min := d, max := d }

/-- `update_null` (statistics.h:41). -/
def updateNull (s : Stats α) : Stats α := { s with nulls := s.nulls + 1 }

/-- Common part of `update`, `merge` and `update_batch`: take in a lower and an upper value
(statistics.h:28-36, 68-79, 138-147). -/
def widen (o : StatOps α) (s : Stats α) (lo hi : α) : Stats α :=
  if s.has = false then { s with min := lo, max := hi, has := true }
  else { s with min := if o.lt lo s.min then lo else s.min, max := if o.lt s.max hi then hi else s.max }

/-- `update` (statistics.h:27-38; for `double` 314-331, where NaN counts as null). -/
def update (o : StatOps α) (s : Stats α) (v : α) : Stats α :=
  if o.nan v then s.updateNull
  else
    let s := s.widen o v v
    { s with values := s.values + 1 }

/-- `merge` (statistics.h:67-82 and copies). -/
def merge (o : StatOps α) (s other : Stats α) : Stats α :=
  let s := if other.has then s.widen o other.min other.max else s
  { s with nulls := s.nulls + other.nulls, values := s.values + other.values }

/-- Generic `update_batch` (statistics.h:44-50, also for strings 463-467). -/
def updateBatch (o : StatOps α) (s : Stats α) (vs : List α) : Stats α := vs.foldl (update o) s

/-- `i < null_bitmap.size() && null_bitmap[i]` (statistics.h:58, 161, 264, 375, 488, 569). -/
def nullAt (bitmap : List Bool) (i : Nat) : Bool := bitmap.getD i false

/-- Generic `update_batch_with_nulls` (statistics.h:53-64, strings 469-478). -/
def updateBatchNulls (o : StatOps α) (s : Stats α) (vs : List α) (bitmap : List Bool) : Stats α :=
  vs.zipIdx.foldl (fun s p => if nullAt bitmap p.2 then s.updateNull else s.update o p.1) s

end Stats

/-! ### Vectorised minimum and maximum -/

/-- The full-vector loop for one of the two extrema (statistics_simd.cpp:37-41): `h` is the lane operation. -/
def laneLoop {α : Type} (n : Nat) (h : α → α → α) (acc : List α) (rest : List α) : List α × List α :=
  if n ≠ 0 ∧ n ≤ rest.length then laneLoop n h (List.zipWith h acc (rest.take n)) (rest.drop n) else (acc, rest)
termination_by rest.length
decreasing_by simp; omega

/-- `hn::ReduceMin` / `hn::ReduceMax`, combined from the first lane on (statistics_simd.cpp:44-45); `d` is
only used for no lanes at all. -/
def laneReduce {α : Type} (h : α → α → α) (d : α) : List α → α
  | [] => d
  | x :: xs => xs.foldl h x

/-- `std::min` (statistics_simd.cpp:49), and `std::max` with the comparison turned around (50). -/
def stdMin {α : Type} (lt : α → α → Bool) (a b : α) : α := if lt b a then b else a

/-- One extremum of non-empty integer data (statistics_simd.cpp:21-52, 55-86). -/
def extremum {α : Type} (lt : α → α → Bool) (h : α → α → α) (n : Nat) (d : α) (ds : List α) : α :=
  let r := laneLoop n h (List.replicate n d) (d :: ds)
  r.2.foldl (stdMin lt) (laneReduce h d r.1)

/-- `ComputeMinMaxInt32/64` on non-empty data (statistics_simd.cpp:21-86). -/
def minMaxInt {α : Type} (o : StatOps α) (d : α) (ds : List α) : α × α :=
  (extremum o.lt o.hmin o.lanes d ds, extremum (fun a b => o.lt b a) o.hmax o.lanes d ds)

/-- The scalar fallback over non-NaN values (statistics_simd.cpp:132-146); `d` is the first of them. -/
def scalarExtremum {α : Type} (lt : α → α → Bool) (nan : α → Bool) (d : α) (ds : List α) : α :=
  (ds.filter (fun x => !nan x)).foldl (stdMin lt) d

/-- One extremum of `double` data after the first non-NaN value `d` (statistics_simd.cpp:111-131). -/
def extremumF {α : Type} (lt : α → α → Bool) (nan : α → Bool) (h : α → α → α) (n : Nat) (d : α) (ds : List α) : α :=
  let r := laneLoop n h (List.replicate n d) ds
  (r.2.filter (fun x => !nan x)).foldl (stdMin lt) (laneReduce h d r.1)

/-- `ComputeMinMaxFloat64` (statistics_simd.cpp:89-147); `none`: NaN (no data, or all of it NaN). -/
def minMaxFloat {α : Type} (o : StatOps α) (data : List α) : Option (α × α) :=
  match data.dropWhile o.nan with
  | [] => none
  | d :: ds =>
    let lo := extremumF o.lt o.nan o.hmin o.lanes d ds
    let hi := extremumF (fun a b => o.lt b a) o.nan o.hmax o.lanes d ds
    if o.nan lo ∨ o.nan hi then
      some (scalarExtremum o.lt o.nan d ds, scalarExtremum (fun a b => o.lt b a) o.nan d ds)
    else some (lo, hi)

namespace Stats
variable {α : Type}

/-- `Statistics<int32_t>::update_batch`, `Statistics<int64_t>::update_batch` (statistics.h:131-149, 235-253). -/
def updateBatchInt (o : StatOps α) (s : Stats α) : List α → Stats α
  | [] => s
  | v :: vs =>
    let m := minMaxInt o v vs
    let s := s.widen o m.1 m.2
    { s with values := s.values + (v :: vs).length }

/-- Split by the null bitmap: number of nulls and the other values (statistics.h:160-166). -/
def splitNulls (vs : List α) (bitmap : List Bool) : Nat × List α :=
  ((vs.zipIdx.filter (fun p => nullAt bitmap p.2)).length, (vs.zipIdx.filter (fun p => !nullAt bitmap p.2)).map (·.1))

/-- Their `update_batch_with_nulls` (statistics.h:152-171, 256-274). -/
def updateBatchNullsInt (o : StatOps α) (s : Stats α) (vs : List α) (bitmap : List Bool) : Stats α :=
  let r := splitNulls vs bitmap
  updateBatchInt o { s with nulls := s.nulls + r.1 } r.2

/-- `Statistics<double>::update_batch` (statistics.h:343-364). -/
def updateBatchFloat (o : StatOps α) (s : Stats α) (vs : List α) : Stats α :=
  if vs.length = 0 then s
  else
    match minMaxFloat o vs with
    | none => s
    | some m =>
      let s := s.widen o m.1 m.2
      { s with values := s.values + vs.length }

/-- `Statistics<double>::update_batch_with_nulls` (statistics.h:367-403). -/
def updateBatchNullsFloat (o : StatOps α) (s : Stats α) (vs : List α) (bitmap : List Bool) : Stats α :=
  let r := splitNulls vs bitmap
  let vals := r.2.filter (fun v => !o.nan v)
  let s := { s with nulls := s.nulls + r.1 + (r.2.filter o.nan).length }
  if vals.length = 0 then s
  else
    match minMaxFloat o vals with
    | none => s
    | some m =>
      let s := s.widen o m.1 m.2
      { s with values := s.values + vals.length }

end Stats

/-! ### Objects as used: every call of the public interface in sequence -/

/-- `StringStatistics` (statistics.h:447-535). -/
def Stats.runPlain {α : Type} (o : StatOps α) (d : α) : StatHistory α → Stats α
  | .new => Stats.new d
  | .value h v => (runPlain o d h).update o v
  | .null h => (runPlain o d h).updateNull
  | .batch h vs => (runPlain o d h).updateBatch o vs
  | .batchNulls h vs bm => (runPlain o d h).updateBatchNulls o vs bm
  | .merge h k => (runPlain o d h).merge o (runPlain o d k)
  | .reset _ => Stats.new d

/-- `Int32Statistics`, `Int64Statistics` (statistics.h:111-315). -/
def Stats.runInt {α : Type} (o : StatOps α) (d : α) : StatHistory α → Stats α
  | .new => Stats.new d
  | .value h v => (runInt o d h).update o v
  | .null h => (runInt o d h).updateNull
  | .batch h vs => (runInt o d h).updateBatchInt o vs
  | .batchNulls h vs bm => (runInt o d h).updateBatchNullsInt o vs bm
  | .merge h k => (runInt o d h).merge o (runInt o d k)
  | .reset _ => Stats.new d

/-- `Float64Statistics` (statistics.h:318-444). -/
def Stats.runFloat {α : Type} (o : StatOps α) (d : α) : StatHistory α → Stats α
  | .new => Stats.new d
  | .value h v => (runFloat o d h).update o v
  | .null h => (runFloat o d h).updateNull
  | .batch h vs => (runFloat o d h).updateBatchFloat o vs
  | .batchNulls h vs bm => (runFloat o d h).updateBatchNullsFloat o vs bm
  | .merge h k => (runFloat o d h).merge o (runFloat o d k)
  | .reset _ => Stats.new d

/-! ### Booleans -/

/-- `Statistics<bool>` (statistics.h:538-616). -/
structure BoolStats where
  hasTrue : Bool := false
  hasFalse : Bool := false
  nulls : Nat := 0
  values : Nat := 0
deriving DecidableEq, Repr

namespace BoolStats

/-- `update` (statistics.h:542-549). -/
def update (s : BoolStats) (v : Bool) : BoolStats :=
  let s := if v then { s with hasTrue := true } else { s with hasFalse := true }
  { s with values := s.values + 1 }

/-- `update_null` (statistics.h:551). -/
def updateNull (s : BoolStats) : BoolStats := { s with nulls := s.nulls + 1 }

/-- `update_batch` (statistics.h:553-564). -/
def updateBatch (s : BoolStats) (vs : List Bool) : BoolStats := vs.foldl update s

/-- `update_batch_with_nulls` (statistics.h:566-587). -/
def updateBatchNulls (s : BoolStats) (vs : List Bool) (bitmap : List Bool) : BoolStats :=
  vs.zipIdx.foldl (fun s p => if Stats.nullAt bitmap p.2 then s.updateNull else s.update p.1) s

/-- `merge` (statistics.h:589-594). -/
def merge (s o : BoolStats) : BoolStats :=
  { hasTrue := s.hasTrue || o.hasTrue, hasFalse := s.hasFalse || o.hasFalse, nulls := s.nulls + o.nulls, values := s.values + o.values }

/-- `has_value`, `min`, `max` (statistics.h:596-598). -/
def has (s : BoolStats) : Bool := s.hasTrue || s.hasFalse
/-- `min`, statistics.h:597. -/
def min (s : BoolStats) : Bool := if s.hasFalse then false else true
/-- `max`, statistics.h:598. -/
def max (s : BoolStats) : Bool := if s.hasTrue then true else false

/-- `BoolStatistics` as used (statistics.h:538-616). -/
def run : StatHistory Bool → BoolStats
  | .new => {}
  | .value h v => (run h).update v
  | .null h => (run h).updateNull
  | .batch h vs => (run h).updateBatch vs
  | .batchNulls h vs bm => (run h).updateBatchNulls vs bm
  | .merge h k => (run h).merge (run k)
  | .reset _ => {}

end BoolStats

/-! ### The value types -/

/-- `int32_t`, `int64_t`: mathematical integers with the usual order; Highway's integer minimum is exact (statistics_simd.cpp:21-86). -/
def intOps (lanes : Nat) : StatOps Int :=
  { lt := fun a b => decide (a < b), nan := fun _ => false, hmin := fun a b => Min.min a b, hmax := fun a b => Max.max a b, lanes := lanes }

/-- `std::string` / `std::string_view` comparison: lexicographic on unsigned bytes (statistics.h:447-535; C++ library). -/
def strOps : StatOps (List UInt8) :=
  { lt := fun a b => decide (a < b), nan := fun _ => false, hmin := fun a _ => a, hmax := fun a _ => a, lanes := 1 }

/-- `std::isnan` of a `double` given by its bits: exponent all ones, mantissa not zero (statistics.h:323, statistics_simd.cpp:100, 134; C++ library). -/
def f64NaN (b : UInt64) : Bool := decide ((b.toNat % 2 ^ 63) > 0x7FF0000000000000)

/-- The number line position of a non-NaN `double`: sign and magnitude; the two zeros coincide (not code of /repo: the order behind f64Lt). -/
def f64Key (b : UInt64) : Int := if b.toNat < 2 ^ 63 then (b.toNat : Int) else -((b.toNat - 2 ^ 63 : Nat) : Int)

/-- `operator<` on `double` (IEEE 754: false if one side is NaN) (statistics.h:328-336; IEEE 754). -/
def f64Lt (a b : UInt64) : Bool := !f64NaN a && !f64NaN b && decide (f64Key a < f64Key b)

/-- `double`, with Highway's lane operations left open (statistics_simd.cpp:89-147). -/
def f64Ops (hmin hmax : UInt64 → UInt64 → UInt64) (lanes : Nat) : StatOps UInt64 :=
  { lt := f64Lt, nan := f64NaN, hmin := hmin, hmax := hmax, lanes := lanes }

/-- `MINPD` / `MAXPD`, what `hn::Min` / `hn::Max` compile to on x86: the second operand unless the first is
smaller (larger), in particular if one of them is NaN (statistics_simd.cpp:124; processor manual). -/
def x86Min (a b : UInt64) : UInt64 := if f64Lt a b then a else b
/-- statistics_simd.cpp:125; processor manual. -/
def x86Max (a b : UInt64) : UInt64 := if f64Lt b a then a else b

end Vroom
