import Verif.Model.Statistics
import Verif.Model.Encoding
/-
Statistics of pages: accumulating them value by value, merging those of several pages, serialising the bounds.
Source: /repo/src/writer/statistics.cpp (functions with external linkage and no caller in the library); the record is /repo/include/libvroom/types.h:150-158.
-/
namespace Vroom

/-- `std::variant<std::monostate, bool, int32_t, int64_t, double, std::string>` (statistics.cpp:12); a `double` by its bits. -/
inductive StatVal where
  | none
  | bool (b : Bool)
  | i32 (v : Int32)
  | i64 (v : Int64)
  | f64 (v : UInt64)
  | str (s : List UInt8)
deriving DecidableEq, Repr

/-- `ColumnStatistics` (types.h:150-158); counters as natural numbers. -/
structure ColStats where
  hasNull : Bool := false
  nullCount : Nat := 0
  distinctCount : Nat := 0
  min : StatVal := .none
  max : StatVal := .none
deriving DecidableEq, Repr

/-- `merge_min` (statistics.cpp:14-43) -/
def mergeMin : StatVal → StatVal → StatVal
  | .none, b => b
  | a, .none => a
  | .i32 a, .i32 b => if a < b then .i32 a else .i32 b
  | .i64 a, .i64 b => if a < b then .i64 a else .i64 b
  | .f64 a, .f64 b => if f64Lt a b then .f64 a else .f64 b
  | .str a, .str b => if a < b then .str a else .str b
  | .bool a, .bool b => if !a then .bool a else .bool b
  | a, _ => a

/-- `merge_max` (statistics.cpp:45-74) -/
def mergeMax : StatVal → StatVal → StatVal
  | .none, b => b
  | a, .none => a
  | .i32 a, .i32 b => if b < a then .i32 a else .i32 b
  | .i64 a, .i64 b => if b < a then .i64 a else .i64 b
  | .f64 a, .f64 b => if f64Lt b a then .f64 a else .f64 b
  | .str a, .str b => if b < a then .str a else .str b
  | .bool a, .bool b => if a then .bool a else .bool b
  | a, _ => a

/-- `merge_statistics` (statistics.cpp:77-86); `distinct_count` stays 0. -/
def mergeStatistics (a b : ColStats) : ColStats :=
  { hasNull := a.hasNull || b.hasNull, nullCount := a.nullCount + b.nullCount, min := mergeMin a.min b.min, max := mergeMax a.max b.max }

/-- `serialize_statistic` (statistics.cpp:89-118), little-endian stores. -/
def serializeStatistic : StatVal → List UInt8
  | .none => []
  | .bool b => [if b then 1 else 0]
  | .i32 v => le4 v.toUInt32
  | .i64 v => le8 v.toUInt64
  | .f64 v => le8 v
  | .str s => s

/-- `StatisticsAccumulator` (statistics.cpp:121-236). -/
structure StatAcc where
  stats : ColStats := {}
  hasValue : Bool := false
deriving DecidableEq, Repr

namespace StatAcc

/-- The null branch of the `add_` functions (statistics.cpp:126-130). -/
def addNull (s : StatAcc) : StatAcc := { s with stats := { s.stats with hasNull := true, nullCount := s.stats.nullCount + 1 } }

/-- The first value (statistics.cpp:132-134). -/
def first (s : StatAcc) (v : StatVal) : StatAcc := { stats := { s.stats with min := v, max := v }, hasValue := true }

/-- `add_int32` (statistics.cpp:125-144) -/
def addInt32 (s : StatAcc) (v : Int32) (isNull : Bool) : StatAcc :=
  if isNull then s.addNull
  else if !s.hasValue then s.first (.i32 v)
  else
    let lo := match s.stats.min with | .i32 m => if v < m then .i32 v else s.stats.min | _ => s.stats.min
    let hi := match s.stats.max with | .i32 m => if m < v then .i32 v else s.stats.max | _ => s.stats.max
    { s with stats := { s.stats with min := lo, max := hi } }

/-- `add_int64` (statistics.cpp:146-165) -/
def addInt64 (s : StatAcc) (v : Int64) (isNull : Bool) : StatAcc :=
  if isNull then s.addNull
  else if !s.hasValue then s.first (.i64 v)
  else
    let lo := match s.stats.min with | .i64 m => if v < m then .i64 v else s.stats.min | _ => s.stats.min
    let hi := match s.stats.max with | .i64 m => if m < v then .i64 v else s.stats.max | _ => s.stats.max
    { s with stats := { s.stats with min := lo, max := hi } }

/-- `add_double` (statistics.cpp:167-186): NaN counts as null. -/
def addDouble (s : StatAcc) (v : UInt64) (isNull : Bool) : StatAcc :=
  if isNull || f64NaN v then s.addNull
  else if !s.hasValue then s.first (.f64 v)
  else
    let lo := match s.stats.min with | .f64 m => if f64Lt v m then .f64 v else s.stats.min | _ => s.stats.min
    let hi := match s.stats.max with | .f64 m => if f64Lt m v then .f64 v else s.stats.max | _ => s.stats.max
    { s with stats := { s.stats with min := lo, max := hi } }

/-- `add_string` (statistics.cpp:188-207) -/
def addString (s : StatAcc) (v : List UInt8) (isNull : Bool) : StatAcc :=
  if isNull then s.addNull
  else if !s.hasValue then s.first (.str v)
  else
    let lo := match s.stats.min with | .str m => if v < m then .str v else s.stats.min | _ => s.stats.min
    let hi := match s.stats.max with | .str m => if m < v then .str v else s.stats.max | _ => s.stats.max
    { s with stats := { s.stats with min := lo, max := hi } }

/-- `add_bool` (statistics.cpp:209-227) -/
def addBool (s : StatAcc) (v : Bool) (isNull : Bool) : StatAcc :=
  if isNull then s.addNull
  else if !s.hasValue then s.first (.bool v)
  else
    let lo := match s.stats.min with | .bool _ => if !v then .bool false else s.stats.min | _ => s.stats.min
    let hi := match s.stats.max with | .bool _ => if v then .bool true else s.stats.max | _ => s.stats.max
    { s with stats := { s.stats with min := lo, max := hi } }

end StatAcc

/-- An accumulator that is given the cells of a page; `d` is what is passed along with a null (statistics.cpp:121-236: a caller that adds the cells of a page). -/
def accumulate {α : Type} (add : StatAcc → α → Bool → StatAcc) (d : α) (cells : List (Option α)) : ColStats :=
  (cells.foldl (fun s c => match c with | some v => add s v false | none => add s d true) {}).stats

end Vroom
