import Verif.Props.ColumnChunk
import Verif.Props.Compression
import Mathlib.Tactic.SplitIfs
/-
C95, continued: when a record is made at all, compressed records, counts and statistics, row groups, and what fails.
-/
namespace Vroom
open Parquet Spec

theorem shrinkPage_some {dec} (E : ChunkEnv) (lib : LibsOk E.libs dec) (pool page : List UInt8) :
    ∃ out pool', shrinkPage E pool page = some (out, pool') ∧
      (out = page ∨ (out.length < page.length ∧ (page.length < 2 ^ 32 → dec (producedFormat E.codec) out = some page))) := by
  unfold shrinkPage
  by_cases hc : E.codec = .none
  · rw [if_pos hc]; exact ⟨_, _, rfl, .inl rfl⟩
  · rw [if_neg hc]
    obtain ⟨pool', h1⟩ := C86_compress_into lib E.level E.codec pool page
    obtain ⟨out, h2, h3⟩ := C86_compress_partial lib E.level E.codec page
    rw [h1, h2]
    dsimp only [Option.map_some]
    by_cases hl : out.length < page.length
    · rw [if_pos hl]
      refine ⟨_, _, rfl, .inr ⟨hl, ?_⟩⟩
      rcases h3 with rfl | ⟨-, -, h3⟩
      · omega
      · exact h3
    · rw [if_neg hl]; exact ⟨_, _, rfl, .inl rfl⟩

theorem column_defined {dec} {T : Type} [BEq T] [LawfulBEq T] {k : ColKind T} {ptype : Int} {val : T → Val} {okv : T → Prop} (ok : KindOk k ptype val okv) (E : ChunkEnv)
    (lib : LibsOk E.libs dec) (pool : List UInt8) (vs : List T) (nulls : List Bool) (pre : Option ColStats) (hf : nulls = [] ∨ nulls.length = vs.length) (hok : ∀ v ∈ vs, okv v)
    (hres : k.reserves = true → (chunkStats k vs nulls pre).1 ≤ vs.length) :
    ∃ r pool', writeColumn k E pool vs nulls pre = some (r, pool') ∧ r.type = k.type ∧ r.numValues = vs.length ∧ r.nullCount = (chunkStats k vs nulls pre).1 ∧
      r.statistics = (chunkStats k vs nulls pre).2 ∧ r.totalCompressed = r.data.length := by
  obtain ⟨rows, r1, r2, r3, r4, r5⟩ := loopRows_fits vs nulls hf
  have hrl : rows.length = vs.length := by rw [← r2, List.length_map]
  unfold writeColumn
  rw [r1]
  dsimp only
  split
  · next hdict =>
    rcases ok.dict with hno | ⟨bytes, hpage, -⟩
    · rw [hno] at hdict; simp at hdict
    rw [hpage]
    obtain ⟨p1, pool1, h1, -⟩ := shrinkPage_some E lib pool (bytes (createDictionary rows).1)
    rw [h1]
    dsimp only
    have hil : (createDictionary rows).2.length = vs.length := by
      have := (dictInv_all rows).indices
      change (createDictionary rows).2 = _ at this
      rw [this, List.length_map, hrl]
    obtain ⟨rows2, q1, -⟩ := loopRows_fits (createDictionary rows).2 nulls (by rw [hil]; exact hf)
    unfold writeDictDataPage
    rw [q1]
    dsimp only
    obtain ⟨p2, pool2, h2, -⟩ := shrinkPage_some E lib pool1
      (pageLevels nulls ++ UInt8.ofNat (indexWidth (createDictionary rows).1.length) :: encodeHybridRle (indexWidth (createDictionary rows).1.length) ((keptRows rows2).map Int32.toUInt32))
    rw [h2]
    exact ⟨_, _, rfl, rfl, rfl, rfl, rfl, rfl⟩
  · rw [if_neg]
    · obtain ⟨bs, p1, -⟩ := ok.plain vs nulls rows hf r1 hok
      rw [p1]
      dsimp only
      unfold writeDataPage
      obtain ⟨p2, pool2, h2, -⟩ := shrinkPage_some E lib pool (pageLevels nulls ++ bs)
      rw [h2]
      exact ⟨_, _, rfl, rfl, rfl, rfl, rfl, rfl⟩
    · simp only [Bool.and_eq_true, decide_eq_true_eq, not_and, Nat.not_lt]
      exact hres

/-- Without nulls and without a dictionary the compressed record is the uncompressed one, compressed. -/
theorem column_inflate {dec} {T : Type} [BEq T] [LawfulBEq T] {k : ColKind T} {ptype : Int} {val : T → Val} {okv : T → Prop} (ok : KindOk k ptype val okv) (E : ChunkEnv)
    (lib : LibsOk E.libs dec) (hd : E.enableDictionary = false) (pool : List UInt8) (vs : List T) (nulls : List Bool) (pre : Option ColStats)
    (hf : nulls = [] ∨ nulls.length = vs.length) (hok : ∀ v ∈ vs, okv v) (hn : true ∉ nulls) (r : ChunkRecord) (pool' : List UInt8)
    (hw : writeColumn k E pool vs nulls pre = some (r, pool')) (hbig : r.totalUncompressed < 2 ^ 32) :
    ∃ r0 pool0, writeColumn k { E with codec := .none } pool vs nulls pre = some (r0, pool0) ∧ r0.usesDictionary = false ∧
      inflateRecord dec E.codec r = some { r0 with totalCompressed := r.totalCompressed } := by
  obtain ⟨rows, r1, r2, r3, r4, r5⟩ := loopRows_fits vs nulls hf
  have hlev : pageLevels nulls = [] := by
    unfold pageLevels
    rw [if_neg]
    intro h
    obtain ⟨b, hb, hb2⟩ := List.any_eq_true.1 h
    have : b = true := hb2
    exact hn (this ▸ hb)
  unfold writeColumn at hw ⊢
  rw [r1] at hw ⊢
  dsimp only at hw ⊢
  rw [if_neg (by simp [hd])] at hw ⊢
  split at hw
  · cases hw
  next hres =>
  rw [if_neg hres]
  obtain ⟨bs, p1, -⟩ := ok.plain vs nulls rows hf r1 hok
  rw [p1] at hw ⊢
  dsimp only at hw ⊢
  unfold writeDataPage at hw ⊢
  rw [hlev, List.nil_append] at hw ⊢
  obtain ⟨out, pool2, h2, h3⟩ := shrinkPage_some E lib pool bs
  rw [h2] at hw
  simp only [Option.some.injEq, Prod.mk.injEq] at hw
  obtain ⟨rfl, -⟩ := hw
  dsimp only at hbig
  refine ⟨_, _, rfl, rfl, ?_⟩
  unfold inflateRecord
  dsimp only
  rcases h3 with rfl | ⟨h3, h4⟩
  · rw [if_neg (Nat.lt_irrefl _)]
  · rw [if_pos h3, h4 hbig]; rfl

theorem statsOut_reports {α β : Type} {lt : α → α → Bool} {lt' : β → β → Bool} {inj : β → StatVal} (g : α → β) (toa : β → α) (cells : List (Option β)) (s : Stats α)
    (hg : ∀ b, g (toa b) = b) (hlt : ∀ a b, lt (toa a) (toa b) = lt' a b)
    (h : Reports lt (cells.map (·.map toa)) s.nulls s.values s.has s.min s.max) :
    (statsOut (fun a => inj (g a)) s).1 = nullCount cells ∧ PageReports lt' inj cells (statsOut (fun a => inj (g a)) s).2 := by
  have hnc : nullCount (cells.map (·.map toa)) = nullCount cells := by
    unfold nullCount
    rw [List.filter_map, List.length_map]
    congr 2
    funext o
    cases o <;> rfl
  have hp : present (cells.map (·.map toa)) = (present cells).map toa := filterMap_map_map toa cells
  have hmem : none ∈ cells ↔ 0 < nullCount cells := by
    unfold nullCount
    rw [List.length_pos_iff_exists_mem]
    constructor
    · intro hm; exact ⟨none, List.mem_filter.2 ⟨hm, rfl⟩⟩
    · rintro ⟨o, ho⟩
      obtain ⟨h1, h2⟩ := List.mem_filter.1 ho
      cases o with
      | none => exact h1
      | some => simp at h2
  refine ⟨by rw [← hnc, ← h.nulls]; rfl, ⟨by rw [← hnc, ← h.nulls]; rfl, ?_, ?_, ?_⟩⟩
  · rw [hmem, ← hnc, ← h.nulls]; simp [statsOut]
  · intro he
    have hh : s.has = false := by
      rw [← Bool.not_eq_true, h.has_iff, hp, he]; simp
    simp [statsOut, hh]
  · intro he
    have hh : s.has = true := by rw [h.has_iff, hp]; simpa using he
    obtain ⟨⟨m1, m2⟩, ⟨x1, x2⟩⟩ := h.bounds hh
    rw [hp] at m1 m2 x1 x2
    obtain ⟨lo, l1, l2⟩ := List.mem_map.1 m1
    obtain ⟨hi, u1, u2⟩ := List.mem_map.1 x1
    refine ⟨lo, hi, ?_, ?_, ⟨l1, ?_⟩, ⟨u1, ?_⟩⟩
    · simp [statsOut, hh, ← l2, hg]
    · simp [statsOut, hh, ← u2, hg]
    · intro x hx
      rw [← hlt, l2]; exact m2 _ (List.mem_map_of_mem hx)
    · intro x hx
      rw [← hlt, u2]; exact x2 _ (List.mem_map_of_mem hx)

theorem bitmapCells_map {α β : Type} (f : α → β) : ∀ (vs : List α) (bm : List Bool), bitmapCells (vs.map f) bm = (bitmapCells vs bm).map (·.map f)
  | [], _ => rfl
  | v :: vs, [] => by simp [bitmapCells, bitmapCells_map f vs []]
  | v :: vs, b :: bs => by cases b <;> simp [bitmapCells, bitmapCells_map f vs bs]

theorem filter_false {α : Type} (l : List (Option α)) : l.map (fun c => c.filter (fun _ => !false)) = l := by
  induction l with
  | nil => rfl
  | cons c l ih => cases c <;> simp_all

theorem int32_computed (lanes : Nat) (hl : 0 < lanes) (vs : List Int32) (nulls : List Bool) :
    ((int32Kind lanes).computed vs nulls).1 = nullCount (bitmapCells vs nulls) ∧
    PageReports (fun a b => decide (a < b)) .i32 (bitmapCells vs nulls) ((int32Kind lanes).computed vs nulls).2 := by
  refine statsOut_reports (lt := fun a b => decide (a < b)) Int32.ofInt Int32.toInt _ _ (fun b => Int32.ofInt_toInt b) (fun a b => by simp [Int32.lt_iff_toInt_lt]) ?_
  have := C39_int lanes hl 0 (.batchNulls .new (vs.map Int32.toInt) nulls)
  simp only [StatHistory.cells, List.nil_append, filter_false, bitmapCells_map] at this
  exact this

theorem int64_computed (lanes : Nat) (hl : 0 < lanes) (vs : List Int64) (nulls : List Bool) :
    ((int64Kind lanes).computed vs nulls).1 = nullCount (bitmapCells vs nulls) ∧
    PageReports (fun a b => decide (a < b)) .i64 (bitmapCells vs nulls) ((int64Kind lanes).computed vs nulls).2 := by
  refine statsOut_reports (lt := fun a b => decide (a < b)) Int64.ofInt Int64.toInt _ _ (fun b => Int64.ofInt_toInt b) (fun a b => by simp [Int64.lt_iff_toInt_lt]) ?_
  have := C39_int lanes hl 0 (.batchNulls .new (vs.map Int64.toInt) nulls)
  simp only [StatHistory.cells, List.nil_append, filter_false, bitmapCells_map] at this
  exact this

theorem float64_computed (hmin hmax : UInt64 → UInt64 → UInt64) (lanes : Nat) (hl : 0 < lanes)
    (hmin_ok : ∀ a b, f64NaN a = false → f64NaN b = false → (hmin a b = a ∨ hmin a b = b) ∧ f64Lt a (hmin a b) = false ∧ f64Lt b (hmin a b) = false)
    (hmax_ok : ∀ a b, f64NaN a = false → f64NaN b = false → (hmax a b = a ∨ hmax a b = b) ∧ f64Lt (hmax a b) a = false ∧ f64Lt (hmax a b) b = false)
    (vs : List UInt64) (nulls : List Bool) :
    ((float64Kind hmin hmax lanes).computed vs nulls).1 = nullCount ((bitmapCells vs nulls).map (fun c => c.filter (fun v => !f64NaN v))) ∧
    PageReports f64Lt .f64 ((bitmapCells vs nulls).map (fun c => c.filter (fun v => !f64NaN v))) ((float64Kind hmin hmax lanes).computed vs nulls).2 := by
  refine statsOut_reports (lt := f64Lt) id id _ _ (fun _ => rfl) (fun _ _ => rfl) ?_
  have := C39_double_partial hmin hmax lanes hl hmin_ok hmax_ok 0 (.batchNulls .new vs nulls) trivial
  simp only [StatHistory.cells, List.nil_append] at this
  rw [show ∀ l : List (Option UInt64), l.map (·.map id) = l from fun l => by simp]
  exact this

theorem bool_computed (vs : List Bool) (nulls : List Bool) :
    (boolKind.computed vs nulls).1 = nullCount (bitmapCells vs nulls) ∧ PageReports (fun a b => !a && b) .bool (bitmapCells vs nulls) (boolKind.computed vs nulls).2 := by
  have h := C39_bool (.batchNulls .new vs nulls)
  simp only [StatHistory.cells, List.nil_append, filter_false] at h
  let s : Stats Bool := ⟨(BoolStats.updateBatchNulls {} vs nulls).min, (BoolStats.updateBatchNulls {} vs nulls).max, (BoolStats.updateBatchNulls {} vs nulls).nulls,
    (BoolStats.updateBatchNulls {} vs nulls).values, (BoolStats.updateBatchNulls {} vs nulls).has⟩
  refine statsOut_reports (lt := fun a b => !a && b) (inj := StatVal.bool) id id (bitmapCells vs nulls) s (fun _ => rfl) (fun _ _ => rfl) ?_
  rw [show ∀ l : List (Option Bool), l.map (·.map id) = l from fun l => by simp]
  exact h


theorem float64_nulls (hmin hmax : UInt64 → UInt64 → UInt64) (lanes : Nat) (vs : List UInt64) (nulls : List Bool) :
    ((float64Kind hmin hmax lanes).computed vs nulls).1 = nullCount ((bitmapCells vs nulls).map (fun c => c.filter (fun v => !f64NaN v))) := by
  have hnc := nullCount_filter f64NaN (bitmapCells vs nulls)
  rw [hnc]
  show (Stats.updateBatchNullsFloat (f64Ops hmin hmax lanes) (Stats.new 0) vs nulls).nulls = _
  unfold Stats.updateBatchNullsFloat
  rw [splitNulls_eq]
  dsimp only
  have hz : ∀ n : Nat, (Stats.new (0 : UInt64)).nulls + n = n := fun n => Nat.zero_add n
  split
  · dsimp only; rw [hz]; rfl
  · split
    · dsimp only; rw [hz]; rfl
    · unfold Stats.widen
      split <;> (try split) <;> (try split) <;> (dsimp only; rw [hz]; first | rfl | done)

theorem nullCount_le {α : Type} (cells : List (Option α)) : nullCount cells ≤ cells.length := List.length_filter_le ..

/-- **C95**: with a bitmap that fits, and statistics of the caller (if any) that do not claim more nulls than there are rows, every column function returns: it throws nothing and reads nothing
outside its arguments, whatever the codec and the options.  The record gives the row count and its own size; statistics of the caller are recorded as they are. -/
theorem C95_defined {dec} (c : ColValues) (E : ChunkEnv) (lib : LibsOk E.libs dec) (hmin hmax : UInt64 → UInt64 → UInt64) (lanes : Nat) (hl : 0 < lanes) (pool : List UInt8)
    (nulls : List Bool) (pre : Option ColStats) (hfit : c.Fits nulls) (hsmall : c.Small) (hpre : ∀ s, pre = some s → s.nullCount ≤ (c.cells nulls).length) :
    ∃ r pool', c.write E hmin hmax lanes pool nulls pre = some (r, pool') ∧ r.numValues = (c.cells nulls).length ∧ r.totalCompressed = r.data.length ∧
      ∀ s, pre = some s → r.nullCount = s.nullCount ∧ r.statistics = s := by
  have hlen : ∀ {T : Type} (vs : List T) (f : T → Val), (nulls = [] ∨ nulls.length = vs.length) → (bitmapCells vs nulls).length = vs.length := by
    intro T vs f hf
    obtain ⟨rows, -, r2, r3, -, -⟩ := loopRows_fits vs nulls hf
    rw [r3, ← r2]; simp
  have main : ∀ {T : Type} [BEq T] [LawfulBEq T] {k : ColKind T} {ptype : Int} {val : T → Val} {okv : T → Prop} (_ : KindOk k ptype val okv) (vs : List T)
      (_ : nulls = [] ∨ nulls.length = vs.length) (_ : ∀ v ∈ vs, okv v) (_ : k.reserves = true → (k.computed vs nulls).1 ≤ vs.length)
      (_ : ∀ s, pre = some s → s.nullCount ≤ ((bitmapCells vs nulls).map (·.map val)).length),
      ∃ r pool', writeColumn k E pool vs nulls pre = some (r, pool') ∧ r.numValues = ((bitmapCells vs nulls).map (·.map val)).length ∧ r.totalCompressed = r.data.length ∧
        ∀ s, pre = some s → r.nullCount = s.nullCount ∧ r.statistics = s := by
    intro T _ _ k ptype val okv ok vs hf hok hcomp hp
    rw [List.length_map, hlen vs val hf] at hp ⊢
    obtain ⟨r, pool', h1, -, h3, h4, h5, h6⟩ := column_defined ok E lib pool vs nulls pre hf hok (by
      intro hr
      cases pre with
      | none => exact hcomp hr
      | some s => exact hp s rfl)
    refine ⟨r, pool', h1, h3, h6, ?_⟩
    rintro s rfl
    exact ⟨h4, h5⟩
  cases c with
  | int32 vs =>
    refine main (int32Kind_ok lanes) vs hfit (fun _ _ => trivial) (fun _ => ?_) hpre
    rw [(int32_computed lanes hl vs nulls).1, ← hlen vs (fun _ => .num 0) hfit]
    exact nullCount_le _
  | int64 vs =>
    refine main (int64Kind_ok lanes) vs hfit (fun _ _ => trivial) (fun _ => ?_) hpre
    rw [(int64_computed lanes hl vs nulls).1, ← hlen vs (fun _ => .num 0) hfit]
    exact nullCount_le _
  | float64 vs =>
    refine main (float64Kind_ok hmin hmax lanes) vs hfit (fun _ _ => trivial) (fun _ => ?_) hpre
    rw [float64_nulls, ← hlen vs (fun _ => .num 0) hfit]
    exact Nat.le_trans (nullCount_le _) (by rw [List.length_map])
  | string vs => exact main stringKind_ok vs hfit hsmall (fun h => by cases h) hpre
  | bool vs =>
    refine main boolKind_ok vs hfit (fun _ _ => trivial) (fun _ => ?_) hpre
    rw [(bool_computed vs nulls).1, ← hlen vs (fun _ => .num 0) hfit]
    exact nullCount_le _

/-- **C95**, any codec: a column without nulls, written without a dictionary, is what a reader of the codec's format makes of the record, as long as the values take less than 4 GiB. -/
theorem C95_no_nulls {dec} (c : ColValues) (E : ChunkEnv) (lib : LibsOk E.libs dec) (hd : E.enableDictionary = false) (hmin hmax : UInt64 → UInt64 → UInt64) (lanes : Nat)
    (pool : List UInt8) (nulls : List Bool) (pre : Option ColStats) (hfit : c.Fits nulls) (hsmall : c.Small) (hn : true ∉ nulls) (hlen : (c.cells nulls).length < 2 ^ 31)
    (r : ChunkRecord) (pool' : List UInt8) (hw : c.write E hmin hmax lanes pool nulls pre = some (r, pool')) (hbig : r.totalUncompressed < 2 ^ 32) :
    (inflateRecord dec E.codec r).bind (readRecord c.ptype false 0) = some (c.cells nulls) := by
  have key : ∀ r0 pool0, c.write { E with codec := .none } hmin hmax lanes pool nulls pre = some (r0, pool0) → r0.usesDictionary = false →
      inflateRecord dec E.codec r = some { r0 with totalCompressed := r.totalCompressed } →
      (inflateRecord dec E.codec r).bind (readRecord c.ptype false 0) = some (c.cells nulls) := by
    intro r0 pool0 h1 h2 h3
    have := (C95_read_iff c { E with codec := .none } rfl hmin hmax lanes pool nulls pre hfit hsmall hlen r0 pool0 h1).2.2.2 ⟨fun h => absurd h hn, fun h => by rw [h2] at h; cases h⟩
    have hc : nulls.contains true = false := by simpa using hn
    rw [hc] at this
    rw [h3]
    simp only [Option.bind_some, readRecord, h2, Bool.false_eq_true, if_false] at this ⊢
    exact this
  cases c with
  | int32 vs => obtain ⟨r0, p0, h1, h2, h3⟩ := column_inflate (int32Kind_ok lanes) E lib hd pool vs nulls pre hfit (fun _ _ => trivial) hn r pool' hw hbig; exact key r0 p0 h1 h2 h3
  | int64 vs => obtain ⟨r0, p0, h1, h2, h3⟩ := column_inflate (int64Kind_ok lanes) E lib hd pool vs nulls pre hfit (fun _ _ => trivial) hn r pool' hw hbig; exact key r0 p0 h1 h2 h3
  | float64 vs =>
    obtain ⟨r0, p0, h1, h2, h3⟩ := column_inflate (float64Kind_ok hmin hmax lanes) E lib hd pool vs nulls pre hfit (fun _ _ => trivial) hn r pool' hw hbig; exact key r0 p0 h1 h2 h3
  | string vs => obtain ⟨r0, p0, h1, h2, h3⟩ := column_inflate stringKind_ok E lib hd pool vs nulls pre hfit hsmall hn r pool' hw hbig; exact key r0 p0 h1 h2 h3
  | bool vs => obtain ⟨r0, p0, h1, h2, h3⟩ := column_inflate boolKind_ok E lib hd pool vs nulls pre hfit (fun _ _ => trivial) hn r pool' hw hbig; exact key r0 p0 h1 h2 h3

theorem column_stats {T : Type} [BEq T] {k : ColKind T} {E : ChunkEnv} {pool vs nulls pre r pool'} (hw : writeColumn k E pool vs nulls pre = some (r, pool')) :
    r.type = k.type ∧ r.nullCount = (chunkStats k vs nulls pre).1 ∧ r.statistics = (chunkStats k vs nulls pre).2 := by
  unfold writeColumn at hw
  dsimp only at hw
  cases h1 : loopRows vs nulls with
  | none => rw [h1] at hw; cases hw
  | some rows =>
    rw [h1] at hw
    dsimp only at hw
    split at hw
    · cases h2 : k.dictPage E pool (createDictionary rows).1 with
      | none => rw [h2] at hw; cases hw
      | some p =>
        rw [h2] at hw
        dsimp only at hw
        cases h3 : writeDictDataPage E p.2 (createDictionary rows).2 nulls (createDictionary rows).1.length with
        | none => rw [h3] at hw; cases hw
        | some q =>
          rw [h3] at hw
          simp only [Option.some.injEq, Prod.mk.injEq] at hw
          obtain ⟨rfl, -⟩ := hw
          exact ⟨rfl, rfl, rfl⟩
    · split at hw
      · cases hw
      · cases h2 : k.plain vs nulls (keptRows rows) with
        | none => rw [h2] at hw; cases hw
        | some bs =>
          rw [h2] at hw
          dsimp only at hw
          cases h3 : writeDataPage E pool bs nulls with
          | none => rw [h3] at hw; cases hw
          | some q =>
            rw [h3] at hw
            simp only [Option.some.injEq, Prod.mk.injEq] at hw
            obtain ⟨rfl, -⟩ := hw
            exact ⟨rfl, rfl, rfl⟩

/-- **C95**, counts and statistics computed by the functions (any codec, any option): exact for integers and booleans; for doubles NaN counts as null; for strings the nulls are counted but the
statistics stay empty (and say there are none). -/
theorem C95_statistics (c : ColValues) (E : ChunkEnv) (hmin hmax : UInt64 → UInt64 → UInt64) (lanes : Nat) (hl : 0 < lanes)
    (hmin_ok : ∀ a b, f64NaN a = false → f64NaN b = false → (hmin a b = a ∨ hmin a b = b) ∧ f64Lt a (hmin a b) = false ∧ f64Lt b (hmin a b) = false)
    (hmax_ok : ∀ a b, f64NaN a = false → f64NaN b = false → (hmax a b = a ∨ hmax a b = b) ∧ f64Lt (hmax a b) a = false ∧ f64Lt (hmax a b) b = false)
    (pool : List UInt8) (nulls : List Bool) (hfit : c.Fits nulls) (r : ChunkRecord) (pool' : List UInt8) (hw : c.write E hmin hmax lanes pool nulls none = some (r, pool')) :
    match c with
    | .int32 vs => r.type = .int32 ∧ r.nullCount = nullCount (bitmapCells vs nulls) ∧ PageReports (fun a b => decide (a < b)) .i32 (bitmapCells vs nulls) r.statistics
    | .int64 vs => r.type = .int64 ∧ r.nullCount = nullCount (bitmapCells vs nulls) ∧ PageReports (fun a b => decide (a < b)) .i64 (bitmapCells vs nulls) r.statistics
    | .float64 vs => r.type = .float64 ∧ r.nullCount = nullCount ((bitmapCells vs nulls).map (fun c => c.filter (fun v => !f64NaN v))) ∧
        PageReports f64Lt .f64 ((bitmapCells vs nulls).map (fun c => c.filter (fun v => !f64NaN v))) r.statistics
    | .string vs => r.type = .string ∧ r.nullCount = nullCount (bitmapCells vs nulls) ∧ r.statistics = {}
    | .bool vs => r.type = .bool ∧ r.nullCount = nullCount (bitmapCells vs nulls) ∧ PageReports (fun a b => !a && b) .bool (bitmapCells vs nulls) r.statistics := by
  cases c with
  | int32 vs => obtain ⟨h0, h1, h2⟩ := column_stats hw; rw [h1, h2]; exact ⟨h0, int32_computed lanes hl vs nulls⟩
  | int64 vs => obtain ⟨h0, h1, h2⟩ := column_stats hw; rw [h1, h2]; exact ⟨h0, int64_computed lanes hl vs nulls⟩
  | float64 vs => obtain ⟨h0, h1, h2⟩ := column_stats hw; rw [h1, h2]; exact ⟨h0, float64_computed hmin hmax lanes hl hmin_ok hmax_ok vs nulls⟩
  | string vs =>
    obtain ⟨h0, h1, h2⟩ := column_stats hw
    rw [h1, h2]
    refine ⟨h0, ?_, rfl⟩
    show nulls.count true = _
    obtain ⟨rows, -, r2, r3, r4, r5⟩ := loopRows_fits vs nulls hfit
    rw [r3]
    by_cases hne : nulls = []
    · subst hne
      unfold nullCount
      rw [List.count_nil, eq_comm, List.length_eq_zero_iff, List.filter_eq_nil_iff]
      intro o ho
      obtain ⟨p, hp, rfl⟩ := List.mem_map.1 ho
      simp [r5 rfl p hp]
    · rw [← r4 hne]
      clear * -
      unfold nullCount
      induction rows with
      | nil => rfl
      | cons p rows ih =>
        obtain ⟨v, b⟩ := p
        cases b <;> simp_all
  | bool vs => obtain ⟨h0, h1, h2⟩ := column_stats hw; rw [h1, h2]; exact ⟨h0, bool_computed vs nulls⟩

theorem column_dict {T : Type} [BEq T] [LawfulBEq T] {k : ColKind T} {ptype : Int} {val : T → Val} {okv : T → Prop} (ok : KindOk k ptype val okv) {E : ChunkEnv} {pool : List UInt8} {vs : List T}
    {nulls : List Bool} {pre : Option ColStats} {r : ChunkRecord} {pool' : List UInt8} (hf : nulls = [] ∨ nulls.length = vs.length)
    (hw : writeColumn k E pool vs nulls pre = some (r, pool')) :
    (r.usesDictionary = true ↔ E.enableDictionary = true ∧ (bitmapCells vs nulls).map (·.map val) ≠ [] ∧
      k.useDict E (present ((bitmapCells vs nulls).map (·.map val))).eraseDups.length ((bitmapCells vs nulls).map (·.map val)).length = true) ∧
    r.encoding = if r.usesDictionary then 4 else 0 := by
  obtain ⟨rows, r1, r2, r3, r4, r5⟩ := loopRows_fits vs nulls hf
  have hcl : ((bitmapCells vs nulls).map (·.map val)).length = vs.length := by rw [r3, ← r2]; simp
  have hcard : (present ((bitmapCells vs nulls).map (·.map val))).eraseDups.length = cardinality rows := by
    have hkept : keptRows rows = present (bitmapCells vs nulls) := by rw [keptRows_cells, r3]; rfl
    rw [show present ((bitmapCells vs nulls).map (·.map val)) = (keptRows rows).map val by rw [hkept]; exact filterMap_map_map val _,
      eraseDups_map val ok.inj _ _ rfl, List.length_map, ← createDictionary_eraseDups]
    exact (C30_analysis rows false).1.symm
  have hnil : ((bitmapCells vs nulls).map (·.map val) ≠ []) ↔ vs.isEmpty = false := by
    rw [← List.length_pos_iff, hcl, List.length_pos_iff]
    cases vs <;> simp
  rw [hcl, hcard, hnil]
  unfold writeColumn at hw
  rw [r1] at hw
  dsimp only at hw
  split at hw
  · next hc =>
    simp only [Bool.and_eq_true, Bool.not_eq_true'] at hc
    cases h2 : k.dictPage E pool (createDictionary rows).1 with
    | none => rw [h2] at hw; cases hw
    | some p =>
      rw [h2] at hw
      dsimp only at hw
      cases h3 : writeDictDataPage E p.2 (createDictionary rows).2 nulls (createDictionary rows).1.length with
      | none => rw [h3] at hw; cases hw
      | some q =>
        rw [h3] at hw
        simp only [Option.some.injEq, Prod.mk.injEq] at hw
        obtain ⟨rfl, -⟩ := hw
        exact ⟨⟨fun _ => ⟨hc.1.1, hc.1.2, hc.2⟩, fun _ => rfl⟩, rfl⟩
  · next hc =>
    simp only [Bool.and_eq_true, Bool.not_eq_true'] at hc
    split at hw
    · cases hw
    · cases h2 : k.plain vs nulls (keptRows rows) with
      | none => rw [h2] at hw; cases hw
      | some bs =>
        rw [h2] at hw
        dsimp only at hw
        cases h3 : writeDataPage E pool bs nulls with
        | none => rw [h3] at hw; cases hw
        | some q =>
          rw [h3] at hw
          simp only [Option.some.injEq, Prod.mk.injEq] at hw
          obtain ⟨rfl, -⟩ := hw
          exact ⟨⟨fun h => absurd h (by simp), fun h => absurd ⟨⟨h.1, h.2.1⟩, h.2.2⟩ hc⟩, rfl⟩

/-- **C95**: when a dictionary is written, and that the recorded encoding agrees: never for doubles and booleans; for integers with at most 16 distinct values, or at most 256 with the stricter ratio;
for strings with at most 16, or at most 2048 with the ratio; only if wanted and only for columns with rows. -/
theorem C95_dictionary (c : ColValues) (E : ChunkEnv) (hmin hmax : UInt64 → UInt64 → UInt64) (lanes : Nat) (pool : List UInt8) (nulls : List Bool) (pre : Option ColStats)
    (hfit : c.Fits nulls) (r : ChunkRecord) (pool' : List UInt8) (hw : c.write E hmin hmax lanes pool nulls pre = some (r, pool')) :
    (r.usesDictionary = true ↔ E.enableDictionary = true ∧ c.cells nulls ≠ [] ∧
      let d := (present (c.cells nulls)).eraseDups.length
      let n := (c.cells nulls).length
      match c with
      | .int32 _ => d ≤ 16 ∨ d ≤ 256 ∧ E.strictLt d n = true
      | .int64 _ => d ≤ 16 ∨ d ≤ 256 ∧ E.strictLt d n = true
      | .string _ => d ≤ 16 ∨ d ≤ 2048 ∧ E.ratioLt d n = true
      | .float64 _ => False
      | .bool _ => False) ∧
    r.encoding = if r.usesDictionary then 4 else 0 := by
  have hi : ∀ (b : Bool) (d : Nat), intDictWanted b d = true ↔ d ≤ 16 ∨ d ≤ 256 ∧ b = true := by
    intro b d; unfold intDictWanted; split <;> simp_all
  have hs : ∀ (b : Bool) (d : Nat), shouldUseDictionary d b = true ↔ d ≤ 16 ∨ d ≤ 2048 ∧ b = true := by
    intro b d
    unfold shouldUseDictionary
    cases b with
    | false => simp
    | true =>
      simp only [and_true]
      split_ifs <;> simp only [true_iff, Bool.false_eq_true, false_iff] <;> omega
  cases c with
  | int32 vs => have h := column_dict (int32Kind_ok lanes) hfit hw; rw [show (int32Kind lanes).useDict = fun E card total => intDictWanted (E.strictLt card total) card from rfl] at h; rw [hi] at h; exact h
  | int64 vs => have h := column_dict (int64Kind_ok lanes) hfit hw; rw [show (int64Kind lanes).useDict = fun E card total => intDictWanted (E.strictLt card total) card from rfl] at h; rw [hi] at h; exact h
  | string vs => have h := column_dict stringKind_ok hfit hw; rw [show stringKind.useDict = fun E card total => shouldUseDictionary card (E.ratioLt card total) from rfl] at h; rw [hs] at h; exact h
  | float64 vs => have h := column_dict (float64Kind_ok hmin hmax lanes) hfit hw; rw [show (float64Kind hmin hmax lanes).useDict = fun _ _ _ => false from rfl] at h; rw [Bool.false_eq_true] at h; exact h
  | bool vs => have h := column_dict boolKind_ok hfit hw; rw [show boolKind.useDict = fun _ _ _ => false from rfl] at h; rw [Bool.false_eq_true] at h; exact h

/-- **C95 finding**: a bitmap that is shorter than the values is read beyond its end, by every function, with any options. -/
theorem C95_short_bitmap (c : ColValues) (E : ChunkEnv) (hmin hmax : UInt64 → UInt64 → UInt64) (lanes : Nat) (pool : List UInt8) (nulls : List Bool) (pre : Option ColStats)
    (hne : nulls ≠ []) (hshort : nulls.length < match c with
      | .int32 vs => vs.length | .int64 vs => vs.length | .float64 vs => vs.length | .string vs => vs.length | .bool vs => vs.length) :
    c.write E hmin hmax lanes pool nulls pre = none := by
  have key : ∀ {T : Type} [BEq T] (k : ColKind T) (vs : List T), nulls.length < vs.length → writeColumn k E pool vs nulls pre = none := by
    intro T _ k vs h
    unfold writeColumn
    have : loopRows vs nulls = none := by rw [loopRows, if_neg hne, if_pos h]
    rw [this]
  cases c <;> exact key _ _ hshort

/-- **C95 finding**: `build_row_group` writes nothing: every column starts at the end of the output and has size zero. -/
theorem C95_row_group_empty (sizes : List Nat) (output : List UInt8) :
    buildRowGroup sizes output = (⟨0, sizes.headD 0, List.replicate sizes.length output.length, List.replicate sizes.length 0⟩, output) := by
  have key : ∀ (l : List Nat) (m : RowGroupMeta), m.totalByteSize = 0 →
      l.foldl (fun (s : RowGroupMeta × List UInt8) _ =>
        let start := s.2.length
        let size := s.2.length - start
        ({ s.1 with offsets := s.1.offsets ++ [start], sizes := s.1.sizes ++ [size], totalByteSize := s.1.totalByteSize + size }, s.2)) (m, output)
        = (⟨0, m.numRows, m.offsets ++ List.replicate l.length output.length, m.sizes ++ List.replicate l.length 0⟩, output) := by
    intro l
    induction l with
    | nil => rintro ⟨a, b, c, d⟩ h; dsimp only at h; subst h; simp
    | cons x l ih =>
      intro m h
      rw [List.foldl_cons, ih _ (by simp [h])]
      simp [List.replicate_succ]
  cases sizes with
  | nil => rfl
  | cons a l => rw [buildRowGroup, key (a :: l) _ rfl]; rfl

/-! ### Examples and what fails -/

/-- Options for the examples: no compression, dictionaries if there are at most 16 distinct values. -/
def chunkEnv (codec : Compression) (dict : Bool) : ChunkEnv := ⟨markLibs, codec, 3, dict, fun _ _ => false, fun _ _ => false⟩

/-- An `int32` column with nulls, read back: a first group of eight rows with nulls, then a long run. -/
example : let c := ColValues.int32 ([7, 0, 7, 8, 9, 10, 11, 12] ++ List.replicate 9 5)
    let nulls := [false, true, false, false, false, false, false, true] ++ List.replicate 9 false
    c.Fits nulls ∧ c.Small ∧ Undisplaced (levelsOf nulls) ∧
    (c.write (chunkEnv .none false) x86Min x86Max 4 [] nulls none).bind (fun p => readRecord c.ptype true 0 p.1) = some (c.cells nulls) := by
  refine ⟨.inr rfl, trivial, ?_, by decide +kernel⟩
  have : displacedFrom (levelsOf ([false, true, false, false, false, false, false, true] ++ List.replicate 9 false)) = none := by decide +kernel
  intro e he; rw [this] at he; cases he

/-- The same with a dictionary of strings. -/
example : let c := ColValues.string [[97], [98], [97], [], [97]]
    c.Fits [false, false, false, true, false] ∧ c.Small ∧
    (c.write (chunkEnv .none true) x86Min x86Max 4 [] [false, false, false, true, false] none).bind (fun p => readRecord c.ptype true 2 p.1) =
      some (c.cells [false, false, false, true, false]) := by
  refine ⟨.inr rfl, ?_, by decide +kernel⟩
  intro s hs
  simp only [List.mem_cons, List.not_mem_nil, or_false] at hs
  rcases hs with rfl | rfl | rfl | rfl | rfl <;> decide

/-- A column that is compressed: the library of the example stores a mark and the data, so nothing gets smaller. -/
example : let c := ColValues.int64 [1, 2, 3]
    LibsOk (chunkEnv .zstd false).libs markDec ∧ (c.write (chunkEnv .zstd false) x86Min x86Max 4 [] [] none).bind (fun p =>
      (inflateRecord markDec .zstd p.1).bind (readRecord c.ptype false 0)) = some (c.cells []) := ⟨markLibs_ok, by decide +kernel⟩

/-- **C95 finding**: NaN is counted as a null although no definition levels are written for it, so a reader that goes by the recorded null count does not get the column back. -/
theorem C95_nan_null_refuted :
    let c := ColValues.float64 [nanBits, oneBits]
    (c.write (chunkEnv .none false) x86Min x86Max 4 [] [] none).map (fun p => (p.1.nullCount, readRecord c.ptype (decide (0 < p.1.nullCount)) 0 p.1, readRecord c.ptype false 0 p.1)) =
      some (1, none, some (c.cells [])) := by decide +kernel

/-- **C95 finding**: a string column with a null: the record counts one null, its statistics say there is none. -/
theorem C95_string_statistics_refuted :
    ((ColValues.string [[97], []]).write (chunkEnv .none false) x86Min x86Max 4 [] [false, true] none).map (fun p => (p.1.nullCount, p.1.statistics.nullCount, p.1.statistics.hasNull)) =
      some (1, 0, false) := by decide +kernel

/-- **C95 finding**: statistics of the caller are not checked: bounds the column does not have are recorded, and a null count above the number of rows makes the function throw. -/
theorem C95_caller_statistics_refuted :
    ((ColValues.int32 [1]).write (chunkEnv .none false) x86Min x86Max 4 [] [] (some ⟨false, 0, 0, .i32 7, .i32 9⟩)).map (fun p => (p.1.statistics.min, p.1.statistics.max)) = some (.i32 7, .i32 9) ∧
    (ColValues.int32 [1]).write (chunkEnv .none false) x86Min x86Max 4 [] [] (some ⟨true, 2, 0, .none, .none⟩) = none := by decide +kernel

/-- The full property: some reader recovers every column from its record, knowing the physical type, the codec and how to decompress. -/
def C95_full : Prop := ∃ reader : Int → Compression → ChunkRecord → Option (List (Option Val)), ∀ (c : ColValues) (E : ChunkEnv) (dec : Int → List UInt8 → Option (List UInt8)) (nulls : List Bool)
    (pool : List UInt8) (r : ChunkRecord) (pool' : List UInt8), LibsOk E.libs dec → E.codec = .none → c.Fits nulls → c.Small →
    c.write E x86Min x86Max 4 pool nulls none = some (r, pool') → reader c.ptype E.codec r = some (c.cells nulls)

/-- The nulls of two columns that are written alike. -/
def alikeNulls (a b : Nat) : List Bool := List.replicate a true ++ List.replicate 8 false ++ List.replicate b true ++ List.replicate 8 false

/-- **C95** refuted: there are two different columns with the same record, even uncompressed and without a dictionary, so no reader can tell which was written: three nulls, eight ones, two nulls and
eight ones, or two nulls, eight ones, three nulls and eight ones. -/
theorem C95_full_fails : ¬ C95_full := by
  rintro ⟨reader, h⟩
  have same : (ColValues.int32 (List.replicate 21 1)).write (chunkEnv .none false) x86Min x86Max 4 [] (alikeNulls 3 2) none =
      (ColValues.int32 (List.replicate 21 1)).write (chunkEnv .none false) x86Min x86Max 4 [] (alikeNulls 2 3) none := by decide +kernel
  obtain ⟨r, pool', h1, -⟩ := C95_defined (dec := markDec) (ColValues.int32 (List.replicate 21 1)) (chunkEnv .none false) markLibs_ok x86Min x86Max 4 (by decide) [] (alikeNulls 3 2) none
    (.inr rfl) trivial (fun s hs => by cases hs)
  have a := h (ColValues.int32 (List.replicate 21 1)) (chunkEnv .none false) markDec (alikeNulls 3 2) [] r pool' markLibs_ok rfl (.inr rfl) trivial h1
  have b := h (ColValues.int32 (List.replicate 21 1)) (chunkEnv .none false) markDec (alikeNulls 2 3) [] r pool' markLibs_ok rfl (.inr rfl) trivial (same ▸ h1)
  rw [show (ColValues.int32 (List.replicate 21 1)).ptype = 1 from rfl] at a b
  rw [b] at a
  revert a
  decide +kernel

end Vroom
