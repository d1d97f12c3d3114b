import Verif.Lemmas.ColumnChunk
import Verif.Props.PageStats
import Verif.Props.Statistics
/-
C95: column chunks of the `std::vector` writer.
-/
namespace Vroom
open Parquet Spec

/-- What the five kinds have in common. -/
structure KindOk {T : Type} (k : ColKind T) (ptype : Int) (val : T → Val) (okv : T → Prop) : Prop where
  inj : ∀ a b, val a = val b → a = b
  plain : ∀ vs nulls rows, (nulls = [] ∨ nulls.length = vs.length) → loopRows vs nulls = some rows → (∀ v ∈ vs, okv v) →
    ∃ bs, k.plain vs nulls (keptRows rows) = some bs ∧ plainValues ptype (keptRows rows).length bs = some ((keptRows rows).map val)
  dict : (∀ E c t, k.useDict E c t = false) ∨ ∃ bytes : List T → List UInt8, (∀ E pool d, k.dictPage E pool d = shrinkPage E pool (bytes d)) ∧
    ∀ d, (∀ v ∈ d, okv v) → ∀ rest, plainRest ptype d.length (bytes d ++ rest) = some (d.map val, rest)

theorem legacy_no_bitmap {T : Type} (k : Nat) (bytes : T → List UInt8) (num : T → Nat) (hk : ∀ v, (bytes v).length = k) (hn : ∀ v, leNat (bytes v) = num v) (vs : List T) :
    ∃ bs, encodeFixedLegacy k bytes vs [] = some bs ∧ (plainFixed k vs.length bs).map (fun p => p.1.map Val.num) = some (vs.map (fun v => Val.num (num v))) := by
  refine ⟨vs.flatMap bytes, by rw [encodeFixedLegacy]; exact writeInto_exact _ _ (flatMap_length k bytes hk _), ?_⟩
  have := plainFixed_flatMap k bytes num hk hn vs []
  rw [List.append_nil] at this
  rw [this]; simp

theorem int32Kind_ok (lanes : Nat) : KindOk (int32Kind lanes) 1 (fun v => .num v.toUInt32.toNat) (fun _ => True) where
  inj := fun a b h => by
    simp only [Val.num.injEq] at h
    have h' := congrArg UInt32.toInt32 (UInt32.toNat_inj.1 h)
    simpa using h'
  plain := fun vs nulls rows _ _ _ => by
    obtain ⟨bs, h1, h2⟩ := legacy_no_bitmap 4 (fun (v : Int32) => le4 v.toUInt32) (fun v => v.toUInt32.toNat) (fun _ => rfl) (fun v => leNat_le4 _) (keptRows rows)
    exact ⟨bs, h1, by rw [plainValues, if_neg (by decide), if_pos rfl]; exact h2⟩
  dict := .inr ⟨_, fun _ _ _ => rfl, fun d _ rest => by
    rw [plainRest, if_pos rfl, plainFixed_flatMap 4 (fun (v : Int32) => le4 v.toUInt32) (fun v => v.toUInt32.toNat) (fun _ => rfl) (fun v => leNat_le4 _)]
    simp⟩

theorem int64Kind_ok (lanes : Nat) : KindOk (int64Kind lanes) 2 (fun v => .num v.toUInt64.toNat) (fun _ => True) where
  inj := fun a b h => by
    simp only [Val.num.injEq] at h
    have h' := congrArg UInt64.toInt64 (UInt64.toNat_inj.1 h)
    simpa using h'
  plain := fun vs nulls rows _ _ _ => by
    obtain ⟨bs, h1, h2⟩ := legacy_no_bitmap 8 (fun (v : Int64) => le8 v.toUInt64) (fun v => v.toUInt64.toNat) (fun _ => rfl) (fun v => leNat_le8 _) (keptRows rows)
    exact ⟨bs, h1, by rw [plainValues, if_neg (by decide), if_neg (by decide), if_pos (by decide)]; exact h2⟩
  dict := .inr ⟨_, fun _ _ _ => rfl, fun d _ rest => by
    rw [plainRest, if_neg (by decide), if_pos rfl, plainFixed_flatMap 8 (fun (v : Int64) => le8 v.toUInt64) (fun v => v.toUInt64.toNat) (fun _ => rfl) (fun v => leNat_le8 _)]
    simp⟩

theorem float64Kind_ok (hmin hmax : UInt64 → UInt64 → UInt64) (lanes : Nat) : KindOk (float64Kind hmin hmax lanes) 5 (fun v => .num v.toNat) (fun _ => True) where
  inj := fun a b h => by
    simp only [Val.num.injEq] at h
    exact UInt64.toNat_inj.1 h
  plain := fun vs nulls rows _ _ _ => by
    obtain ⟨bs, h1, h2⟩ := legacy_no_bitmap 8 le8 UInt64.toNat (fun _ => rfl) leNat_le8 (keptRows rows)
    exact ⟨bs, h1, by rw [plainValues, if_neg (by decide), if_neg (by decide), if_pos (by decide)]; exact h2⟩
  dict := .inl fun _ _ _ => rfl

theorem bytes_inj (a b : List UInt8) (h : Val.bytes a = Val.bytes b) : a = b := by simpa using h

theorem stringKind_ok : KindOk stringKind 6 .bytes (fun s => s.length < 2 ^ 32) where
  inj := bytes_inj
  plain := fun vs nulls rows hf hr hok => by
    have hrows : ((vs.zipIdx.filter (fun p => nulls.isEmpty || !(nulls.getD p.2 false))).map (·.1)) = keptRows rows := by
      obtain ⟨rows', r1, -, r3, -, -⟩ := loopRows_fits vs nulls hf
      rw [hr, Option.some.injEq] at r1
      subst r1
      rw [keptRows_cells, ← r3]
      have h2 := congrArg Prod.snd (splitNulls_eq vs nulls)
      simp only [Stats.splitNulls, present] at h2
      rw [← h2]
      congr 1
      apply List.filter_congr
      intro p _
      unfold Stats.nullAt
      cases nulls with
      | nil => simp
      | cons => simp
    have hk : ∀ s ∈ keptRows rows, s.length < 2 ^ 32 := by
      intro s hs
      rw [← hrows] at hs
      obtain ⟨p, hp, rfl⟩ := List.mem_map.1 hs
      exact hok _ (List.fst_mem_of_mem_zipIdx (List.mem_of_mem_filter hp))
    refine ⟨(keptRows rows).flatMap lenPrefixed, ?_, ?_⟩
    · show encodeByteArrayLegacy vs nulls = _
      rw [encodeByteArrayLegacy, hrows, writeInto_exact _ _ (flatMap_lenPrefixed_length _)]
    · have := plainByteArrays_lenPrefixed (keptRows rows) hk []
      rw [List.append_nil] at this
      rw [plainValues, if_neg (by decide), if_neg (by decide), if_neg (by decide), if_pos rfl, this]; rfl
  dict := .inr ⟨_, fun _ _ _ => rfl, fun d hd rest => by
    rw [plainRest, if_neg (by decide), if_neg (by decide), if_pos rfl, plainByteArrays_lenPrefixed d hd rest]; rfl⟩

theorem boolKind_ok : KindOk boolKind 0 .bool (fun _ => True) where
  inj := fun a b h => by simpa using h
  plain := fun vs nulls rows _ _ _ => by
    obtain ⟨bs, h1, h2, h3⟩ := packBools_decode (keptRows rows)
    exact ⟨bs, h1, by rw [plainValues, if_pos rfl, if_neg (by omega), h3]⟩
  dict := .inl fun _ _ _ => rfl

theorem indexWidth_eq (n : Nat) : indexWidth n = (dictBitWidth n).toNat := by
  unfold indexWidth dictBitWidth bitsRequiredInternal
  by_cases hn : n = 0
  · subst hn; decide +kernel
  · rw [if_pos (by omega), if_neg hn]
    dsimp only
    generalize UInt32.ofNat (n - 1) = v
    have h32 := (C29_bits_required v).2 32 v.toNat_lt
    by_cases hv : v = 0
    · subst hv; decide +kernel
    · rw [if_neg hv, if_neg]
      · show _ = bitsRequired v % 2 ^ 8
        omega
      · intro h0
        have := (C29_bits_required v).1
        rw [h0] at this
        exact hv (UInt32.toNat_inj.1 (by simpa using this))

theorem mapM_lookup_inv {V : Type} [BEq V] [LawfulBEq V] (dict : List V) (hnd : dict.Nodup) : ∀ (is : List Nat) (vs : List V),
    is.mapM (fun i => dict[i]?) = some vs → is = vs.map (fun v => dict.idxOf v) := by
  intro is
  induction is with
  | nil => intro vs h; simp at h; subst h; rfl
  | cons i t ih =>
    intro vs h
    rw [List.mapM_cons] at h
    simp only [Option.bind_eq_bind, Option.bind_eq_some_iff] at h
    obtain ⟨v, h1, ws, h2, h3⟩ := h
    simp only [pure, Option.some.injEq] at h3
    subst h3
    rw [List.map_cons, ← ih ws h2]
    congr 1
    rw [List.getElem?_eq_some_iff] at h1
    obtain ⟨hi, rfl⟩ := h1
    exact (hnd.idxOf_getElem i hi).symm

/-- Reading the data page of dictionary indices. -/
theorem dictData_iff {V : Type} [BEq V] [LawfulBEq V] (dict vs : List V) (hnd : dict.Nodup) (hmem : ∀ v ∈ vs, v ∈ dict) (hsz : dict.length < 2 ^ 31) :
    dictData dict vs.length (UInt8.ofNat (indexWidth dict.length) :: encodeHybridRle (indexWidth dict.length) (vs.map (fun v => UInt32.ofNat (dict.idxOf v)))) = some vs ↔
      Undisplaced (vs.map (fun v => UInt32.ofNat (dict.idxOf v))) := by
  obtain ⟨w0, w32, wfit⟩ := dictBitWidth_spec dict.length (by omega)
  rw [← indexWidth_eq] at w0 w32 wfit
  have hw : (UInt8.ofNat (indexWidth dict.length)).toNat = indexWidth dict.length := by
    show indexWidth dict.length % 2 ^ 8 = _
    omega
  have hlt : ∀ v ∈ vs, dict.idxOf v < dict.length := fun v hv => List.idxOf_lt_length_of_mem (hmem v hv)
  have hto : ∀ v ∈ vs, (UInt32.ofNat (dict.idxOf v)).toNat = dict.idxOf v := by
    intro v hv
    have := hlt v hv
    show _ % 2 ^ 32 = _
    exact Nat.mod_eq_of_lt (by omega)
  by_cases hz : vs.length = 0
  · have := List.length_eq_zero_iff.1 hz
    subst this
    simp [dictData, Undisplaced]
  · rw [dictData.eq_def, if_neg hz]
    dsimp only
    rw [hw, if_neg (by omega)]
    have hbound : ∀ x ∈ vs.map (fun v => UInt32.ofNat (dict.idxOf v)), x.toNat < 2 ^ indexWidth dict.length := by
      intro x hx
      obtain ⟨v, hv, rfl⟩ := List.mem_map.1 hx
      rw [hto v hv]
      exact wfit _ (hlt v hv)
    have hex := C29_hybrid_exact _ w32 _ hbound [] vs.length (by simp)
    rw [List.append_nil] at hex
    rw [hex]
    dsimp only
    have hrb := readBack_iff _ (vs.map (fun v => UInt32.ofNat (dict.idxOf v))) rfl
    rw [List.length_map] at hrb
    have hnat : (vs.map (fun v => UInt32.ofNat (dict.idxOf v))).map UInt32.toNat = vs.map (fun v => dict.idxOf v) := by
      rw [List.map_map]
      apply List.map_congr_left
      intro v hv
      exact hto v hv
    rw [← List.map_take]
    constructor
    · intro h
      have := mapM_lookup_inv dict hnd _ _ h
      rw [← hnat] at this
      exact hrb.1 ((List.map_inj_right (fun a b hab => UInt32.toNat_inj.1 hab)).1 this)
    · intro h
      rw [hrb.2 h, hnat]
      apply mapM_get
      rw [List.map_map]
      apply List.map_congr_left
      intro v hv
      simp only [Function.comp_apply]
      rw [List.getElem?_eq_getElem (hlt v hv), List.getElem_idxOf]

theorem ranks_map {T : Type} [BEq T] [LawfulBEq T] (val : T → Val) (inj : ∀ a b, val a = val b → a = b) (vs : List T) :
    ranks (vs.map val) = vs.map (fun v => UInt32.ofNat (vs.eraseDups.idxOf v)) := by
  unfold ranks
  rw [List.map_map, eraseDups_map val inj _ vs rfl]
  apply List.map_congr_left
  intro v _
  simp only [Function.comp_apply]
  congr 1
  generalize vs.eraseDups = d
  induction d with
  | nil => rfl
  | cons a d ih =>
    rw [List.map_cons, List.idxOf_cons, List.idxOf_cons, ih]
    have : (val a == val v) = (a == v) := by
      rw [Bool.eq_iff_iff]
      simp only [beq_iff_eq]
      exact ⟨inj a v, fun h => by rw [h]⟩
    rw [this]

theorem eraseDups_nodup {T : Type} [BEq T] [LawfulBEq T] (vs : List T) : vs.eraseDups.Nodup := by
  have := (dictInv_all (vs.map (fun v => (v, true)))).nodup
  have e := createDictionary_eraseDups (vs.map (fun v => (v, true)))
  have hk : keptRows (vs.map (fun v => (v, true))) = vs := by
    rw [keptRows_cells]; simp [Function.comp_def]
  rw [hk] at e
  rw [← e]
  exact this

/-- C95 for one kind, without compression. -/
theorem column_reads {T : Type} [BEq T] [LawfulBEq T] {k : ColKind T} {ptype : Int} {val : T → Val} {okv : T → Prop} (ok : KindOk k ptype val okv) (E : ChunkEnv) (hcodec : E.codec = .none)
    (pool : List UInt8) (vs : List T) (nulls : List Bool) (pre : Option ColStats) (hf : nulls = [] ∨ nulls.length = vs.length) (hok : ∀ v ∈ vs, okv v)
    (hlen : vs.length < 2 ^ 31) (r : ChunkRecord) (pool' : List UInt8) (hw : writeColumn k E pool vs nulls pre = some (r, pool')) :
    r.numValues = vs.length ∧ r.totalCompressed = r.data.length ∧
    (readRecord ptype (nulls.contains true) (present ((bitmapCells vs nulls).map (·.map val))).eraseDups.length r = some ((bitmapCells vs nulls).map (·.map val)) ↔
      (true ∈ nulls → Undisplaced (levelsOf nulls)) ∧ (r.usesDictionary = true → Undisplaced (ranks (present ((bitmapCells vs nulls).map (·.map val)))))) := by
  obtain ⟨rows, r1, r2, r3, r4, r5⟩ := loopRows_fits vs nulls hf
  have hrl : rows.length = vs.length := by rw [← r2, List.length_map]
  have hkept : keptRows rows = present (bitmapCells vs nulls) := by rw [keptRows_cells, r3]; rfl
  have hpres : present ((bitmapCells vs nulls).map (·.map val)) = (keptRows rows).map val := by rw [hkept]; exact filterMap_map_map val _
  have hcl : ((bitmapCells vs nulls).map (·.map val)).length = vs.length := by rw [r3]; simp [hrl]
  have hnull : true ∈ nulls → ((bitmapCells vs nulls).map (·.map val)).map Option.isNone = nulls := by
    intro hm
    have hne : nulls ≠ [] := by rintro rfl; simp at hm
    rw [r3, ← r4 hne]
    simp only [List.map_map]
    apply List.map_congr_left
    intro p _
    obtain ⟨v, b⟩ := p
    cases b <;> rfl
  have hnone : true ∉ nulls → none ∉ (bitmapCells vs nulls).map (·.map val) := by
    intro hm hx
    obtain ⟨o, ho, he⟩ := List.mem_map.1 hx
    have ho' : o = none := by cases o <;> simp at he ⊢
    subst ho'
    rw [r3] at ho
    obtain ⟨p, hp, he⟩ := List.mem_map.1 ho
    have hp2 : p.2 = false := by cases hb : p.2 <;> simp [hb] at he ⊢
    by_cases hne : nulls = []
    · have := r5 hne p hp
      rw [hp2] at this; cases this
    · apply hm
      rw [← r4 hne]
      exact List.mem_map.2 ⟨p, hp, by simp [hp2]⟩
  have hvmem : ∀ v ∈ keptRows rows, v ∈ vs := by
    intro v hv
    rw [← r2]
    unfold keptRows at hv
    obtain ⟨p, hp, rfl⟩ := List.mem_map.1 hv
    exact List.mem_map_of_mem (List.mem_of_mem_filter hp)
  have hshrink : ∀ pool page, shrinkPage E pool page = some (page, pool) := by intro pool page; rw [shrinkPage, if_pos hcodec]
  by_cases h0 : vs.length = 0
  · -- no rows
    have hv := List.length_eq_zero_iff.1 h0
    subst hv
    have hn : true ∉ nulls := by
      rcases hf with rfl | h
      · simp
      · have hn0 : nulls = [] := List.length_eq_zero_iff.1 (by simpa using h)
        rw [hn0]; simp
    have hr : rows = [] := List.length_eq_zero_iff.1 (by simpa using hrl)
    subst hr
    unfold writeColumn at hw
    rw [r1] at hw
    dsimp only at hw
    rw [if_neg (by simp)] at hw
    split at hw
    · cases hw
    cases hp : k.plain [] nulls (keptRows []) with
    | none => rw [hp] at hw; cases hw
    | some bs =>
    rw [hp] at hw
    dsimp only at hw
    unfold writeDataPage at hw
    rw [hshrink] at hw
    simp only [Option.some.injEq, Prod.mk.injEq] at hw
    obtain ⟨rfl, -⟩ := hw
    refine ⟨rfl, rfl, ?_⟩
    constructor
    · intro _; exact ⟨fun h => absurd h hn, fun h => by cases h⟩
    · intro _; simp [readRecord, pageRows, bitmapCells]
  have hcells0 : ((bitmapCells vs nulls).map (·.map val)).length ≠ 0 := by rw [hcl]; exact h0
  unfold writeColumn at hw
  rw [r1] at hw
  dsimp only at hw
  split at hw
  · next hdict =>
    rcases ok.dict with hno | ⟨bytes, hpage, hread⟩
    · rw [hno] at hdict; simp at hdict
    rw [hpage, hshrink] at hw
    dsimp only at hw
    have hI := dictInv_all rows
    have hd : (createDictionary rows).1 = (keptRows rows).eraseDups := createDictionary_eraseDups rows
    have hind : (createDictionary rows).2 = rows.map (fun r => if r.2 then Int32.ofNat ((createDictionary rows).1.idxOf r.1) else -1) := hI.indices
    have hlr : loopRows (createDictionary rows).2 nulls = some (rows.map (fun r => (if r.2 then Int32.ofNat ((createDictionary rows).1.idxOf r.1) else -1, r.2))) := by
      rw [hind]
      unfold loopRows
      by_cases hne : nulls = []
      · rw [if_pos hne, List.map_map]
        congr 1
        apply List.map_congr_left
        intro p hp
        simp [r5 hne p hp]
      · rw [if_neg hne, if_neg (by rw [List.length_map, hrl, hf.resolve_left hne]; omega)]
        congr 1
        conv_lhs => rw [← r4 hne]
        rw [List.map_map]
        generalize (createDictionary rows).1 = d
        clear * -
        induction rows with
        | nil => rfl
        | cons p rows ih => simp [ih]
    have hk2 : (keptRows (rows.map (fun r => (if r.2 then Int32.ofNat ((createDictionary rows).1.idxOf r.1) else -1, r.2)))).map Int32.toUInt32
        = (keptRows rows).map (fun v => UInt32.ofNat ((createDictionary rows).1.idxOf v)) := by
      generalize (createDictionary rows).1 = d
      clear * -
      induction rows with
      | nil => rfl
      | cons p rows ih =>
        obtain ⟨v, b⟩ := p
        cases b with
        | false => simpa [keptRows] using ih
        | true =>
          simp only [keptRows, List.map_cons, if_true, List.filter_cons_of_pos] at ih ⊢
          rw [ih]
          congr 1
    unfold writeDictDataPage at hw
    rw [hlr] at hw
    dsimp only at hw
    rw [hshrink, hk2] at hw
    simp only [Option.some.injEq, Prod.mk.injEq] at hw
    obtain ⟨rfl, -⟩ := hw
    refine ⟨rfl, rfl, ?_⟩
    have hdm : ∀ v ∈ (createDictionary rows).1, okv v := by
      intro v hv
      rw [hd, List.mem_eraseDups] at hv
      exact hok v (hvmem v hv)
    have hdl : (createDictionary rows).1.length < 2 ^ 31 := by
      have hsub : (createDictionary rows).1 ⊆ vs := by
        intro v hv
        rw [hd, List.mem_eraseDups] at hv
        exact hvmem v hv
      have := (hI.nodup.subperm hsub).length_le
      exact Nat.lt_of_le_of_lt this hlen
    have hkl : (present ((bitmapCells vs nulls).map (·.map val))).eraseDups.length = (createDictionary rows).1.length := by
      rw [hpres, eraseDups_map val ok.inj _ _ rfl, List.length_map, hd]
    rw [hkl]
    simp only [readRecord, if_true]
    rw [hread _ hdm]
    dsimp only
    conv_lhs => lhs; rw [← hcl]
    rw [pageRows_iff nulls _ hcells0 (by rw [hcl]; exact hlen) hnull hnone]
    have hpv : ∀ (d : List Val) (n : Nat) (bs : List UInt8), pageValues ptype 8 (some d) n bs = dictData d n bs := by
      intro d n bs; rw [pageValues, if_neg (by decide), if_pos rfl]; rfl
    rw [hpv]
    change (_ ∧ dictData _ (present ((bitmapCells vs nulls).map (·.map val))).length _ = some (present ((bitmapCells vs nulls).map (·.map val)))) ↔ _
    rw [hpres, List.length_map, dictData_map, ranks_map val ok.inj, hd]
    have hiff := dictData_iff (keptRows rows).eraseDups (keptRows rows) (eraseDups_nodup _) (fun v hv => List.mem_eraseDups.2 hv) (by rw [← hd]; exact hdl)
    have hmap : ∀ o : Option (List T), o.map (List.map val) = some ((keptRows rows).map val) ↔ o = some (keptRows rows) := by
      intro o
      cases o with
      | none => simp
      | some l => simp only [Option.map_some, Option.some.injEq]; exact List.map_inj_right (fun a b h => ok.inj a b h)
    rw [hmap, hiff]
    simp
  · split at hw
    · cases hw
    · obtain ⟨bs, p1, p2⟩ := ok.plain vs nulls rows hf r1 hok
      rw [p1] at hw
      dsimp only at hw
      unfold writeDataPage at hw
      rw [hshrink] at hw
      simp only [Option.some.injEq, Prod.mk.injEq] at hw
      obtain ⟨rfl, -⟩ := hw
      refine ⟨rfl, rfl, ?_⟩
      simp only [readRecord, Bool.false_eq_true, if_false]
      conv_lhs => lhs; rw [← hcl]
      rw [pageRows_iff nulls _ hcells0 (by rw [hcl]; exact hlen) hnull hnone]
      change (_ ∧ pageValues ptype 0 none (present ((bitmapCells vs nulls).map (·.map val))).length bs = some (present ((bitmapCells vs nulls).map (·.map val)))) ↔ _
      rw [hpres, List.length_map, pageValues, if_pos rfl, p2]
      simp

/-- **C95, exactly, without compression.**  For every column function, every column with a bitmap that fits and every option: what a reader makes of the record is the column written if and
only if neither the levels nor (with a dictionary) the positions are displaced by the hybrid encoder.  The reader must know whether there are nulls and how many distinct values. -/
theorem C95_read_iff (c : ColValues) (E : ChunkEnv) (hcodec : E.codec = .none) (hmin hmax : UInt64 → UInt64 → UInt64) (lanes : Nat) (pool : List UInt8) (nulls : List Bool)
    (pre : Option ColStats) (hfit : c.Fits nulls) (hsmall : c.Small) (hlen : (c.cells nulls).length < 2 ^ 31) (r : ChunkRecord) (pool' : List UInt8)
    (hw : c.write E hmin hmax lanes pool nulls pre = some (r, pool')) :
    r.numValues = (c.cells nulls).length ∧ r.totalCompressed = r.data.length ∧
    (readRecord c.ptype (nulls.contains true) (present (c.cells nulls)).eraseDups.length r = some (c.cells nulls) ↔
      (true ∈ nulls → Undisplaced (levelsOf nulls)) ∧ (r.usesDictionary = true → Undisplaced (ranks (present (c.cells nulls))))) := by
  have hl : ∀ {T : Type} (vs : List T) (f : T → Val), (nulls = [] ∨ nulls.length = vs.length) → ((bitmapCells vs nulls).map (·.map f)).length = vs.length := by
    intro T vs f hf
    obtain ⟨rows, -, r2, r3, -, -⟩ := loopRows_fits vs nulls hf
    rw [r3, ← r2]; simp
  cases c with
  | int32 vs =>
    have := hl vs (fun v => .num v.toUInt32.toNat) hfit
    simp only [ColValues.cells] at hlen ⊢
    rw [this] at hlen ⊢
    exact column_reads (int32Kind_ok lanes) E hcodec pool vs nulls pre hfit (fun _ _ => trivial) hlen r pool' hw
  | int64 vs =>
    have := hl vs (fun v => .num v.toUInt64.toNat) hfit
    simp only [ColValues.cells] at hlen ⊢
    rw [this] at hlen ⊢
    exact column_reads (int64Kind_ok lanes) E hcodec pool vs nulls pre hfit (fun _ _ => trivial) hlen r pool' hw
  | float64 vs =>
    have := hl vs (fun v => .num v.toNat) hfit
    simp only [ColValues.cells] at hlen ⊢
    rw [this] at hlen ⊢
    exact column_reads (float64Kind_ok hmin hmax lanes) E hcodec pool vs nulls pre hfit (fun _ _ => trivial) hlen r pool' hw
  | string vs =>
    have := hl vs .bytes hfit
    simp only [ColValues.cells] at hlen ⊢
    rw [this] at hlen ⊢
    exact column_reads stringKind_ok E hcodec pool vs nulls pre hfit hsmall hlen r pool' hw
  | bool vs =>
    have := hl vs .bool hfit
    simp only [ColValues.cells] at hlen ⊢
    rw [this] at hlen ⊢
    exact column_reads boolKind_ok E hcodec pool vs nulls pre hfit (fun _ _ => trivial) hlen r pool' hw

/- Columns on both sides of the equivalence are in Props/ColumnChunkMore. -/

end Vroom
