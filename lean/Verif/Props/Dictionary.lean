import Verif.Model.Dictionary
import Verif.Props.Plain
import Mathlib.Data.List.Perm.Subperm
/-
C30: dictionary encoding of string columns.
-/
namespace Vroom
open Parquet

/-- Invariant of the dictionary loop after the rows `done`. -/
structure DictInv {T : Type} [BEq T] [LawfulBEq T] (done : List (T × Bool)) (s : DictState T) : Prop where
  nodup : s.dict.Nodup
  map : ∀ v, s.map.lookup v = if v ∈ s.dict then some (Int32.ofNat (s.dict.idxOf v)) else none
  mem : ∀ v, v ∈ s.dict ↔ (v, true) ∈ done
  indices : s.indices = done.map (fun r => if r.2 then Int32.ofNat (s.dict.idxOf r.1) else -1)

theorem dictInv_step {T : Type} [BEq T] [LawfulBEq T] {done : List (T × Bool)} {s : DictState T}
    (h : DictInv done s) (r : T × Bool) : DictInv (done ++ [r]) (s.step r) := by
  obtain ⟨v, b⟩ := r
  cases b with
  | false =>
    rw [DictState.step, if_pos rfl]
    refine ⟨h.nodup, h.map, fun x => ?_, ?_⟩
    · rw [h.mem x]; simp
    · simp [h.indices]
  | true =>
    rw [DictState.step, if_neg (by simp)]
    simp only [h.map v]
    by_cases hv : v ∈ s.dict
    · rw [if_pos hv]
      refine ⟨h.nodup, h.map, fun x => ?_, ?_⟩
      · simp only [List.mem_append, List.mem_singleton, Prod.mk.injEq, and_true, h.mem x]
        constructor
        · exact Or.inl
        · rintro (hx | rfl)
          · exact hx
          · exact (h.mem x).1 hv
      · simp [h.indices]
    · rw [if_neg hv]
      have hold : ∀ x ∈ s.dict, (s.dict ++ [v]).idxOf x = s.dict.idxOf x := by
        intro x hx; rw [List.idxOf_append, if_pos hx]
      have hnew : (s.dict ++ [v]).idxOf v = s.dict.length := by
        rw [List.idxOf_append, if_neg hv]; simp
      refine ⟨?_, fun x => ?_, fun x => ?_, ?_⟩
      · rw [List.nodup_append]
        refine ⟨h.nodup, by simp, ?_⟩
        intro a ha b hb hab
        simp at hb; subst hb; subst hab; exact hv ha
      · dsimp only
        rw [List.lookup_cons]
        by_cases hx : x = v
        · subst hx; simp [hnew]
        · have : (x == v) = false := by simpa using hx
          rw [this]
          dsimp only
          rw [h.map x]
          by_cases hm : x ∈ s.dict
          · rw [if_pos hm, if_pos (by simp [hm]), hold x hm]
          · rw [if_neg hm, if_neg (by simp [hm, hx])]
      · simp only [List.mem_append, List.mem_singleton, Prod.mk.injEq, and_true, h.mem x]
      · dsimp only
        rw [List.map_append, h.indices]
        congr 1
        · apply List.map_congr_left
          rintro ⟨x, bx⟩ hx
          cases bx with
          | false => rfl
          | true => simp only [if_true]; rw [hold x ((h.mem x).2 hx)]
        · simp [hnew]

theorem dictInv_all {T : Type} [BEq T] [LawfulBEq T] (rows : List (T × Bool)) :
    DictInv rows (rows.foldl DictState.step {}) := by
  have key : ∀ (todo done : List (T × Bool)) (s : DictState T), DictInv done s →
      DictInv (done ++ todo) (todo.foldl DictState.step s) := by
    intro todo
    induction todo with
    | nil => intro d s h; simpa using h
    | cons r t ih => intro d s h; simpa using ih (d ++ [r]) (s.step r) (dictInv_step h r)
  have := key rows [] {} ⟨List.nodup_nil, by simp, by simp, rfl⟩
  simpa using this

/-- **C30** Dictionary entries are distinct and are exactly the values that occur; every row's index
points at its own value, and null rows get `-1`.  (Any value type: strings, int32, int64.) -/
theorem C30_create_dictionary {T : Type} [BEq T] [LawfulBEq T] (rows : List (T × Bool))
    (hsz : (createDictionary rows).1.length < 2 ^ 31) :
    (createDictionary rows).1.Nodup ∧
    (∀ v, v ∈ (createDictionary rows).1 ↔ (v, true) ∈ rows) ∧
    (createDictionary rows).2.length = rows.length ∧
    ∀ (i : Nat) (v : T) (valid : Bool), rows[i]? = some (v, valid) →
      ∃ k : Int32, (createDictionary rows).2[i]? = some k ∧
        (valid = false → k = -1) ∧
        (valid = true → 0 ≤ k.toInt ∧ (createDictionary rows).1[k.toInt.toNat]? = some v) := by
  have h := dictInv_all rows
  refine ⟨h.nodup, h.mem, by simp [createDictionary, h.indices], ?_⟩
  intro i v valid hi
  refine ⟨if valid then Int32.ofNat (((rows.foldl DictState.step {}).dict).idxOf v) else -1, ?_, ?_, ?_⟩
  · simp [createDictionary, h.indices, hi]
  · rintro rfl; rfl
  · rintro rfl
    have hm : v ∈ (rows.foldl DictState.step {}).dict := (h.mem v).2 (List.mem_of_getElem? hi)
    have hlt := List.idxOf_lt_length_of_mem hm
    have hsz' : (rows.foldl DictState.step {}).dict.length < 2 ^ 31 := hsz
    have e : (Int32.ofNat (((rows.foldl DictState.step {}).dict).idxOf v)).toInt = ((rows.foldl DictState.step {}).dict).idxOf v := by
      rw [Int32.toInt_ofNat_of_lt (by omega)]
    simp only [if_true, e, createDictionary]
    refine ⟨by omega, ?_⟩
    rw [Int.toNat_natCast, List.getElem?_eq_getElem hlt, List.getElem_idxOf]

theorem rows_eq {c : StrColumn} {xs : List (Option (List UInt8))} (h : StrHist c xs) (hb : strBytes xs < 2 ^ 32) :
    c.rows.length = xs.length ∧ ∀ i, i < xs.length →
      c.rows[i]? = some (c.values.get i, c.nulls.isValid i) ∧
      c.nulls.isValid i = (xs[i]?.join).isSome ∧
      (∀ s, xs[i]? = some (some s) → c.values.get i = s) := by
  obtain ⟨hn, hd, ho⟩ := str_hist_spec h
  obtain ⟨b1, b2, b3, b4, b5⟩ := C23_bitmap_is_list hn
  have hsz : c.values.size = xs.length := (C24_string h hb).1
  refine ⟨by simp [StrColumn.rows, hsz], fun i hi => ⟨?_, ?_, ?_⟩⟩
  · simp [StrColumn.rows, hsz, hi]
  · rw [b5 i (by simpa using hi), getD_isSome xs i hi]
  · intro s hs; exact C25_get h hb i s hs

theorem rows_valid_mem {c : StrColumn} {xs : List (Option (List UInt8))} (h : StrHist c xs) (hb : strBytes xs < 2 ^ 32)
    (v : List UInt8) : (v, true) ∈ c.rows ↔ some v ∈ xs := by
  obtain ⟨hl, hr⟩ := rows_eq h hb
  constructor
  · intro hm
    obtain ⟨i, hi, he⟩ := List.getElem_of_mem hm
    have hi' : i < xs.length := by omega
    obtain ⟨r1, r2, r3⟩ := hr i hi'
    rw [List.getElem?_eq_getElem hi, he] at r1
    simp only [Option.some.injEq, Prod.mk.injEq] at r1
    rw [← r1.2, List.getElem?_eq_getElem hi'] at r2
    cases hx : xs[i] with
    | none => rw [hx] at r2; simp at r2
    | some s =>
      have := r3 s (by rw [List.getElem?_eq_getElem hi', hx])
      have hvs : v = s := r1.1.trans this
      rw [hvs, ← hx]; exact List.getElem_mem hi'
  · intro hm
    obtain ⟨i, hi, he⟩ := List.getElem_of_mem hm
    obtain ⟨r1, r2, r3⟩ := hr i hi
    have hx : xs[i]? = some (some v) := by rw [List.getElem?_eq_getElem hi, he]
    rw [hx] at r2
    rw [r3 v hx] at r1
    have hval : c.nulls.isValid i = true := by simpa using r2
    rw [hval] at r1
    exact List.mem_of_getElem? r1

theorem dictBitWidth_spec (n : Nat) (hn : n ≤ 2 ^ 31) :
    0 < (dictBitWidth n).toNat ∧ (dictBitWidth n).toNat ≤ 32 ∧ ∀ i, i < n → i < 2 ^ (dictBitWidth n).toNat := by
  rw [dictBitWidth]
  generalize hv : (if n = 0 then (0 : UInt32) else UInt32.ofNat (n - 1)) = v
  have hvn : v.toNat = n - 1 := by
    rw [← hv]
    split
    · rename_i h; rw [h]; rfl
    · show (n - 1) % 2 ^ 32 = n - 1
      omega
  have h1 := (C29_bits_required v).1
  have h2 := (C29_bits_required v).2 32 (by omega)
  by_cases h0 : bitsRequired v = 0
  · rw [if_pos h0]
    rw [h0] at h1
    refine ⟨by decide, by decide, ?_⟩
    intro i hi
    have : (1 : UInt8).toNat = 1 := rfl
    rw [this]; omega
  · rw [if_neg h0]
    have : (UInt8.ofNat (bitsRequired v)).toNat = bitsRequired v := by
      show bitsRequired v % 2 ^ 8 = _
      omega
    rw [this]
    refine ⟨by omega, h2, fun i hi => by omega⟩

theorem mapM_get {V : Type} (dict : List V) (is : List Nat) (vs : List V)
    (h : is.map (fun i => dict[i]?) = vs.map some) : is.mapM (fun i => dict[i]?) = some vs := by
  induction is generalizing vs with
  | nil => cases vs <;> simp at h ⊢
  | cons i t ih =>
    cases vs with
    | nil => simp at h
    | cons v vt =>
      simp only [List.map_cons, List.cons.injEq] at h
      rw [List.mapM_cons, h.1, ih vt h.2]; rfl

/-- **C30** For every column history: decode the dictionary page, decode the data page, look the
indices up: the non-null strings of the column come back in order.  The dictionary has distinct
entries, each occurring in the column. -/
theorem C30_dictionary_roundtrip {c : StrColumn} {xs : List (Option (List UInt8))} (h : StrHist c xs)
    (hb : strBytes xs < 2 ^ 32) (hsz : xs.length < 2 ^ 31) :
    ∃ dict page, dict = (createDictionary c.rows).1 ∧ encodeStrings dict = some page ∧
      dict.Nodup ∧ (∀ s, s ∈ dict ↔ some s ∈ xs) ∧
      (∀ rest, plainByteArrays dict.length (page ++ rest) = some (dict, rest)) ∧
      dictData dict (xs.filterMap id).length
        (encodeDictionaryIndices (createDictionary c.rows).2 c.nulls (dictBitWidth dict.length))
        = some (xs.filterMap id) := by
  have hI := dictInv_all c.rows
  obtain ⟨hl, hr⟩ := rows_eq h hb
  have hdm : ∀ s, s ∈ (createDictionary c.rows).1 ↔ some s ∈ xs :=
    fun s => (hI.mem s).trans (rows_valid_mem h hb s)
  -- the dictionary is no longer than the column
  have hdl : (createDictionary c.rows).1.length ≤ xs.length := by
    have hsub : (createDictionary c.rows).1.map some ⊆ xs := by
      intro o ho
      obtain ⟨s, hs, rfl⟩ := List.mem_map.1 ho
      exact (hdm s).1 hs
    have hnd : ((createDictionary c.rows).1.map some).Nodup := by
      rw [List.nodup_iff_pairwise_ne, List.pairwise_map]
      exact List.Pairwise.imp (fun hne he => hne (Option.some.inj he)) hI.nodup
    have := (hnd.subperm hsub).length_le
    simpa using this
  obtain ⟨page, hp1, hp2⟩ := C27_strings (createDictionary c.rows).1 (by
    intro s hs
    have := strBytes_mem ((hdm s).1 hs)
    omega)
  refine ⟨_, page, rfl, hp1, hI.nodup, hdm, hp2, ?_⟩
  obtain ⟨hn, hd, ho⟩ := str_hist_spec h
  obtain ⟨b1, b2, b3, b4, b5⟩ := C23_bitmap_is_list hn
  have hc := count_false_isSome xs
  have hil : (createDictionary c.rows).2.length = xs.length := by simp [createDictionary, hI.indices, hl]
  rw [dictData.eq_def]
  by_cases hz : (xs.filterMap id).length = 0
  · rw [if_pos hz, List.length_eq_zero_iff.1 hz]
  · rw [if_neg hz, encodeDictionaryIndices]
    have hne : (createDictionary c.rows).2.isEmpty = false := by
      rw [List.isEmpty_eq_false_iff]; intro hn; rw [hn] at hil; simp at hil; omega
    rw [hne, if_neg (by simp), if_neg (by omega)]
    dsimp only
    obtain ⟨w0, w32, wfit⟩ := dictBitWidth_spec (createDictionary c.rows).1.length (by omega)
    rw [if_neg (by omega)]
    -- the emitted indices
    have hidx : ((createDictionary c.rows).2.zipIdx.filter (fun p => c.nulls.isValid p.2)).map (fun p => p.1.toUInt32)
        = (xs.filterMap id).map (fun s => UInt32.ofNat ((createDictionary c.rows).1.idxOf s)) := by
      have hrow : (createDictionary c.rows).2 =
          (xs.map (fun o => o.map (fun s => Int32.ofNat ((createDictionary c.rows).1.idxOf s)))).map (·.getD (-1)) := by
        apply List.ext_getElem?
        intro i
        by_cases hi : i < xs.length
        · obtain ⟨r1, r2, r3⟩ := hr i hi
          have hI2 : (createDictionary c.rows).2 = c.rows.map (fun r => if r.2 then Int32.ofNat ((createDictionary c.rows).1.idxOf r.1) else -1) := hI.indices
          rw [hI2, List.getElem?_map, r1]
          simp only [Option.map_some, List.getElem?_map, List.getElem?_eq_getElem hi]
          rw [List.getElem?_eq_getElem hi] at r2
          cases hx : xs[i] with
          | none =>
            rw [hx] at r2
            have : c.nulls.isValid i = false := by simpa using r2
            simp [this]
          | some s =>
            rw [hx] at r2
            have hval : c.nulls.isValid i = true := by simpa using r2
            rw [r3 s (by rw [List.getElem?_eq_getElem hi, hx])]
            simp [hval]
        · rw [List.getElem?_eq_none (by omega), List.getElem?_eq_none (by simp; omega)]
      have e := zipIdx_filter_valid (xs.map (fun o => o.map (fun s => Int32.ofNat ((createDictionary c.rows).1.idxOf s)))) (-1)
        c.nulls.isValid (by
          intro i hi
          rw [List.length_map] at hi
          rw [(hr i hi).2.1]
          simp only [List.getElem?_map, List.getElem?_eq_getElem hi, Option.map_some]
          cases xs[i] <;> rfl)
      rw [← hrow] at e
      have e2 : ((createDictionary c.rows).2.zipIdx.filter (fun p => c.nulls.isValid p.2)).map (fun p => p.1.toUInt32)
          = (((createDictionary c.rows).2.zipIdx.filter (fun p => c.nulls.isValid p.2)).map (·.1)).map Int32.toUInt32 := by
        rw [List.map_map]; rfl
      rw [e2, e, List.filterMap_map, List.map_filterMap]
      clear * -
      induction xs with
      | nil => rfl
      | cons o t ih => cases o <;> simp_all
    rw [hidx]
    have hfit : ∀ v ∈ (xs.filterMap id).map (fun s => UInt32.ofNat ((createDictionary c.rows).1.idxOf s)),
        v.toNat < 2 ^ (dictBitWidth (createDictionary c.rows).1.length).toNat := by
      intro v hv
      obtain ⟨s, hs, rfl⟩ := List.mem_map.1 hv
      have hs' : some s ∈ xs := by
        obtain ⟨o, ho, he⟩ := List.mem_filterMap.1 hs
        simp only [id] at he; rw [he] at ho; exact ho
      have := List.idxOf_lt_length_of_mem ((hdm s).2 hs')
      have e : (UInt32.ofNat ((createDictionary c.rows).1.idxOf s)).toNat = (createDictionary c.rows).1.idxOf s := by
        show _ % 2 ^ 32 = _
        exact Nat.mod_eq_of_lt (by omega)
      rw [e]; exact wfit _ this
    have hy := hybrid_rleLoop _ w32 _ [] hfit
    rw [List.append_nil, List.length_map] at hy
    rw [hy]
    dsimp only
    apply mapM_get
    rw [List.map_map, List.map_map]
    apply List.map_congr_left
    intro s hs
    have hs' : some s ∈ xs := by
      obtain ⟨o, ho, he⟩ := List.mem_filterMap.1 hs
      simp only [id] at he; rw [he] at ho; exact ho
    have hlt := List.idxOf_lt_length_of_mem ((hdm s).2 hs')
    simp only [Function.comp_apply]
    have e : (UInt32.ofNat ((createDictionary c.rows).1.idxOf s)).toNat = (createDictionary c.rows).1.idxOf s := by
      show _ % 2 ^ 32 = _
      exact Nat.mod_eq_of_lt (by omega)
    rw [e, List.getElem?_eq_getElem hlt, List.getElem_idxOf]

example : ∃ c, StrHist c [some [97], none, some [98], some [97]] ∧
    createDictionary c.rows = ([[97], [98]], [0, -1, 1, 0]) ∧
    encodeDictionaryIndices (createDictionary c.rows).2 c.nulls (dictBitWidth 2) = [1, 3, 2] :=
  ⟨_, .append [97] (.append [98] (.appendNull (.append [97] .new))), by decide +kernel, by decide +kernel⟩

/-- **C30** The analysis counts exactly the dictionary entries, so a dictionary is only used with at
most 2048 entries. -/
theorem C30_analysis {T : Type} [BEq T] [LawfulBEq T] (rows : List (T × Bool)) (ratioLt : Bool) :
    cardinality rows = (createDictionary rows).1.length ∧
    (shouldUseDictionary (cardinality rows) ratioLt = true → (createDictionary rows).1.length ≤ 2048) := by
  have h := dictInv_all rows
  have key : ∀ (todo done : List (T × Bool)) (acc : List T), acc.Nodup → (∀ v, v ∈ acc ↔ (v, true) ∈ done) →
      let r := todo.foldl (fun (acc : List T) r => if r.2 then (if acc.contains r.1 then acc else r.1 :: acc) else acc) acc
      r.Nodup ∧ ∀ v, v ∈ r ↔ (v, true) ∈ done ++ todo := by
    intro todo
    induction todo with
    | nil => intro d acc h1 h2; simpa using ⟨h1, h2⟩
    | cons r t ih =>
      intro d acc h1 h2
      obtain ⟨v, b⟩ := r
      have := ih (d ++ [(v, b)]) (if b then (if acc.contains v then acc else v :: acc) else acc) ?_ ?_
      · simpa using this
      · cases b with
        | false => simpa using h1
        | true =>
          by_cases hc : v ∈ acc
          · simpa [hc] using h1
          · simp [hc, h1]
      · intro x
        cases b with
        | false => simp [h2]
        | true =>
          by_cases hc : v ∈ acc
          · simp only [if_true, List.contains_iff_mem, hc, h2, List.mem_append, List.mem_singleton, Prod.mk.injEq, and_true]
            constructor
            · exact Or.inl
            · rintro (hx | rfl)
              · exact hx
              · exact (h2 x).1 hc
          · simp only [if_true, List.contains_iff_mem, hc, if_false, List.mem_cons, h2, List.mem_append, List.not_mem_nil, or_false, Prod.mk.injEq, and_true]
            tauto
  have hk := key rows [] [] List.nodup_nil (by simp)
  simp only [List.nil_append] at hk
  have hperm : (rows.foldl (fun (acc : List T) r => if r.2 then (if acc.contains r.1 then acc else r.1 :: acc) else acc) []).Perm
      (createDictionary rows).1 := by
    exact (List.perm_ext_iff_of_nodup hk.1 h.nodup).2 (fun v => (hk.2 v).trans (h.mem v).symm)
  refine ⟨hperm.length_eq, ?_⟩
  intro hs
  rw [show cardinality rows = _ from hperm.length_eq] at hs
  generalize (createDictionary rows).1.length = n at hs
  unfold shouldUseDictionary at hs
  split at hs
  · omega
  · split at hs
    · omega
    · split at hs
      · omega
      · split at hs
        · omega
        · simp at hs

end Vroom
