import Verif.Model.Plain
import Verif.Props.Encoding
/-
C27: PLAIN pages decode to the non-null cells of the column, for every history of the column.
-/
namespace Vroom
open Parquet

theorem vresize_exact (l : List UInt8) (n : Nat) (f : UInt8) (h : l.length = n) : vresize l n f = l := by
  subst h; simp [vresize]

theorem writeInto_exact (alloc : Nat) (l : List UInt8) (h : l.length = alloc) : writeInto alloc l = some l := by
  rw [writeInto, if_neg (by omega), vresize_exact _ _ _ h]

theorem flatMap_length {T : Type} (k : Nat) (bytes : T → List UInt8) (hk : ∀ v, (bytes v).length = k) (l : List T) :
    (l.flatMap bytes).length = l.length * k := by
  induction l with
  | nil => simp
  | cons a t ih => simp [List.flatMap_cons, ih, hk, Nat.succ_mul]; omega

theorem plainFixed_flatMap {T : Type} (k : Nat) (bytes : T → List UInt8) (num : T → Nat)
    (hk : ∀ v, (bytes v).length = k) (hn : ∀ v, leNat (bytes v) = num v) (l : List T) (rest : List UInt8) :
    plainFixed k l.length (l.flatMap bytes ++ rest) = some (l.map num, rest) := by
  induction l with
  | nil => simp [plainFixed]
  | cons a t ih =>
    simp only [List.length_cons, plainFixed, List.flatMap_cons, List.append_assoc]
    rw [readFixed, if_neg (by simp [hk]), List.take_left' (hk a), List.drop_left' (hk a)]
    dsimp only
    rw [ih]
    simp [hn]

/-- The rows selected by the validity flags are the non-null cells. -/
theorem zipIdx_valid {T β : Type} (xs : List (Option T)) (dflt : T) (f : T → List β) (valid : Nat → Bool) (off : Nat)
    (hv : ∀ i, i < xs.length → valid (off + i) = (xs[i]?.join).isSome) :
    ((xs.map (·.getD dflt)).zipIdx off).flatMap (fun p => if valid p.2 then f p.1 else []) =
      (xs.filterMap id).flatMap f := by
  induction xs generalizing off with
  | nil => simp
  | cons x t ih =>
    have h0 := hv 0 (by simp)
    have ht := ih (off + 1) (fun i hi => by
      have := hv (i + 1) (by simpa using hi)
      rw [show off + 1 + i = off + (i + 1) by omega, this]; simp)
    simp only [List.map_cons, List.zipIdx_cons, List.flatMap_cons]
    rw [ht]
    cases x with
    | none =>
      have : valid off = false := by simpa using h0
      simp [this]
    | some v =>
      have : valid off = true := by simpa using h0
      simp [this]

theorem count_false_isSome {T : Type} (xs : List (Option T)) :
    (xs.map Option.isSome).count false + (xs.filterMap id).length = xs.length := by
  induction xs with
  | nil => rfl
  | cons x t ih => cases x <;> simp at ih ⊢ <;> omega

theorem getD_isSome {T : Type} (xs : List (Option T)) (i : Nat) (hi : i < xs.length) :
    (xs.map Option.isSome).getD i false = (xs[i]?.join).isSome := by
  simp only [List.getD_eq_getElem?_getD, List.getElem?_map, List.getElem?_eq_getElem hi, Option.map_some,
    Option.getD_some]
  cases xs[i] <;> rfl

/-- What a fixed-width page of a column with cells `xs` must decode to. -/
def FixedPageOk {T : Type} (k : Nat) (num : T → Nat) (page : Option (List UInt8)) (xs : List (Option T)) : Prop :=
  ∃ bs, page = some bs ∧ bs.length = k * (xs.filterMap id).length ∧
    ∀ rest, plainFixed k (xs.filterMap id).length (bs ++ rest) = some ((xs.filterMap id).map num, rest)

theorem C27_fixed_arrow {T : Type} (k : Nat) (bytes : T → List UInt8) (num : T → Nat)
    (hk : ∀ v, (bytes v).length = k) (hn : ∀ v, leNat (bytes v) = num v)
    {dflt : T} {c : NumColumn T} {xs : List (Option T)} (h : NumHist T dflt c xs) :
    FixedPageOk k num (encodeFixedArrow k bytes c.values c.nulls) xs := by
  obtain ⟨hb, hvals⟩ := num_hist_spec h
  obtain ⟨b1, b2, b3, b4, b5⟩ := C23_bitmap_is_list hb
  have hc := count_false_isSome xs
  have hvalid : ∀ i, i < xs.length → c.nulls.isValid (0 + i) = (xs[i]?.join).isSome := by
    intro i hi
    rw [Nat.zero_add, b5 i (by simpa using hi), getD_isSome xs i hi]
  refine ⟨(xs.filterMap id).flatMap bytes, ?_, by rw [flatMap_length k bytes hk, Nat.mul_comm],
    fun rest => plainFixed_flatMap k bytes num hk hn _ rest⟩
  rw [encodeFixedArrow]
  have hvl : c.values.length = xs.length := by rw [hvals]; simp
  by_cases h0 : c.nulls.nullCountFast = 0
  · rw [if_pos h0]
    have e : c.values = xs.filterMap id := by
      have : (xs.filterMap id).length = xs.length := by omega
      rw [hvals]
      have hall : ∀ x ∈ xs, x ≠ none := by
        intro x hx hxn
        subst hxn
        have : (xs.map Option.isSome).count false = 0 := by omega
        exact List.count_eq_zero.1 this (List.mem_map.2 ⟨none, hx, rfl⟩)
      clear * - hall
      induction xs with
      | nil => rfl
      | cons x t ih =>
        cases x with
        | none => exact absurd rfl (hall none (by simp))
        | some v => simp [ih (fun y hy => hall y (by simp [hy]))]
    rw [e, writeInto_exact _ _ (flatMap_length k bytes hk _)]
  · rw [if_neg h0, if_neg (by omega)]
    have e := zipIdx_valid xs dflt bytes c.nulls.isValid 0 hvalid
    rw [← hvals] at e
    rw [e, writeInto_exact _ _ (by rw [flatMap_length k bytes hk]; congr 1; omega)]

theorem leNat_digits (l : List UInt8) (n : Nat) (h : ∀ i (hi : i < l.length), l[i].toNat = n / 256 ^ i % 256) :
    leNat l = n % 256 ^ l.length := by
  induction l generalizing n with
  | nil => simp [leNat, Nat.mod_one]
  | cons x t ih =>
    have h0 := h 0 (by simp)
    have ht := ih (n / 256) (fun i hi => by
      have := h (i + 1) (by simpa using hi)
      rw [Nat.div_div_eq_div_mul, Nat.mul_comm, ← Nat.pow_succ]
      simpa using this)
    simp only [leNat, ht, List.length_cons, Nat.pow_succ]
    rw [Nat.mul_comm (256 ^ t.length), Nat.mod_mul]
    simp at h0
    omega

theorem leNat_le8 (v : UInt64) : leNat (le8 v) = v.toNat := by
  have e : le8 v = (List.range 8).map (fun b => (v >>> (b * 8).toUInt64).toUInt8) := by
    have r8 : List.range 8 = [0, 1, 2, 3, 4, 5, 6, 7] := rfl
    rw [r8]
    simp only [le8, List.map_cons, List.map_nil]
    have : v >>> (0 * 8).toUInt64 = v := by simp
    rw [this]; rfl
  rw [e, leNat_digits _ v.toNat]
  · simp only [List.length_map, List.length_range]
    exact Nat.mod_eq_of_lt v.toNat_lt
  · intro i hi
    simp only [List.length_map, List.length_range] at hi
    simp only [List.getElem_map, List.getElem_range]
    rw [UInt64.toNat_toUInt8, UInt64.toNat_shiftRight]
    have : (i * 8).toUInt64.toNat % 64 = i * 8 := by
      show (i * 8 % 2 ^ 64) % 64 = _; omega
    rw [this, Nat.shiftRight_eq_div_pow, Nat.mul_comm, Nat.pow_mul]

/-- **C27** 32-bit columns (INT32, DATE): decoding the page gives the non-null values in order (as
two's-complement bit patterns). -/
theorem C27_int32 {dflt : UInt32} {c : NumColumn UInt32} {xs : List (Option UInt32)} (h : NumHist UInt32 dflt c xs) :
    FixedPageOk 4 UInt32.toNat (encodeFixedArrow 4 le4 c.values c.nulls) xs :=
  C27_fixed_arrow 4 le4 _ (fun _ => rfl) leNat_le4 h

/-- **C27** 64-bit columns (INT64, TIMESTAMP, FLOAT64 as IEEE bit patterns). -/
theorem C27_int64 {dflt : UInt64} {c : NumColumn UInt64} {xs : List (Option UInt64)} (h : NumHist UInt64 dflt c xs) :
    FixedPageOk 8 UInt64.toNat (encodeFixedArrow 8 le8 c.values c.nulls) xs :=
  C27_fixed_arrow 8 le8 _ (fun _ => rfl) leNat_le8 h

example : ∃ c, NumHist UInt32 0 c [some 5, none, some 7] ∧
    encodeFixedArrow 4 le4 c.values c.nulls = some [5, 0, 0, 0, 7, 0, 0, 0] :=
  ⟨_, .append 7 (.appendNull (.append 5 .new)), by decide +kernel⟩

/-! ### booleans -/

theorem packBools_spec (vs : List Bool) (d : List UInt8) (idx : Nat) (hlen : idx + vs.length ≤ 8 * d.length) :
    ∃ d', packBools d idx vs = some d' ∧ d'.length = d.length ∧
      (∀ j, j < idx ∨ idx + vs.length ≤ j → bitAt d' j = bitAt d j) ∧
      (∀ j (hj : j < vs.length), bitAt d (idx + j) = false → bitAt d' (idx + j) = vs[j]) := by
  induction vs generalizing d idx with
  | nil => exact ⟨d, rfl, rfl, fun _ _ => rfl, fun j hj => by simp at hj⟩
  | cons v t ih =>
    simp only [List.length_cons] at hlen
    cases v with
    | true =>
      simp only [packBools]
      rw [if_neg (by omega)]
      obtain ⟨d', e1, e2, e3, e4⟩ := ih (NullBitmap.setBit d idx) (idx + 1) (by rw [setBit_length]; omega)
      have hset : ∀ j, bitAt (NullBitmap.setBit d idx) j = if j = idx then true else bitAt d j := by
        intro j
        rw [bitAt_setBit d idx j (by omega)]
        by_cases hj : j = idx
        · simp [hj]
        · simp [hj, Ne.symm hj]
      refine ⟨d', e1, by rw [e2, setBit_length], ?_, ?_⟩
      · intro j hj
        simp only [List.length_cons] at hj
        rw [e3 j (by omega), hset, if_neg (by omega)]
      · intro j hj hf
        cases j with
        | zero => simpa [hset] using e3 idx (by omega)
        | succ j =>
          have := e4 j (by simpa using hj) (by rw [hset, if_neg (by omega), ← hf]; congr 1; omega)
          rw [show idx + (j + 1) = idx + 1 + j by omega]
          simpa using this
    | false =>
      simp only [packBools]
      obtain ⟨d', e1, e2, e3, e4⟩ := ih d (idx + 1) (by omega)
      refine ⟨d', e1, e2, ?_, ?_⟩
      · intro j hj
        simp only [List.length_cons] at hj
        exact e3 j (by omega)
      · intro j hj hf
        cases j with
        | zero =>
          have := e3 idx (by omega)
          simp at hf ⊢
          rw [this, hf]
        | succ j =>
          have := e4 j (by simpa using hj) (by rw [← hf]; congr 1; omega)
          rw [show idx + (j + 1) = idx + 1 + j by omega]
          simpa using this

/-- Bit `i` of the little-endian number is bit `i` of the byte string. -/
theorem leNat_testBit (bs : List UInt8) (i : Nat) : (leNat bs).testBit i = bitAt bs i := by
  induction bs generalizing i with
  | nil => simp [leNat, bitAt]
  | cons b t ih =>
    have hb := b.toNat_lt
    simp only [leNat]
    rw [Nat.add_comm, show 256 = 2 ^ 8 by rfl, Nat.testBit_two_pow_mul_add _ hb]
    by_cases h : i < 8
    · rw [if_pos h, bitAt]
      have : i / 8 = 0 := by omega
      simp only [this, List.getElem?_cons_zero]
      rw [show i % 8 = i by omega]
    · rw [if_neg h, ih]
      simp only [bitAt]
      have : i / 8 = (i - 8) / 8 + 1 := by omega
      rw [this, List.getElem?_cons_succ, show i % 8 = (i - 8) % 8 by omega]

theorem plainBools_bits (n : Nat) (bs : List UInt8) : plainBools n bs = (List.range n).map (fun i => bitAt bs i) := by
  simp only [plainBools, unpack, List.map_map]
  apply List.map_congr_left
  intro i _
  rw [← leNat_testBit, Nat.testBit_eq_decide_div_mod_eq]
  simp only [Function.comp_apply, Nat.mul_one, Nat.pow_one]
  rfl

theorem bitAt_zeros (m j : Nat) : bitAt (List.replicate m 0) j = false := by
  simp only [bitAt, List.getElem?_replicate]
  split
  · rename_i b h
    split at h <;> simp at h
    subst h; simp
  · rfl

theorem packBools_decode (vs : List Bool) :
    ∃ bs, packBools (List.replicate ((vs.length + 7) / 8) 0) 0 vs = some bs ∧
      bs.length = (vs.length + 7) / 8 ∧ plainBools vs.length bs = vs := by
  obtain ⟨d', e1, e2, _, e4⟩ := packBools_spec vs (List.replicate ((vs.length + 7) / 8) 0) 0
    (by simp; omega)
  refine ⟨d', e1, by simpa using e2, ?_⟩
  rw [plainBools_bits]
  apply List.ext_getElem
  · simp
  · intro i h1 h2
    have := e4 i h2 (bitAt_zeros _ _)
    simpa using this

/-- **C27** Boolean columns (stored as bytes, any non-zero byte is true). -/
theorem C27_bool {dflt : UInt8} {c : NumColumn UInt8} {xs : List (Option UInt8)} (h : NumHist UInt8 dflt c xs) :
    ∃ bs, encodeBoolArrow c.values c.nulls = some bs ∧ bs.length = ((xs.filterMap id).length + 7) / 8 ∧
      plainBools (xs.filterMap id).length bs = (xs.filterMap id).map (· != 0) := by
  obtain ⟨hb, hvals⟩ := num_hist_spec h
  obtain ⟨b1, b2, b3, b4, b5⟩ := C23_bitmap_is_list hb
  have hc := count_false_isSome xs
  have hvl : c.values.length = xs.length := by rw [hvals]; simp
  have hvalid : ∀ i, i < xs.length → c.nulls.isValid (0 + i) = (xs[i]?.join).isSome := by
    intro i hi
    rw [Nat.zero_add, b5 i (by simpa using hi), getD_isSome xs i hi]
  have e := zipIdx_valid xs dflt (fun v : UInt8 => [v != 0]) c.nulls.isValid 0 hvalid
  rw [← hvals] at e
  have e' : (c.values.zipIdx.filter (fun p => c.nulls.isValid p.2)).map (fun p => p.1 != 0)
      = (xs.filterMap id).map (· != 0) := by
    have : ∀ l : List (UInt8 × Nat), (l.filter (fun p => c.nulls.isValid p.2)).map (fun p => p.1 != 0)
        = l.flatMap (fun p => if c.nulls.isValid p.2 then [p.1 != 0] else []) := by
      intro l
      induction l with
      | nil => rfl
      | cons p t ih =>
        rw [List.filter_cons, List.flatMap_cons]
        by_cases hp : c.nulls.isValid p.2 <;> simp [hp, ih]
    rw [this, e]
    clear * -
    induction xs.filterMap id with
    | nil => rfl
    | cons a t ih => simp [ih]
  rw [encodeBoolArrow, if_neg (by omega), e']
  have := packBools_decode ((xs.filterMap id).map (· != 0))
  rw [List.length_map] at this
  rw [show c.values.length - c.nulls.nullCountFast = (xs.filterMap id).length by omega]
  exact this

example : ∃ c, NumHist UInt8 0 c [some 1, none, some 0, some 1] ∧ encodeBoolArrow c.values c.nulls = some [5] :=
  ⟨_, .append 1 (.append 0 (.appendNull (.append 1 .new))), by decide +kernel⟩

/-! ### byte arrays -/

theorem plainByteArrays_lenPrefixed (l : List (List UInt8)) (hl : ∀ s ∈ l, s.length < 2 ^ 32) (rest : List UInt8) :
    plainByteArrays l.length (l.flatMap lenPrefixed ++ rest) = some (l, rest) := by
  induction l with
  | nil => simp [plainByteArrays]
  | cons s t ih =>
    have e : (s :: t).flatMap lenPrefixed ++ rest = le4 (UInt32.ofNat s.length) ++ (s ++ (t.flatMap lenPrefixed ++ rest)) := by
      rw [List.flatMap_cons, show lenPrefixed s = le4 (UInt32.ofNat s.length) ++ s from rfl]
      simp only [List.append_assoc]
    rw [e, List.length_cons, plainByteArrays]
    rw [readFixed_le4 _ (hl s (by simp))]
    dsimp only
    rw [if_neg (by simp), List.drop_left' rfl, List.take_left' rfl]
    rw [ih (fun x hx => hl x (by simp [hx]))]

theorem lenPrefixed_length (s : List UInt8) : (lenPrefixed s).length = 4 + s.length := by
  rw [lenPrefixed, List.length_append]; rfl

theorem flatMap_lenPrefixed_length (l : List (List UInt8)) :
    (l.flatMap lenPrefixed).length = (l.map (fun s => 4 + s.length)).sum := by
  induction l with
  | nil => rfl
  | cons s t ih => rw [List.flatMap_cons, List.length_append, ih, lenPrefixed_length]; simp

/-- **C27** `encode_string_plain` and dictionary pages: every list of strings decodes back. -/
theorem C27_strings (l : List (List UInt8)) (hl : ∀ s ∈ l, s.length < 2 ^ 32) :
    ∃ bs, encodeStrings l = some bs ∧ ∀ rest, plainByteArrays l.length (bs ++ rest) = some (l, rest) :=
  ⟨_, writeInto_exact _ _ (flatMap_lenPrefixed_length l), plainByteArrays_lenPrefixed l hl⟩

theorem filter_range_map_getD {T : Type} (xs : List (Option T)) (valid : Nat → Bool) (g : Nat → T)
    (hv : ∀ i, i < xs.length → valid i = (xs[i]?.join).isSome)
    (hg : ∀ i v, xs[i]? = some (some v) → g i = v) :
    ((List.range xs.length).filter valid).map g = xs.filterMap id := by
  have key : ∀ (pre suf : List (Option T)), xs = pre ++ suf →
      ((List.range' pre.length suf.length).filter valid).map g = suf.filterMap id := by
    intro pre suf
    induction suf generalizing pre with
    | nil => intro _; simp
    | cons x t ih =>
      intro he
      have hx : xs[pre.length]? = some x := by rw [he]; simp
      have hlt : pre.length < xs.length := by rw [he]; simp
      have := ih (pre ++ [x]) (by rw [he]; simp)
      rw [List.length_append, List.length_singleton] at this
      rw [List.length_cons, List.range'_succ, List.filter_cons]
      have hvx := hv pre.length hlt
      rw [hx] at hvx
      cases x with
      | none =>
        have : valid pre.length = false := by simpa using hvx
        simp_all
      | some v =>
        have h1 : valid pre.length = true := by simpa using hvx
        simp only [h1, if_true, List.map_cons, hg _ v hx, this]
        simp
  have := key [] xs rfl
  rw [List.length_nil, ← List.range_eq_range'] at this
  exact this

theorem strBytes_mem {xs : List (Option (List UInt8))} {s : List UInt8} (h : some s ∈ xs) : s.length ≤ strBytes xs := by
  rw [strBytes]
  have : (fun o : Option (List UInt8) => (o.getD []).length) (some s) ∈ xs.map (fun o => (o.getD []).length) :=
    List.mem_map_of_mem h
  generalize xs.map (fun o => (o.getD []).length) = l at this
  clear * - this
  simp only [Option.getD_some] at this
  induction l with
  | nil => simp at this
  | cons a t ih =>
    rw [List.sum_cons]
    rcases List.mem_cons.1 this with h | h
    · omega
    · have := ih h; omega

theorem stringBuffer_len_get (b : StringBuffer) (i : Nat) (n : Nat) (hn : (b.get i).length = n)
    (h : (b.offsets.getD i 0).toNat + b.len i ≤ b.data.length) : b.len i = n := by
  rw [← hn, StringBuffer.get]
  simp only [List.length_take, List.length_drop]
  simp only [StringBuffer.len] at h ⊢
  omega

/-- **C27** String columns: decoding the page gives the non-null strings in order, and the page was
allocated with exactly the right size. -/
theorem C27_byte_arrays {c : StrColumn} {xs : List (Option (List UInt8))} (h : StrHist c xs)
    (hb : strBytes xs < 2 ^ 32) :
    ∃ bs, encodeByteArrayArrow c.values c.nulls = some bs ∧
      ∀ rest, plainByteArrays (xs.filterMap id).length (bs ++ rest) = some (xs.filterMap id, rest) := by
  obtain ⟨hn, hd, ho⟩ := str_hist_spec h
  obtain ⟨b1, b2, b3, b4, b5⟩ := C23_bitmap_is_list hn
  have hsz : c.values.size = xs.length := (C24_string h hb).1
  have hvalid : ∀ i, i < xs.length → c.nulls.isValid i = (xs[i]?.join).isSome := by
    intro i hi
    rw [b5 i (by simpa using hi), getD_isSome xs i hi]
  have hmap := filter_range_map_getD xs c.nulls.isValid c.values.get hvalid (fun i v hi => C25_get h hb i v hi)
  have hlen : (xs.map (·.getD [])).flatten.length < 2 ^ 32 := by
    rw [List.length_flatten, List.map_map]; exact hb
  refine ⟨(xs.filterMap id).flatMap lenPrefixed, ?_, plainByteArrays_lenPrefixed _ ?_⟩
  · rw [encodeByteArrayArrow]
    rw [hsz]
    have e1 : ((List.range xs.length).filter c.nulls.isValid).flatMap (fun i => lenPrefixed (c.values.get i))
        = (xs.filterMap id).flatMap lenPrefixed := by
      rw [← hmap, List.flatMap_map]
    have e2 : ((List.range xs.length).filter c.nulls.isValid).map (fun i => 4 + c.values.len i)
        = (xs.filterMap id).map (fun s => 4 + s.length) := by
      rw [← hmap, List.map_map]
      apply List.map_congr_left
      intro i hi
      have hi' : i < xs.length := List.mem_range.1 (List.mem_filter.1 hi).1
      simp only [Function.comp_apply]
      congr 1
      refine stringBuffer_len_get _ _ _ rfl ?_
      have g1 := offsets_get (xs.map (·.getD [])) 0 i (by simp; omega)
      have g2 := offsets_get (xs.map (·.getD [])) 0 (i + 1) (by simp; omega)
      have z : UInt32.ofNat 0 = 0 := rfl
      rw [z, ← ho] at g1 g2
      rw [StringBuffer.len, g1, g2, hd]
      have l1 := take_flatten_len_le (xs.map (·.getD [])) (i + 1)
      have l2 : ((xs.map (·.getD [])).take i).flatten.length ≤ ((xs.map (·.getD [])).take (i + 1)).flatten.length := by
        have := take_flatten_len_le ((xs.map (·.getD [])).take (i + 1)) i
        rwa [List.take_take, show min i (i + 1) = i by omega] at this
      simp only [Nat.zero_add]
      have t1 : ∀ n, n < 2 ^ 32 → (UInt32.ofNat n).toNat = n := fun n hn => Nat.mod_eq_of_lt hn
      rw [UInt32.toNat_sub_of_le _ _ (by
        rw [UInt32.le_iff_toNat_le, t1 _ (by omega), t1 _ (by omega)]
        exact l2), t1 _ (by omega), t1 _ (by omega)]
      omega
    rw [e1, e2, writeInto_exact _ _ (flatMap_lenPrefixed_length _)]
  · intro s hs
    have : some s ∈ xs := by
      obtain ⟨o, ho, he⟩ := List.mem_filterMap.1 hs
      simp only [id] at he
      rw [he] at ho; exact ho
    have := strBytes_mem this
    omega

example : ∃ c, StrHist c [some [97, 98], none, some []] ∧
    encodeByteArrayArrow c.values c.nulls = some [2, 0, 0, 0, 97, 98, 0, 0, 0, 0] :=
  ⟨_, .append [] (.appendNull (.append [97, 98] .new)), by decide +kernel⟩

/-! ### legacy encoders (`std::vector` values with `std::vector<bool>` null flags) -/

theorem getD_isNone {T : Type} (xs : List (Option T)) (i : Nat) (hi : i < xs.length) :
    (!((xs.map Option.isNone).getD i false)) = (xs[i]?.join).isSome := by
  simp only [List.getD_eq_getElem?_getD, List.getElem?_map, List.getElem?_eq_getElem hi, Option.map_some,
    Option.getD_some]
  cases xs[i] <;> rfl

theorem filterMap_of_all_some {T : Type} (xs : List (Option T)) (dflt : T)
    (h : (xs.filterMap id).length = xs.length) : xs.filterMap id = xs.map (·.getD dflt) := by
  induction xs with
  | nil => rfl
  | cons x t ih =>
    cases x with
    | none =>
      have := List.length_filterMap_le id t
      simp at h this; omega
    | some v => simp at h ⊢; simpa using ih (by simpa using h)

/-- **C27** Legacy fixed-width encoder: cells `xs` stored as values and null flags. -/
theorem C27_legacy_fixed {T : Type} (k : Nat) (bytes : T → List UInt8) (num : T → Nat)
    (hk : ∀ v, (bytes v).length = k) (hn : ∀ v, leNat (bytes v) = num v) (dflt : T) (xs : List (Option T)) :
    FixedPageOk k num (encodeFixedLegacy k bytes (xs.map (·.getD dflt)) (xs.map Option.isNone)) xs := by
  have hvalid : ∀ i, i < xs.length → (fun j => !((xs.map Option.isNone).getD j false)) (0 + i) = (xs[i]?.join).isSome := by
    intro i hi; simp only [Nat.zero_add]; exact getD_isNone xs i hi
  have e := zipIdx_valid xs dflt bytes (fun j => !((xs.map Option.isNone).getD j false)) 0 hvalid
  have e' : (xs.map (·.getD dflt)).zipIdx.flatMap (fun p => if (xs.map Option.isNone).getD p.2 false then [] else bytes p.1)
      = (xs.filterMap id).flatMap bytes := by
    rw [← e]; congr 1; funext p; cases (xs.map Option.isNone).getD p.2 false <;> rfl
  have hcount : ((List.range (xs.map (·.getD dflt)).length).filter (fun i => !((xs.map Option.isNone).getD i false))).length
      = (xs.filterMap id).length := by
    have := filter_range_map_getD xs (fun j => !((xs.map Option.isNone).getD j false)) (fun i => (xs[i]?.join).getD dflt)
      (fun i hi => getD_isNone xs i hi) (fun i v hv => by simp [hv])
    rw [← this]; simp
  refine ⟨(xs.filterMap id).flatMap bytes, ?_, by rw [flatMap_length k bytes hk, Nat.mul_comm],
    fun rest => plainFixed_flatMap k bytes num hk hn _ rest⟩
  rw [encodeFixedLegacy]
  by_cases hemp : (xs.map Option.isNone).isEmpty
  · have : xs = [] := by cases xs <;> simp at hemp ⊢
    subst this; simp [writeInto, vresize]
  · rw [if_neg hemp]
    dsimp only
    rw [hcount]
    by_cases hall : (xs.filterMap id).length = (xs.map (·.getD dflt)).length
    · rw [if_pos hall]
      rw [filterMap_of_all_some xs dflt (by simpa using hall)]
      exact writeInto_exact _ _ (flatMap_length k bytes hk _)
    · rw [if_neg hall, e', writeInto_exact _ _ (flatMap_length k bytes hk _)]

/-- **C27** Legacy encoder with no null flags at all. -/
theorem C27_legacy_fixed_no_bitmap {T : Type} (k : Nat) (bytes : T → List UInt8) (num : T → Nat)
    (hk : ∀ v, (bytes v).length = k) (hn : ∀ v, leNat (bytes v) = num v) (vs : List T) :
    FixedPageOk k num (encodeFixedLegacy k bytes vs []) (vs.map some) := by
  have e : (vs.map some).filterMap id = vs := by induction vs <;> simp_all
  refine ⟨vs.flatMap bytes, ?_, ?_, ?_⟩
  · rw [encodeFixedLegacy]; exact writeInto_exact _ _ (flatMap_length k bytes hk _)
  · rw [e, flatMap_length k bytes hk, Nat.mul_comm]
  · intro rest; rw [e]; exact plainFixed_flatMap k bytes num hk hn _ rest

theorem zipIdx_filter_valid {T : Type} (xs : List (Option T)) (dflt : T) (valid : Nat → Bool)
    (hv : ∀ i, i < xs.length → valid i = (xs[i]?.join).isSome) :
    (((xs.map (·.getD dflt)).zipIdx).filter (fun p => valid p.2)).map (·.1) = xs.filterMap id := by
  have e := zipIdx_valid xs dflt (fun v => [v]) valid 0 (by simpa using hv)
  have : ∀ l : List (T × Nat), (l.filter (fun p => valid p.2)).map (·.1)
      = l.flatMap (fun p => if valid p.2 then [p.1] else []) := by
    intro l
    induction l with
    | nil => rfl
    | cons p t ih =>
      rw [List.filter_cons, List.flatMap_cons]
      by_cases hp : valid p.2 <;> simp [hp, ih]
  rw [this, e]; simp

theorem legacy_rows {T : Type} (xs : List (Option T)) (dflt : T) (h : xs ≠ []) :
    ((xs.map (·.getD dflt)).zipIdx.filter
      (fun p => (xs.map Option.isNone).isEmpty || !((xs.map Option.isNone).getD p.2 false))).map (·.1) = xs.filterMap id := by
  have : (xs.map Option.isNone).isEmpty = false := by cases xs <;> simp at h ⊢
  simp only [this, Bool.false_or]
  exact zipIdx_filter_valid xs dflt (fun i => !((xs.map Option.isNone).getD i false)) (fun i hi => getD_isNone xs i hi)

/-- **C27** Legacy boolean encoder. -/
theorem C27_legacy_bool (dflt : Bool) (xs : List (Option Bool)) :
    ∃ bs, encodeBoolLegacy (xs.map (·.getD dflt)) (xs.map Option.isNone) = some bs ∧
      plainBools (xs.filterMap id).length bs = xs.filterMap id := by
  by_cases h : xs = []
  · subst h; exact ⟨[], by simp [encodeBoolLegacy, packBools], rfl⟩
  · have e := legacy_rows xs dflt h
    rw [encodeBoolLegacy]
    rw [e]
    have hl := congrArg List.length e
    rw [List.length_map] at hl
    rw [hl]
    obtain ⟨bs, h1, _, h3⟩ := packBools_decode (xs.filterMap id)
    exact ⟨bs, h1, h3⟩

/-- **C27** Legacy string encoder. -/
theorem C27_legacy_byte_arrays (xs : List (Option (List UInt8))) (hl : ∀ s, some s ∈ xs → s.length < 2 ^ 32) :
    ∃ bs, encodeByteArrayLegacy (xs.map (·.getD [])) (xs.map Option.isNone) = some bs ∧
      ∀ rest, plainByteArrays (xs.filterMap id).length (bs ++ rest) = some (xs.filterMap id, rest) := by
  have hs : ∀ s ∈ xs.filterMap id, s.length < 2 ^ 32 := by
    intro s hs
    obtain ⟨o, ho, he⟩ := List.mem_filterMap.1 hs
    simp only [id] at he
    rw [he] at ho; exact hl s ho
  refine ⟨(xs.filterMap id).flatMap lenPrefixed, ?_, plainByteArrays_lenPrefixed _ hs⟩
  by_cases h : xs = []
  · subst h; simp [encodeByteArrayLegacy, writeInto, vresize]
  · rw [encodeByteArrayLegacy]
    rw [legacy_rows xs [] h, writeInto_exact _ _ (flatMap_lenPrefixed_length _)]

example : encodeByteArrayLegacy [[97], [], [98]] [false, true, false] = some [1, 0, 0, 0, 97, 1, 0, 0, 0, 98] := by decide +kernel

end Vroom
