import Verif.Props.ParquetPage
import Mathlib.Data.List.Perm.Subperm
/-
How long the uncompressed pages of a column can get (for the size conditions of the format).
-/
namespace Vroom
open Parquet

theorem drain_len (buf : UInt64) (n : Nat) : (drain buf n).1.length = n / 8 ∧ (drain buf n).2.2 = n % 8 := by
  induction n using Nat.strongRecOn generalizing buf with
  | _ n ih =>
    rw [drain]
    by_cases h : 8 ≤ n
    · rw [if_pos h]
      obtain ⟨a, b⟩ := ih (n - 8) (by omega) (buf >>> 8)
      refine ⟨?_, ?_⟩
      · simp only [List.length_cons, a]; omega
      · simp only [b]; omega
    · rw [if_neg h]
      exact ⟨by simp; omega, by simp; omega⟩

theorem packLoop_len (w : Nat) (vs : List UInt64) : ∀ (buf : UInt64) (n : Nat), n < 8 →
    8 * (packLoop w buf n vs).length ≤ n + w * vs.length + 7 := by
  induction vs with
  | nil => intro buf n hn; rw [packLoop]; by_cases h : 0 < n <;> simp [h]; omega
  | cons v t ih =>
    intro buf n hn
    rw [packLoop]
    obtain ⟨a, b⟩ := drain_len (buf ||| (v <<< n.toUInt64)) (n + w)
    have := ih (drain (buf ||| (v <<< n.toUInt64)) (n + w)).2.1 (drain (buf ||| (v <<< n.toUInt64)) (n + w)).2.2 (by rw [b]; omega)
    simp only [List.length_append, a, List.length_cons, Nat.mul_add, Nat.mul_one]
    rw [b] at this
    rw [b]
    omega

theorem packedRun_len8 (w : Nat) (vs : List UInt32) (h : vs.length ≤ 8) : (packedRun w vs).length ≤ 5 + w := by
  rw [packedRun]
  simp only [List.length_append]
  have h1 := writeVarint32_length (((UInt32.ofNat ((vs.length + 7) / 8)) <<< 1) ||| 1)
  have h2 := packLoop_len w ((vs ++ List.replicate ((vs.length + 7) / 8 * 8 - vs.length) 0).map UInt32.toUInt64) 0 0 (by decide)
  have h3 : ((vs ++ List.replicate ((vs.length + 7) / 8 * 8 - vs.length) (0 : UInt32)).map UInt32.toUInt64).length ≤ 8 := by
    simp; omega
  have h4 := Nat.mul_le_mul_left w h3
  omega

theorem rleRun_len (w : Nat) (v : UInt32) (c : Nat) (hw : w ≤ 32) : (rleRun w v c).length ≤ 9 := by
  rw [rleRun, List.length_append]
  have := writeVarint32_length ((UInt32.ofNat c) <<< 1)
  simp only [valueBytes, List.length_map, List.length_range]
  omega

/-- The run length / bit packed section of `n` values, whatever they are. -/
theorem rleLoop_len (w : Nat) (hw : w ≤ 32) (vs : List UInt32) : (rleLoop w vs).length ≤ (w + 9) * ((vs.length + 7) / 8) := by
  have key : ∀ m (vs : List UInt32), vs.length = m → (rleLoop w vs).length ≤ (w + 9) * ((vs.length + 7) / 8) := by
    intro m
    induction m using Nat.strongRecOn with
    | _ m ih =>
    intro vs hm
    subst hm
    match hvs : vs with
    | [] => simp [rleLoop]
    | x :: t =>
      rw [rleLoop]
      rw [← hvs]
      rw [← hvs] at ih
      obtain ⟨r1, r2, r3⟩ := runLength_le x maxRun vs
      generalize hrun : runLength x maxRun vs = run at *
      have hlen : 0 < vs.length := by rw [hvs]; simp
      by_cases h8 : 8 ≤ run
      · rw [if_pos h8, List.length_append]
        have h1 := rleRun_len w x run hw
        have h2 := ih (vs.drop run).length (by simp; omega) (vs.drop run) rfl
        rw [List.length_drop] at h2
        have h3 : (vs.length - run + 7) / 8 + 1 ≤ (vs.length + 7) / 8 := by omega
        have h4 := Nat.mul_le_mul_left (w + 9) h3
        rw [Nat.mul_add, Nat.mul_one] at h4
        omega
      · rw [if_neg h8, List.length_append]
        have h1 := packedRun_len8 w (vs.take (min 8 vs.length)) (by simp)
        have h2 := ih (vs.drop (min 8 vs.length)).length (by simp; omega) (vs.drop (min 8 vs.length)) rfl
        rw [List.length_drop] at h2
        have h3 : (vs.length - min 8 vs.length + 7) / 8 + 1 ≤ (vs.length + 7) / 8 := by omega
        have h4 := Nat.mul_le_mul_left (w + 9) h3
        rw [Nat.mul_add, Nat.mul_one] at h4
        omega
  exact key _ vs rfl

theorem rleLoop_len_crude (w : Nat) (hw : w ≤ 32) (vs : List UInt32) : (rleLoop w vs).length ≤ 6 * vs.length + 36 := by
  have h1 := rleLoop_len w hw vs
  have h2 := Nat.mul_le_mul_right ((vs.length + 7) / 8) (show w + 9 ≤ 41 by omega)
  omega

/-- Definition level section: at most two bytes per row, and a constant. -/
theorem defLevels_len (b : NullBitmap) (k : Nat) : (encodeDefLevelsArrow b 1 k).length ≤ 2 * b.size + 20 := by
  have hw : bitsRequired (1 : UInt8).toUInt32 = 1 := by decide +kernel
  rw [encodeDefLevelsArrow]
  by_cases h0 : b.size = 0
  · rw [if_pos h0]; simp
  · rw [if_neg h0]
    have l4 : ∀ x, (le4 x).length = 4 := fun _ => rfl
    by_cases h1 : (k = 0 ∨ b.hasNulls = false) ∧ (1 : UInt8) = 1
    · rw [if_pos h1]
      simp only [List.length_append, l4]
      have : ∀ (l : List UInt8) (n : Nat), (vresize l n 0).length = n := by
        intro l n; simp [vresize]; omega
      rw [this]
      split <;> [skip; split <;> [skip; split <;> [skip; split]]] <;> omega
    · rw [if_neg h1]
      simp only [List.length_append, l4, hw]
      split
      · have := rleRun_len 1 (1 : UInt8).toUInt32 b.size (by decide); omega
      · have := rleLoop_len 1 (by decide) ((List.range b.size).map (fun i => if b.isValid i then (1 : UInt8).toUInt32 else 0))
        simp only [List.length_map, List.length_range] at this
        omega

/-- A page of byte arrays is as long as its arrays and their length prefixes. -/
theorem plainByteArrays_len (n : Nat) : ∀ (bs : List UInt8) (vs : List (List UInt8)) (r : List UInt8),
    plainByteArrays n bs = some (vs, r) → bs.length = 4 * n + (vs.map List.length).sum + r.length := by
  induction n with
  | zero => intro bs vs r h; simp only [plainByteArrays, Option.some.injEq, Prod.mk.injEq] at h; obtain ⟨rfl, rfl⟩ := h; simp
  | succ n ih =>
    intro bs vs r h
    rw [plainByteArrays, readFixed] at h
    by_cases h4 : bs.length < 4
    · rw [if_pos h4] at h; simp at h
    · rw [if_neg h4] at h
      dsimp only at h
      generalize leNat (bs.take 4) = len at h
      by_cases h5 : (bs.drop 4).length < len
      · rw [if_pos h5] at h; simp at h
      · rw [if_neg h5] at h
        cases h6 : plainByteArrays n ((bs.drop 4).drop len) with
        | none => rw [h6] at h; simp at h
        | some p =>
          obtain ⟨vs', r'⟩ := p
          rw [h6] at h
          simp only [Option.some.injEq, Prod.mk.injEq] at h
          obtain ⟨rfl, rfl⟩ := h
          have := ih _ _ _ h6
          simp only [List.length_drop] at this h5
          simp only [List.map_cons, List.sum_cons, List.length_take, List.length_drop]
          omega

theorem sum_filterMap_len (xs : List (Option (List UInt8))) : ((xs.filterMap id).map List.length).sum = strBytes xs := by
  induction xs with
  | nil => rfl
  | cons x t ih =>
    cases x with
    | none => simpa [strBytes] using ih
    | some s => simpa [strBytes] using ih

theorem sum_subperm {l m : List (List UInt8)} (h : l.Subperm m) : (l.map List.length).sum ≤ (m.map List.length).sum := by
  obtain ⟨l', hp, hs⟩ := h
  have h1 : (l.map List.length).sum = (l'.map List.length).sum := by
    clear hs
    induction hp with
    | nil => rfl
    | cons x _ ih => simp only [List.map_cons, List.sum_cons, ih]
    | swap x y l => simp only [List.map_cons, List.sum_cons]; omega
    | trans _ _ ih1 ih2 => rw [ih2, ih1]
  rw [h1]
  clear h1 hp
  induction hs with
  | slnil => exact Nat.le_refl _
  | cons a _ ih => simp only [List.map_cons, List.sum_cons]; omega
  | cons_cons a _ ih => simp only [List.map_cons, List.sum_cons]; omega

theorem valBytes_strings (xs : List (Option (List UInt8))) : valBytes (xs.map (·.map .bytes)) = strBytes xs := by
  induction xs with
  | nil => rfl
  | cons x t ih =>
    cases x with
    | none => simpa [valBytes, strBytes] using ih
    | some s => simpa [valBytes, strBytes] using ih

/-- The dictionary page is no longer than the values with a length each. -/
theorem dictPage_len {c : StrColumn} {xs : List (Option (List UInt8))} (h : StrHist c xs) (hb : strBytes xs < 2 ^ 32) :
    ((encodeStrings (createDictionary c.rows).1).getD []).length ≤ 4 * xs.length + strBytes xs := by
  have hI := dictInv_all c.rows
  have hsub : (createDictionary c.rows).1.Subperm (xs.filterMap id) := by
    apply List.Nodup.subperm hI.nodup
    intro s hs
    have := (rows_valid_mem h hb s).1 ((hI.mem s).1 hs)
    simpa using this
  have h1 := sum_subperm hsub
  rw [sum_filterMap_len] at h1
  have h2 := hsub.length_le
  have h3 : (xs.filterMap id).length ≤ xs.length := List.length_filterMap_le _ _
  generalize (createDictionary c.rows).1 = d at *
  rw [encodeStrings, writeInto_exact _ _ (flatMap_lenPrefixed_length d)]
  have h4 : ((d.map (fun s => 4 + s.length)).sum) = 4 * d.length + (d.map List.length).sum := by
    clear * -
    induction d with
    | nil => rfl
    | cons a t ih => simp only [List.map_cons, List.sum_cons, List.length_cons, ih]; omega
  rw [Option.getD_some, flatMap_lenPrefixed_length, h4]
  omega

theorem indices_len {c : StrColumn} {xs : List (Option (List UInt8))} (h : StrHist c xs) (hb : strBytes xs < 2 ^ 32)
    (hlen : xs.length < 2 ^ 31) :
    (encodeDictionaryIndices (createDictionary c.rows).2 c.nulls (dictBitWidth (createDictionary c.rows).1.length)).length
      ≤ 6 * xs.length + 37 := by
  have hI := dictInv_all c.rows
  have hl := (rows_eq h hb).1
  have hil : (createDictionary c.rows).2.length = xs.length := by
    show (c.rows.foldl DictState.step {}).indices.length = _
    rw [hI.indices, List.length_map, hl]
  have hdl : (createDictionary c.rows).1.length ≤ xs.length := by
    have hsub : (createDictionary c.rows).1.Subperm (xs.filterMap id) := by
      apply List.Nodup.subperm hI.nodup
      intro s hs
      have := (rows_valid_mem h hb s).1 ((hI.mem s).1 hs)
      simpa using this
    have := hsub.length_le
    have h3 : (xs.filterMap id).length ≤ xs.length := List.length_filterMap_le _ _
    omega
  have hw := (dictBitWidth_spec (createDictionary c.rows).1.length (by omega)).2.1
  rw [encodeDictionaryIndices]
  split
  · simp
  · split
    · simp
    · rw [List.length_cons]
      have h1 := rleLoop_len_crude _ hw (((createDictionary c.rows).2.zipIdx.filter (fun p => c.nulls.isValid p.2)).map (fun p => p.1.toUInt32))
      have h2 : (((createDictionary c.rows).2.zipIdx.filter (fun p => c.nulls.isValid p.2)).map (fun p => p.1.toUInt32)).length ≤ xs.length := by
        rw [List.length_map, ← hil, ← List.length_zipIdx (l := (createDictionary c.rows).2)]
        exact List.length_filter_le _ _
      omega

/-- Both uncompressed pages of a column are below 2 GiB if 16 bytes per row and the text are. -/
theorem pagesSmall_of (env : WEnv) (cs : ColSchema) {col : ArrowColumn} {rows : List (Option Val)} (h : ColHist col rows)
    (hsz : 16 * rows.length + valBytes rows + 64 < 2 ^ 31) : PagesSmall env cs col := by
  have hbm := (colHist_basic h).1
  have hbs : col.nulls.size = rows.length := by have := (C23_bitmap_is_list hbm).1; simpa using this
  have hlev : (if cs.nullable then encodeDefLevelsArrow col.nulls 1 col.nulls.nullCountFast else []).length ≤ 2 * rows.length + 20 := by
    split
    · rw [← hbs]; exact defLevels_len _ _
    · simp
  have hfm : ∀ {T : Type} (xs : List (Option T)), (xs.filterMap id).length ≤ xs.length := fun xs => List.length_filterMap_le _ _
  have hvals : (((encodeValues env col).map (·.bytes)).getD []).length ≤ 8 * rows.length + valBytes rows + 40 ∧
      (rawDictPage col).length ≤ 4 * rows.length + valBytes rows := by
    cases h with
    | @int32 c xs h | @date c xs h =>
      obtain ⟨bs, e, hl, _⟩ := C27_int32 h
      refine ⟨?_, by simp [rawDictPage]⟩
      simp only [encodeValues, e, Option.map_some, Option.getD_some, List.length_map]
      have := hfm xs; omega
    | @int64 c xs h | @float64 c xs h | @timestamp c xs h =>
      obtain ⟨bs, e, hl, _⟩ := C27_int64 h
      refine ⟨?_, by simp [rawDictPage]⟩
      simp only [encodeValues, e, Option.map_some, Option.getD_some, List.length_map]
      have := hfm xs; omega
    | @bool c xs h =>
      obtain ⟨bs, e, hl, _⟩ := C27_bool h
      refine ⟨?_, by simp [rawDictPage]⟩
      simp only [encodeValues, e, Option.map_some, Option.getD_some, List.length_map]
      have := hfm xs; omega
    | @string c xs h hb =>
      rw [totalBytes_eq] at hb
      rw [valBytes_strings] at hsz ⊢
      rw [List.length_map] at hsz ⊢
      have hd := dictPage_len h hb
      refine ⟨?_, hd⟩
      simp only [encodeValues]
      split
      · rw [encodeDictColumn]
        have hi := indices_len h hb (by omega)
        cases he : encodeStrings (createDictionary c.rows).1 with
        | none => simp [he]
        | some raw =>
          simp only [he, Option.map_some, Option.getD_some]
          omega
      · obtain ⟨bs, e, hd'⟩ := C27_byte_arrays h hb
        have := plainByteArrays_len _ _ _ _ (hd' [])
        rw [sum_filterMap_len] at this
        simp only [List.append_nil, List.length_nil] at this
        rw [e]
        simp only [Option.map_some, Option.getD_some]
        have := hfm xs
        omega
  refine ⟨?_, by omega⟩
  rw [rawDataPage, List.length_append]
  omega

end Vroom
