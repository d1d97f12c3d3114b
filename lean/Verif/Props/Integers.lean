import Verif.Props.Sample
/- C62: tables of integers, from the CSV text to the numbers in the Parquet file. -/
namespace Vroom
open Parquet Spec

theorem fits32_exact (acc : Nat) (ds : Bytes) (h : decFrom acc ds ≤ 2147483647) : fits32 acc ds = some (decFrom acc ds) := by
  induction ds generalizing acc with
  | nil => rfl
  | cons d ds ih =>
    rw [decFrom_cons] at h ⊢
    have := decFrom_mono_acc (acc * 10 + (d.toNat - 48)) ds
    unfold fits32
    dsimp only
    rw [if_neg (by omega)]
    exact ih _ h

theorem all_digits {ds : Bytes} (h : ∀ d ∈ ds, IsDigit d) : ds.all isDigitB = true :=
  List.all_eq_true.2 fun d hd => (isDigitB_iff d).2 (h d hd)

/-- Integer literals of at most 10 characters below 2^31 are classified as INT32. -/
theorem inferInt_small {v : Bytes} {x : Int} (hv : IntLit v x) (hl : v.length ≤ 10) (h1 : -2147483647 ≤ x) (h2 : x ≤ 2147483647) : inferInt v = some .int32 := by
  cases hv with
  | bare ds hne hd =>
    have hh : ¬ (v.head? = some 45 ∨ v.head? = some 43) := by
      cases v with
      | nil => exact absurd rfl hne
      | cons d ds =>
        have h := hd d (by simp)
        simp only [List.head?_cons, Option.some.injEq]
        rintro (rfl | rfl) <;> revert h <;> decide
    unfold inferInt
    dsimp only
    have e : fits32 0 v = some (decFrom 0 v) := fits32_exact 0 v (by have : (decFrom 0 v : Int) ≤ 2147483647 := h2; omega)
    have h45 : v.head? ≠ some 45 := fun h => hh (.inl h)
    simp only [if_neg hh]
    rw [if_pos ⟨hne, all_digits hd⟩, if_pos hl, e]
    dsimp only
    rw [if_pos (.inl h45)]
  | plus ds hne hd =>
    unfold inferInt
    dsimp only
    have e : fits32 0 ds = some (decFrom 0 ds) := fits32_exact 0 ds (by have : (decFrom 0 ds : Int) ≤ 2147483647 := h2; omega)
    simp only [List.head?_cons, List.drop_succ_cons, List.drop_zero, or_true, if_true]
    rw [if_pos ⟨hne, all_digits hd⟩, if_pos hl, e]
    dsimp only
    exact if_pos (Or.inl (by decide))
  | minus ds hne hd =>
    unfold inferInt
    dsimp only
    have hb : decFrom 0 ds ≤ 2147483647 := by
      have : -2147483647 ≤ -(decFrom 0 ds : Int) := h1
      omega
    have e : fits32 0 ds = some (decFrom 0 ds) := fits32_exact 0 ds hb
    simp only [List.head?_cons, List.drop_succ_cons, List.drop_zero, true_or, if_true]
    rw [if_pos ⟨hne, all_digits hd⟩, if_pos hl, e]
    dsimp only
    exact if_pos (Or.inr (by omega))

theorem intLit_chars {v : Bytes} {x : Int} (h : IntLit v x) : v ≠ [] ∧ ∀ c ∈ v, c ≠ 10 ∧ c ≠ 13 ∧ c ≠ 32 ∧ c ≠ 9 := by
  refine ⟨?_, ?_⟩
  · cases h with
    | bare _ hne _ => exact hne
    | plus => simp
    | minus => simp
  · have hdig : ∀ d : UInt8, IsDigit d → d ≠ 10 ∧ d ≠ 13 ∧ d ≠ 32 ∧ d ≠ 9 := by
      intro d hd
      refine ⟨?_, ?_, ?_, ?_⟩ <;> (rintro rfl; revert hd; decide)
    cases h with
    | bare ds _ hd => exact fun c hc => hdig c (hd c hc)
    | plus ds _ hd =>
      intro c hc
      rcases List.mem_cons.1 hc with rfl | hc
      · decide
      · exact hdig c (hd c hc)
    | minus ds _ hd =>
      intro c hc
      rcases List.mem_cons.1 hc with rfl | hc
      · decide
      · exact hdig c (hd c hc)

theorem intLit_trim {v : Bytes} {x : Int} (h : IntLit v x) : trimEnd v = v := by
  rw [← trimRight_eq]
  refine trimRight_id v ⟨?_, ?_⟩
  · intro hl; exact ((intLit_chars h).2 32 (List.mem_of_getLast? hl)).2.2.1 rfl
  · intro hl; exact ((intLit_chars h).2 9 (List.mem_of_getLast? hl)).2.2.2 rfl

/-- A text of a table of small integers: a literal of at most 10 characters that is none of the special spellings. -/
structure Spec.SmallInt (cfg : InferCfg) (v : List UInt8) (x : Int) : Prop where
  lit : IntLit v x
  short : v.length ≤ 10
  low : -2147483647 ≤ x
  high : x ≤ 2147483647
  plain : v ∉ commaPieces cfg.nullValues ∧ v ∉ commaPieces cfg.trueValues ∧ v ∉ commaPieces cfg.falseValues

theorem smallInt_type {cfg : InferCfg} {v : Bytes} {x : Int} (h : SmallInt cfg v x) : inferField cfg v = .int32 := by
  have hne := (intLit_chars h.lit).1
  have hno : ∀ l, v ∉ commaPieces l → ¬ (listHas v l = true) := fun l hl hh => hl ((listHas_iff v l hne).1 hh)
  unfold inferField
  rw [if_neg hne, if_neg (hno _ h.plain.1), if_neg (hno _ h.plain.2.1), if_neg (hno _ h.plain.2.2), inferInt_small h.lit h.short h.low h.high]

theorem smallInt_stored {cfg : InferCfg} {v : Bytes} {x : Int} (h : SmallInt cfg v x) (lanes : Nat) (isf : Bytes → Bool) : storeText lanes isf .int32 v = .int x := by
  have h1 := h.low
  have h2 := h.high
  have h3 := h.short
  simp only [storeText]
  rw [((C19_parse_int32 lanes v).1 x).2 ⟨h.lit, by omega, by omega, by omega⟩]; rfl

theorem smallInt_not_min {cfg : InferCfg} {v : Bytes} {x : Int} (h : SmallInt cfg v x) : ¬ IsMinimum .int32 v := by
  rintro (⟨-, hm, hl⟩ | ⟨h', -⟩)
  · have h1 := h.low
    have h2 := h.high
    have h3 := h.short
    have e1 := (C19_parse_int32 8 v).2.2 ⟨hm, hl⟩
    have e2 := ((C19_parse_int32 8 v).1 x).2 ⟨h.lit, by omega, by omega, by omega⟩
    rw [e1] at e2
    cases e2
  · cases h'

theorem widen_int32 (l : List DataType) (h : ∀ t ∈ l, t = .int32) (hne : l ≠ []) : l.foldl widerType .unknown = .int32 := by
  have key : ∀ l : List DataType, (∀ t ∈ l, t = .int32) → l.foldl widerType .int32 = .int32 := by
    intro l
    induction l with
    | nil => intro _; rfl
    | cons t l ih =>
      intro h
      rw [List.foldl_cons, h t (by simp)]
      exact ih (fun u hu => h u (by simp [hu]))
  cases l with
  | nil => exact absurd rfl hne
  | cons t l =>
    rw [List.foldl_cons, h t (by simp)]
    exact key l (fun u hu => h u (by simp [hu]))

/-- **C18**, **C17** A table of integers with at least two rows, every value in quotes: every column is inferred as INT32. -/
theorem C18_integers (cfg : InferCfg) (hh : cfg.hasHeader = true) (hM : ReadSane cfg.marks) (names : List (List UInt8)) (hn : names ≠ [])
    (rows : List (List (List UInt8 × Int))) (hlen : ∀ r ∈ rows, r.length = names.length) (hcell : ∀ r ∈ rows, ∀ c ∈ r, SmallInt cfg c.1 c.2)
    (htwo : 2 ≤ rows.length) (maxRows : Nat) (hmax : maxRows ≠ 0) :
    openInfer cfg (quoteAll cfg.marks (names :: rows.map (fun r => r.map Prod.fst))) names.length maxRows = List.replicate names.length .int32 := by
  have hn0 : names.length ≠ 0 := fun h => hn (List.length_eq_zero_iff.1 h)
  obtain ⟨first, rest, rfl⟩ : ∃ a l, rows = a :: l := by
    cases rows with
    | nil => simp at htwo
    | cons a l => exact ⟨a, l, rfl⟩
  obtain ⟨second, rest, rfl⟩ : ∃ a l, rest = a :: l := by
    cases rest with
    | nil => simp at htwo
    | cons a l => exact ⟨a, l, rfl⟩
  have hrne : ∀ r ∈ first :: second :: rest, r.map Prod.fst ≠ [] := by
    intro r hr h
    have := hlen r hr
    rw [List.map_eq_nil_iff] at h
    rw [h] at this
    exact hn0 this.symm
  rw [List.map_cons, C18_quote_all cfg hh hM names (first.map Prod.fst) ((second :: rest).map (fun r => r.map Prod.fst)) (by
      intro r hr
      rcases List.mem_cons.1 hr with rfl | hr
      · exact hn
      rcases List.mem_cons.1 hr with rfl | hr
      · exact hrne _ (by simp)
      · obtain ⟨s, hs, rfl⟩ := List.mem_map.1 hr
        exact hrne s (List.mem_cons_of_mem _ hs))
    (by
      intro r hr v hv
      obtain ⟨s, hs, rfl⟩ := List.mem_map.1 hr
      obtain ⟨c, hc, rfl⟩ := List.mem_map.1 hv
      have := intLit_chars (hcell s (List.mem_cons_of_mem _ hs) c hc).lit
      exact ⟨fun h => (this.2 10 h).1 rfl, fun h => (this.2 13 h).2.1 rfl⟩) names.length maxRows hn0]
  refine List.ext_getElem (by simp) ?_
  intro j h1 h2
  rw [List.getElem_map, List.getElem_range, List.getElem_replicate]
  have hj : j < names.length := by simpa using h1
  unfold columnType
  obtain ⟨m, rfl⟩ := Nat.exists_eq_succ_of_ne_zero hmax
  have := widen_int32 ((((((second :: rest).map (fun r => r.map Prod.fst)).take (m + 1)).map (fun r => r.map trimEnd)).filterMap (fun r => r[j]?)).map (inferField cfg)) (by
    intro t ht
    obtain ⟨v, hv, rfl⟩ := List.mem_map.1 ht
    obtain ⟨r, hr, hrj⟩ := List.mem_filterMap.1 hv
    obtain ⟨r', hr', rfl⟩ := List.mem_map.1 hr
    obtain ⟨r'', hr'', rfl⟩ := List.mem_map.1 (List.mem_of_mem_take hr')
    rw [List.getElem?_map, List.getElem?_map] at hrj
    cases hc : r''[j]? with
    | none => rw [hc] at hrj; simp at hrj
    | some c =>
      rw [hc] at hrj
      simp only [Option.map_some, Option.some.injEq] at hrj
      have hsm := hcell r'' (List.mem_cons_of_mem _ hr'') c (List.mem_of_getElem? hc)
      rw [← hrj, intLit_trim hsm.lit]
      exact smallInt_type hsm) (by
    have hs : j < second.length := by rw [hlen second (by simp)]; exact hj
    simp [List.take_succ_cons, List.getElem?_eq_getElem hs])
  rw [this]
  rfl

/-- **C62** A table of integers (at least two rows, one per name in every row, below 1 MiB, every value in quotes): if the conversion succeeds, an independent reader finds in the output
the names, INT32 columns, and exactly those integers.  Partial: the conditions of `C62_quote_all_partial`; one row only (C18: nothing is sampled); other types. -/
theorem C62_integers_partial (o : FileOpts) (hdict : o.env.enableDictionary = false ∨ o.env.compression = .none)
    (dec : Int → List UInt8 → Option (List UInt8)) (hcodec : CodecOk o.env dec) (hlz : o.env.compression ≠ .lz4)
    (w : ConvWorld) (hw : Spoken w) (data : List UInt8) (r : ConvResult) (out : Option (List UInt8)) (h : ConvertedFile o w data r out) (hok : r.ok = true)
    (hh : o.infer.hasHeader = true) (hM : ReadSane o.infer.marks)
    (hnull : ∀ v ∈ commaPieces o.infer.nullValues, v.head? ≠ some o.infer.quote)
    (names : List (List UInt8)) (hn : names ≠ []) (hgood : names.map trimEnd ≠ [[]] ∨ o.mode = .disabled ∨ o.mode = .bestEffort)
    (rows : List (List (List UInt8 × Int))) (hlen : ∀ r ∈ rows, r.length = names.length) (hcell : ∀ r ∈ rows, ∀ c ∈ r, SmallInt o.infer c.1 c.2)
    (htwo : 2 ≤ rows.length) (hsample : o.sampleRows ≠ 0)
    (hdata : data = quoteAll o.infer.marks (names :: rows.map (fun r => r.map Prod.fst))) (hsize : data.length < 2 ^ 20)
    (hfoot : footerBound (data.length / 2 ^ 20 + 1) (names.map trimEnd) < 2 ^ 32) :
    ∃ bytes gs, out = some bytes ∧ readFile dec bytes = some (names.map (fun n => (trimEnd n, 1, true)), gs) ∧ (gs.map (·.numRows)).sum = rows.length ∧
      ∀ j, j < names.length → tableColumn (gs.map (·.columns)) j = rows.map (fun r => (r[j]?).map (fun c => Val.num (c.2 % 2 ^ 32).toNat)) := by
  have hn0 : names.length ≠ 0 := fun h => hn (List.length_eq_zero_iff.1 h)
  have htypes : List.replicate names.length DataType.int32 = openInfer o.infer data names.length o.sampleRows := by
    rw [hdata, C18_integers o.infer hh hM names hn rows hlen hcell htwo o.sampleRows hsample]
  have hcol : ∀ j, j < names.length → (columnsOf names.length (rows.map (fun r => r.map Prod.fst))).getD j [] = rows.map (fun r => (r[j]?).map Prod.fst) := by
    intro j hj
    unfold columnsOf
    rw [List.getD_eq_getElem?_getD, List.getElem?_map, List.getElem?_range hj]
    simp [List.map_map, Function.comp_def]
  have hrep : ∀ (j : Nat) (t : DataType), (List.replicate names.length DataType.int32)[j]? = some t → j < names.length ∧ t = .int32 := by
    intro j t ht
    rw [List.getElem?_replicate] at ht
    split at ht
    · next hj => exact ⟨hj, by simpa using ht.symm⟩
    · simp at ht
  obtain ⟨bytes, e1, gs, g1, g2, g3⟩ := C62_quote_all_partial o hdict dec hcodec hlz w hw data r out h hok hh hM hnull names (rows.map (fun r => r.map Prod.fst)) hn
    (by
      intro r hr
      obtain ⟨s, hs, rfl⟩ := List.mem_map.1 hr
      intro h
      have := hlen s hs
      rw [List.map_eq_nil_iff] at h
      rw [h] at this
      exact hn0 this.symm) hgood hdata hsize hfoot _ htypes
    (by
      rintro ⟨j, t, v, ht, hv, hm⟩
      obtain ⟨hj, rfl⟩ := hrep j t ht
      rw [hcol j hj] at hv
      obtain ⟨r, hr, hrv⟩ := List.mem_map.1 hv
      cases hc : r[j]? with
      | none => rw [hc] at hrv; simp at hrv
      | some c =>
        rw [hc] at hrv
        simp only [Option.map_some, Option.some.injEq] at hrv
        subst hrv
        exact smallInt_not_min (hcell r hr c (List.mem_of_getElem? hc)) hm)
    (by
      intro j t ht hna
      obtain ⟨-, rfl⟩ := hrep j t ht
      rcases hna with h | h <;> cases h)
  refine ⟨bytes, gs, e1, ?_, by rw [g3, List.length_map], ?_⟩
  · rw [g1]
    congr 2
    refine List.ext_getElem (by simp) ?_
    intro i h1 h2
    simp only [List.getElem_map, List.getElem_zip, List.getElem_replicate]
    rfl
  · intro j hj
    have := g2 j .int32 (by rw [List.getElem?_replicate, if_pos hj])
    rw [this, hcol j hj, List.map_map]
    refine List.map_congr_left fun r hr => ?_
    simp only [Function.comp]
    cases hc : r[j]? with
    | none => rfl
    | some c =>
      have hs := smallInt_stored (hcell r hr c (List.mem_of_getElem? hc)) o.lanes (fun v => (o.floatBits v).isSome)
      simp only [Option.map_some, cellVal, show stored DataType.int32 = DataType.int32 from rfl]
      rw [hs]
      simp

/-- Non-vacuity of `C18_integers` and `C62_integers_partial`: the cells `12`, `-3`, `+7`, `2147483647`. -/
example : ∀ c ∈ [(([49, 50] : List UInt8), (12 : Int)), ([45, 51], -3), ([43, 55], 7), ([50, 49, 52, 55, 52, 56, 51, 54, 52, 55], 2147483647)],
    SmallInt (defaultInfer fun _ => false) c.1 c.2 := by
  intro c hc
  simp only [List.mem_cons, List.not_mem_nil, or_false] at hc
  rcases hc with rfl | rfl | rfl | rfl
  · exact ⟨.bare [49, 50] (by decide) (by decide), by decide, by decide, by decide, by decide +kernel⟩
  · exact ⟨.minus [51] (by decide) (by decide), by decide, by decide, by decide, by decide +kernel⟩
  · exact ⟨.plus [55] (by decide) (by decide), by decide, by decide, by decide, by decide +kernel⟩
  · exact ⟨.bare [50, 49, 52, 55, 52, 56, 51, 54, 52, 55] (by decide) (by decide), by decide, by decide, by decide, by decide +kernel⟩

end Vroom
