import Verif.Model.Append
import Verif.Model.Inference
import Verif.Props.Types
import Verif.Props.Atoi
import Verif.Props.Dates
import Verif.Props.RowScan
import Verif.Lemmas.ReaderPar
/- C17, C18: type inference. -/
namespace Vroom
open Spec

/-! ### C17 -/

/-- Default option lists (options.h:20-22): null "NA,null,NULL,", true "true,TRUE,True,yes,YES,Yes",
false "false,FALSE,False,no,NO,No". -/
def defaultInfer (isFloat : Bytes → Bool) : InferCfg where
  cpu := cpu32
  sep := 44
  quote := 34
  hasHeader := true
  nullValues := "NA,null,NULL,".toUTF8.toList
  trueValues := "true,TRUE,True,yes,YES,Yes".toUTF8.toList
  falseValues := "false,FALSE,False,no,NO,No".toUTF8.toList
  isFloat := isFloat

theorem listHas_iff (v l : Bytes) (hv : v ≠ []) : listHas v l = true ↔ v ∈ commaPieces l := by
  induction l using listHas.induct v with
  | case1 l h =>
    have : l = [] := by simpa using h
    subst this
    rw [listHas]; simp [commaPieces, hv]
  | case2 l h e he =>
    rw [listHas, if_neg h]
    simp only [show findComma l = e from rfl]
    rw [if_pos he, commaPieces_split]
    simp [← he, e]
  | case3 l h e he ih =>
    rw [listHas, if_neg h]
    simp only [show findComma l = e from rfl]
    rw [if_neg he, ih, commaPieces_split l]
    simp only [show findComma l = e from rfl, List.mem_cons]
    constructor
    · intro hm
      right
      split
      · exact hm
      · next hlt =>
        rw [List.drop_eq_nil_of_le (by omega)] at hm
        simp [commaPieces, hv] at hm
    · rintro (hm | hm)
      · exact absurd hm he
      · split at hm
        · exact hm
        · simp at hm

/-- Classification of non-empty fields that are in no option list. -/
theorem inferField_int (cfg : InferCfg) (v : Bytes) (t : DataType) (ht : t = .int32 ∨ t = .int64) (h : inferField cfg v = t) :
    inferInt v = some t := by
  unfold inferField at h
  split at h
  · rcases ht with rfl | rfl <;> simp at h
  split at h
  · rcases ht with rfl | rfl <;> simp at h
  split at h
  · rcases ht with rfl | rfl <;> simp at h
  split at h
  · rcases ht with rfl | rfl <;> simp at h
  split at h
  · next hh => rw [hh, h]
  · exfalso
    split at h
    · rcases ht with rfl | rfl <;> simp at h
    split at h
    · rcases ht with rfl | rfl <;> simp at h
    split at h <;> (rcases ht with rfl | rfl <;> simp at h)

theorem fits32_some (acc : Nat) (ds : Bytes) (h0 : acc ≤ 2147483647) (val : Nat) (h : fits32 acc ds = some val) :
    val = decFrom acc ds ∧ val ≤ 2147483647 := by
  induction ds generalizing acc with
  | nil => simp only [fits32, Option.some.injEq] at h; subst h; exact ⟨rfl, h0⟩
  | cons d ds ih =>
    unfold fits32 at h
    dsimp only at h
    split at h
    · simp at h
    · rw [decFrom_cons]; exact ih _ (by omega) h

/-- An inferred integer is a literal, and INT32 is only inferred for 32-bit values in range. -/
theorem inferInt_lit (v : Bytes) (t : DataType) (h : inferInt v = some t) :
    ∃ x, IntLit v x ∧ (t = .int32 ∨ t = .int64) ∧
      (t = .int32 → v.length ≤ 10 ∧ -2147483648 < x ∧ x < 2147483648) := by
  unfold inferInt at h
  dsimp only at h
  generalize hds : (if v.head? = some 45 ∨ v.head? = some 43 then v.drop 1 else v) = ds at h
  by_cases hd : ds ≠ [] ∧ ds.all isDigitB = true
  · rw [if_pos hd] at h
    obtain ⟨hne, hall⟩ := hd
    have hdig : ∀ d ∈ ds, IsDigit d := by
      intro d hm
      rw [List.all_eq_true] at hall
      exact (isDigitB_iff d).1 (hall d hm)
    have hsign : ∃ neg, takeSign v = some (neg, ds) ∧ (neg = true ↔ v.head? = some 45) := by
      cases v with
      | nil => simp at hds; exact absurd hds hne
      | cons b r =>
        simp only [List.head?_cons, Option.some.injEq, List.drop_succ_cons, List.drop_zero] at hds ⊢
        by_cases h45 : b = 45
        · subst h45
          simp only [true_or, if_true] at hds
          subst hds
          exact ⟨true, by simp [takeSign, hne], by simp⟩
        · by_cases h43 : b = 43
          · subst h43
            simp at hds
            subst hds
            exact ⟨false, by simp [takeSign, hne], by simp⟩
          · rw [if_neg (by tauto)] at hds
            subst hds
            exact ⟨false, by simp [takeSign, h45, h43], by simp [h45]⟩
    obtain ⟨neg, hs, hneg⟩ := hsign
    refine ⟨if neg then -(decValue ds : Int) else decValue ds, (intLit_iff _ _).2 ⟨neg, ds, hs, hdig, rfl⟩, ?_⟩
    split at h
    · next hlen =>
      split at h
      · next val hf =>
        obtain ⟨f1, f2⟩ := fits32_some 0 ds (by decide) val hf
        have f3 : val = decValue ds := f1
        split at h
        · have e := Option.some.inj h
          subst e
          refine ⟨Or.inl rfl, fun _ => ⟨hlen, ?_⟩⟩
          cases neg
          · simp only [Bool.false_eq_true, if_false]; omega
          · simp only [if_true]; omega
        · have e := Option.some.inj h
          subst e
          exact ⟨Or.inr rfl, fun h => by cases h⟩
      · have e := Option.some.inj h
        subst e
        exact ⟨Or.inr rfl, fun h => by cases h⟩
    · have e := Option.some.inj h
      subst e
      exact ⟨Or.inr rfl, fun h => by cases h⟩
  · rw [if_neg hd] at h; simp at h

/-- C17 for INT32: the value is always stored, exactly. -/
theorem C17_int32 (cfg : InferCfg) (lanes : Nat) (v : Bytes) (h : inferField cfg v = .int32) :
    ∃ x, IntLit v x ∧ storeText lanes cfg.isFloat .int32 v = .int x ∧ storeText lanes cfg.isFloat .int64 v = .int x := by
  obtain ⟨x, hx, _, hr⟩ := inferInt_lit v .int32 (inferField_int cfg v _ (Or.inl rfl) h)
  obtain ⟨h1, h2, h3⟩ := hr rfl
  refine ⟨x, hx, ?_, ?_⟩
  · simp only [storeText]
    rw [((C19_parse_int32 lanes v).1 x).2 ⟨hx, by omega, h2, h3⟩]; rfl
  · simp only [storeText]
    rw [((C20_parse_int64 lanes v).1 x).2 ⟨hx, by omega, by omega, by omega⟩]; rfl

/-- C17 for INT64, when the literal has at most 20 characters and is in range. -/
theorem C17_int64_partial (cfg : InferCfg) (lanes : Nat) (v : Bytes) (h : inferField cfg v = .int64) :
    ∃ x, IntLit v x ∧ (v.length ≤ 20 → -9223372036854775808 < x → x < 9223372036854775808 →
      storeText lanes cfg.isFloat .int64 v = .int x) := by
  obtain ⟨x, hx, _, _⟩ := inferInt_lit v .int64 (inferField_int cfg v _ (Or.inr rfl) h)
  refine ⟨x, hx, fun h1 h2 h3 => ?_⟩
  simp only [storeText]
  rw [((C20_parse_int64 lanes v).1 x).2 ⟨hx, h1, h2, h3⟩]; rfl

theorem inferField_bool (cfg : InferCfg) (v : Bytes) (h : inferField cfg v = .bool) :
    v ≠ [] ∧ (v ∈ commaPieces cfg.trueValues ∨ v ∈ commaPieces cfg.falseValues) := by
  unfold inferField at h
  split at h
  · simp at h
  next hv =>
  split at h
  · simp at h
  split at h
  · next ht => exact ⟨hv, Or.inl ((listHas_iff v _ hv).1 ht)⟩
  split at h
  · next ht => exact ⟨hv, Or.inr ((listHas_iff v _ hv).1 ht)⟩
  split at h
  · next t hi =>
    obtain ⟨_, _, ht, _⟩ := inferInt_lit v t hi
    subst h
    rcases ht with h | h <;> simp at h
  · split at h
    · simp at h
    split at h
    · simp at h
    split at h <;> simp at h

/-- C17 for BOOL, when the configured spellings are among those the column accepts. -/
theorem C17_bool_partial (cfg : InferCfg) (lanes : Nat) (v : Bytes) (h : inferField cfg v = .bool)
    (hopt : ∀ w, w ≠ [] → w ∈ commaPieces cfg.trueValues ∨ w ∈ commaPieces cfg.falseValues → w ∈ trueTokens ∨ w ∈ falseTokens) :
    ∃ b, storeText lanes cfg.isFloat .bool v = .bool b := by
  obtain ⟨h1, h2⟩ := inferField_bool cfg v h
  simp only [storeText]
  rcases hopt v h1 h2 with h | h
  · exact ⟨true, by rw [if_pos h]⟩
  · by_cases ht : v ∈ trueTokens
    · exact ⟨true, by rw [if_pos ht]⟩
    · exact ⟨false, by rw [if_neg ht, if_pos h]⟩

theorem inferField_date (cfg : InferCfg) (v : Bytes) (h : inferField cfg v = .date) : dateShape v = true := by
  unfold inferField at h
  split at h
  · simp at h
  split at h
  · simp at h
  split at h
  · simp at h
  split at h
  · simp at h
  split at h
  · next t hi =>
    obtain ⟨_, _, ht, _⟩ := inferInt_lit v t hi
    subst h
    rcases ht with h | h <;> simp at h
  · split at h
    · simp at h
    split at h
    · next hd => exact hd
    split at h <;> simp at h

theorem digitsNat_of_digits (acc : Nat) (ds : Bytes) (h : ∀ d ∈ ds, IsDigit d) : ∃ n, digitsNat acc ds = some n := by
  induction ds generalizing acc with
  | nil => exact ⟨acc, rfl⟩
  | cons d ds ih =>
    unfold digitsNat
    rw [if_neg ((isDigit_iff d).2 (h d (by simp)))]
    exact ih _ (fun x hx => h x (by simp [hx]))

/-- C17 for DATE: the value is the text of a (possibly impossible) date, and is stored exactly when the date
exists in the calendar. -/
theorem C17_date_partial (cfg : InferCfg) (lanes : Nat) (v : Bytes) (h : inferField cfg v = .date) :
    ∃ (t : Date) (sep : UInt8), v = t.text sep ∧
      (t.Valid ↔ ∃ d, storeText lanes cfg.isFloat .date v = .int d) := by
  have hs := inferField_date cfg v h
  unfold dateShape at hs
  split at hs
  · next y1 y2 y3 y4 s1 m1 m2 s2 d1 d2 =>
    simp only [Bool.and_eq_true, Bool.or_eq_true, beq_iff_eq, List.all_eq_true] at hs
    obtain ⟨⟨hs1, hs2⟩, hd⟩ := hs
    have hdig : ∀ d ∈ [y1, y2, y3, y4, m1, m2, d1, d2], IsDigit d := fun d hm => (isDigitB_iff d).1 (hd d hm)
    obtain ⟨y, hy⟩ := digitsNat_of_digits 0 [y1, y2, y3, y4] (fun d hm => hdig d (by simp at hm ⊢; tauto))
    obtain ⟨m, hm⟩ := digitsNat_of_digits 0 [m1, m2] (fun d hm => hdig d (by simp at hm ⊢; tauto))
    obtain ⟨dd, hdd⟩ := digitsNat_of_digits 0 [d1, d2] (fun d hm => hdig d (by simp at hm ⊢; tauto))
    subst hs2
    have etext : [y1, y2, y3, y4, s2, m1, m2, s2, d1, d2] = (Date.mk y m dd).text s2 := by
      show _ = show4 y ++ [s2] ++ show2 m ++ [s2] ++ show2 dd
      rw [← (digitsNat_four _ _ _ _ _ hy).1, ← (digitsNat_two _ _ _ hm).1, ← (digitsNat_two _ _ _ hdd).1]; rfl
    refine ⟨⟨y, m, dd⟩, s2, etext, ?_⟩
    constructor
    · intro hv
      have := (parseDate_iff _ _).2 ⟨⟨y, m, dd⟩, s2, hs1, hv, (digitsNat_four _ _ _ _ _ hy).2, etext, rfl⟩
      refine ⟨dayNum ⟨y, m, dd⟩, ?_⟩
      simp only [storeText]
      rw [if_neg (by simp), this]
    · rintro ⟨d, hst⟩
      simp only [storeText] at hst
      rw [if_neg (by simp)] at hst
      split at hst
      · next d' hp =>
        unfold parseDate at hp
        dsimp only at hp
        split at hp
        · simp at hp
        split at hp
        · simp at hp
        rw [hy, hm, hdd] at hp
        simp only [Option.bind_eq_bind, Option.bind_some] at hp
        split at hp
        · simp at hp
        split at hp
        · simp at hp
        next hmr hdr =>
        refine ⟨by simp; omega, by simp; omega, by simp; omega, ?_⟩
        show dd ≤ monthLength y m
        rw [← daysInMonth_eq y m (by omega) (by omega)]; omega
      · simp at hst
  · simp at hs

/-- C17 for a whole integer column: if every sampled value is null-like or an integer literal of at most 20
characters in the (open) 64-bit range, every value that is not null-like is stored exactly. -/
theorem C17_int_column_partial (cfg : InferCfg) (lanes : Nat) (vs : List Bytes)
    (h : ∀ v ∈ vs, inferField cfg v = .na ∨ inferField cfg v = .int32 ∨
      (inferField cfg v = .int64 ∧ v.length ≤ 20 ∧ ∀ x, IntLit v x → -9223372036854775808 < x ∧ x < 9223372036854775808))
    (v : Bytes) (hv : v ∈ vs) (hna : inferField cfg v ≠ .na) :
    ∃ x, IntLit v x ∧ storeText lanes cfg.isFloat ((vs.map (inferField cfg)).foldl widerType .unknown) v = .int x := by
  have hj := C16_fold_is_join (vs.map (inferField cfg)) (by intro hn; rw [List.map_eq_nil_iff] at hn; subst hn; simp at hv) (by
    intro t ht
    rw [List.mem_map] at ht
    obtain ⟨w, hw, rfl⟩ := ht
    rcases h w hw with h | h | ⟨h, _⟩ <;> rw [h] <;> simp)
  generalize (vs.map (inferField cfg)).foldl widerType .unknown = T at hj ⊢
  have hup : Below T .int64 := hj.2 _ (by
    intro t ht
    rw [List.mem_map] at ht
    obtain ⟨w, hw, rfl⟩ := ht
    rw [below_iff]
    rcases h w hw with h | h | ⟨h, _⟩ <;> rw [h] <;> rfl)
  have hlow : Below (inferField cfg v) T := hj.1 _ (List.mem_map_of_mem hv)
  rw [below_iff] at hup hlow
  rcases h v hv with h | h | ⟨h, hl, hx⟩
  · exact absurd h hna
  · obtain ⟨x, a, b, c⟩ := C17_int32 cfg lanes v h
    rw [h] at hlow
    refine ⟨x, a, ?_⟩
    have : T = .int32 ∨ T = .int64 := by revert hup hlow; cases T <;> decide
    rcases this with rfl | rfl
    · exact b
    · exact c
  · obtain ⟨x, a, b⟩ := C17_int64_partial cfg lanes v h
    rw [h] at hlow
    have : T = .int64 := by revert hup hlow; cases T <;> decide
    subst this
    exact ⟨x, a, b hl (hx x a).1 (hx x a).2⟩

/-- The full C17: every sampled value that is not null-like is stored as a non-null when the column has the
type inferred from the sample. -/
def C17_full : Prop := ∀ (cfg : InferCfg) (lanes : Nat) (vs : List Bytes) (v : Bytes), v ∈ vs → inferField cfg v ≠ .na →
  storeText lanes cfg.isFloat ((vs.map (inferField cfg)).foldl widerType .unknown) v ≠ .null

/-- False of the code with default options: "Yes" is inferred BOOL but read as null. -/
theorem C17_yes_fails : inferField (defaultInfer fun _ => false) "Yes".toUTF8.toList = .bool ∧
    storeText 32 (fun _ => false) .bool "Yes".toUTF8.toList = .null := by decide +kernel

theorem C17_full_fails : ¬ C17_full := by
  intro h
  refine h (defaultInfer fun _ => false) 32 ["Yes".toUTF8.toList] "Yes".toUTF8.toList (by simp) ?_ ?_
  · rw [C17_yes_fails.1]; simp
  · have : ((["Yes".toUTF8.toList].map (inferField (defaultInfer fun _ => false))).foldl widerType .unknown) = .bool := by
      decide +kernel
    rw [this]; exact C17_yes_fails.2

/-- A 20-digit number is inferred INT64 but read as null. -/
theorem C17_long_int_fails : inferField (defaultInfer fun _ => false) (List.replicate 20 57) = .int64 ∧
    storeText 32 (fun _ => false) .int64 (List.replicate 20 57) = .null := by decide +kernel

/-- "2024-13-45" is inferred DATE but read as null. -/
theorem C17_bad_date_fails : inferField (defaultInfer fun _ => false) "2024-13-45".toUTF8.toList = .date ∧
    storeText 32 (fun _ => false) .date "2024-13-45".toUTF8.toList = .null := by decide +kernel

/-- A column of "true" and "5" is widened to INT32, where "true" is read as null. -/
theorem C17_bool_int_mix_fails :
    ((["true".toUTF8.toList, "5".toUTF8.toList].map (inferField (defaultInfer fun _ => false))).foldl widerType .unknown) = .int32 ∧
    storeText 32 (fun _ => false) .int32 "true".toUTF8.toList = .null := by decide +kernel

/-- A column of a date and a timestamp is widened to TIMESTAMP, where the date is read as null. -/
theorem C17_date_timestamp_mix_fails :
    ((["2024-01-02".toUTF8.toList, "2024-01-02T03:04:05".toUTF8.toList].map (inferField (defaultInfer fun _ => false))).foldl widerType .unknown) = .timestamp ∧
    storeText 32 (fun _ => false) .timestamp "2024-01-02".toUTF8.toList = .null := by decide +kernel

example : inferField (defaultInfer fun _ => false) "-17".toUTF8.toList = .int32 := by decide +kernel
example : inferField (defaultInfer fun _ => false) "2147483648".toUTF8.toList = .int64 := by decide +kernel
example : inferField (defaultInfer fun _ => false) "2024/02/29".toUTF8.toList = .date := by decide +kernel

/-! ### C18 -/

namespace Spec

/-- A cell that needs no quoting or trimming. -/
structure CleanCell (sep q : UInt8) (f : List UInt8) : Prop where
  chars : ∀ c ∈ f, c ≠ sep ∧ c ≠ q ∧ c ≠ 10 ∧ c ≠ 13
  first : f.head? ≠ some 32 ∧ f.head? ≠ some 9
  last : f.getLast? ≠ some 32 ∧ f.getLast? ≠ some 9

/-- A table written one line per row. -/
def tableText (sep : UInt8) (rows : List (List (List UInt8))) : List UInt8 :=
  rows.flatMap (fun r => joinFields sep r ++ [10])

/-- Type of column `col` over some rows. -/
def columnType (cfg : InferCfg) (rows : List (List (List UInt8))) (col : Nat) : DataType :=
  let t := ((rows.filterMap (fun r => r[col]?)).map (inferField cfg)).foldl widerType .unknown
  if t = .unknown then .string else t

end Spec

theorem sampleRow_text (sep q : UInt8) (hs : sep ≠ q) (f rest cur : Bytes) (acc : List Bytes)
    (hf : ∀ c ∈ f, c ≠ sep ∧ c ≠ q ∧ c ≠ 10 ∧ c ≠ 13) (hb : cur ≠ [] ∨ (f.head? ≠ some 32 ∧ f.head? ≠ some 9)) :
    sampleRow sep q false cur acc (f ++ rest) = sampleRow sep q false (cur ++ f) acc rest := by
  induction f generalizing cur with
  | nil => simp
  | cons c f ih =>
    obtain ⟨h1, h2, h3, h4⟩ := hf c (by simp)
    rw [List.cons_append, sampleRow.eq_def]
    dsimp only
    rw [if_neg (by rintro (h | h); exacts [h3 h, h4 h]), if_neg h2, if_neg (by tauto), if_neg (by
      rintro ⟨hc, _, hbl⟩
      rcases hb with hb | hb
      · exact hb hc
      · simp at hb; tauto)]
    rw [ih _ (fun x hx => hf x (by simp [hx])) (Or.inl (by simp))]
    simp

theorem trimRight_id (f : Bytes) (h : f.getLast? ≠ some 32 ∧ f.getLast? ≠ some 9) : trimRight f = f := by
  unfold trimRight
  rcases List.eq_nil_or_concat f with rfl | ⟨g, c, rfl⟩
  · rfl
  · have hc : ¬ (c = 32 ∨ c = 9) := by simpa using h
    rw [List.concat_eq_append, List.reverse_append]
    simp only [List.reverse_cons, List.reverse_nil, List.nil_append, List.cons_append]
    rw [List.dropWhile_cons_of_neg (by simpa using hc)]
    simp

theorem sampleRow_join (sep q : UInt8) (hs : sep ≠ q) (hs10 : sep ≠ 10) (hs13 : sep ≠ 13) (fs : List Bytes) (hne : fs ≠ [])
    (hf : ∀ f ∈ fs, CleanCell sep q f) (acc : List Bytes) :
    sampleRow sep q false [] acc (joinFields sep fs ++ [10]) = acc ++ fs := by
  induction fs generalizing acc with
  | nil => exact absurd rfl hne
  | cons f fs ih =>
    have hc := hf f (by simp)
    cases fs with
    | nil =>
      rw [joinFields, sampleRow_text sep q hs f [10] [] acc hc.chars (Or.inr hc.first), sampleRow.eq_def]
      simp [trimRight_id f hc.last]
    | cons g gs =>
      rw [joinFields, List.append_assoc, List.cons_append, sampleRow_text sep q hs f _ [] acc hc.chars (Or.inr hc.first), sampleRow.eq_def]
      dsimp only
      rw [if_neg (by rintro (h | h); exacts [hs10 h, hs13 h]), if_neg hs, if_pos ⟨rfl, rfl⟩]
      rw [ih (by simp) (fun x hx => hf x (by simp [hx]))]
      simp [trimRight_id f hc.last]
      · simp

/-- No special byte in a joined clean row except separators. -/
theorem join_clean (sep q : UInt8) (hs : sep ≠ q) (hs10 : sep ≠ 10) (hs13 : sep ≠ 13) (fs : List Bytes)
    (hf : ∀ f ∈ fs, CleanCell sep q f) (c : UInt8) (hc : c ∈ joinFields sep fs) : c ≠ q ∧ c ≠ 10 ∧ c ≠ 13 := by
  rcases mem_joinFields sep c fs hc with rfl | ⟨f, hm, hcf⟩
  · exact ⟨hs, hs10, hs13⟩
  · exact ((hf f hm).chars c hcf).2

theorem rowEnd_clean (cpu : Cpu) (q : UInt8) (hq : q ≠ 10 ∧ q ≠ 13) (pre line post : Bytes)
    (hl : ∀ c ∈ line, c ≠ q ∧ c ≠ 10 ∧ c ≠ 13) :
    findRowEnd cpu q (pre ++ (line ++ [10]) ++ post) pre.length = pre.length + (line.length + 1) := by
  have hspec := C03_find_row_end cpu q hq (pre ++ (line ++ [10]) ++ post) pre.length
  have hdrop : (pre ++ (line ++ [10]) ++ post).drop pre.length = line ++ 10 :: post := by
    rw [List.append_assoc, List.drop_left']
    · simp
    · rfl
  unfold Spec.IsNextRowEnd at hspec
  rw [hdrop] at hspec
  have hcount : ∀ i, i ≤ line.length → ((line ++ 10 :: post).take i).count q = 0 := by
    intro i hi
    rw [List.take_append_of_le_length hi, List.count_eq_zero]
    intro hm
    exact (hl q (List.mem_of_mem_take hm)).1 rfl
  have hend : Spec.isRowEnd q false (line ++ 10 :: post) line.length = true := by
    unfold Spec.isRowEnd Spec.insideAt
    rw [hcount _ (Nat.le_refl _)]
    simp
  have hnot : ∀ j, j < line.length → Spec.isRowEnd q false (line ++ 10 :: post) j = false := by
    intro j hj
    unfold Spec.isRowEnd
    rw [List.getElem?_append_left hj, List.getElem?_eq_getElem hj]
    have := hl _ (List.getElem_mem hj)
    simp [this.2.1, this.2.2]
  rcases hspec with ⟨i, h1, h2, h3⟩ | ⟨h1, _⟩
  · have : i = line.length := by
      rcases Nat.lt_trichotomy i line.length with h | h | h
      · rw [hnot i h] at h1; simp at h1
      · exact h
      · rw [h2 _ h] at hend; simp at hend
    omega
  · rw [h1] at hend; simp at hend

theorem updateTypes_fold (cfg : InferCfg) (rows : List (List Bytes)) (types : List DataType) :
    rows.foldl (updateTypes cfg) types =
      types.mapIdx (fun col t => ((rows.filterMap (fun r => r[col]?)).map (inferField cfg)).foldl widerType t) := by
  induction rows generalizing types with
  | nil =>
    apply List.ext_getElem
    · simp
    · intro i h1 h2; simp
  | cons r rows ih =>
    rw [List.foldl_cons, ih]
    unfold updateTypes
    rw [List.mapIdx_mapIdx]
    congr 1
    funext col t
    simp only [Function.comp]
    rw [List.filterMap_cons]
    cases hr : r[col]? with
    | none => simp
    | some f => simp

/-- Preconditions shared by the C18 theorems. -/
structure CleanTable (cfg : InferCfg) (rows : List (List Bytes)) : Prop where
  quote : cfg.quote ≠ 10 ∧ cfg.quote ≠ 13
  sep : cfg.sep ≠ cfg.quote ∧ cfg.sep ≠ 10 ∧ cfg.sep ≠ 13
  rows : ∀ r ∈ rows, r ≠ [] ∧ ∀ f ∈ r, CleanCell cfg.sep cfg.quote f

theorem sampleLoop_table (cfg : InferCfg) (maxRows : Nat) (rows : List (List Bytes)) (h : CleanTable cfg rows) (pre : Bytes)
    (fuel k : Nat) (types : List DataType) (hf : rows.length < fuel) :
    sampleLoop cfg (pre ++ tableText cfg.sep rows) maxRows fuel pre.length k types =
      (rows.take (maxRows - k)).foldl (updateTypes cfg) types := by
  induction rows generalizing pre fuel k types with
  | nil =>
    cases fuel with
    | zero => simp at hf
    | succ fuel => simp [sampleLoop, tableText]
  | cons r rows ih =>
    cases fuel with
    | zero => simp at hf
    | succ fuel =>
      have hr := h.rows r (by simp)
      have hjoin := join_clean cfg.sep cfg.quote h.sep.1 h.sep.2.1 h.sep.2.2 r hr.2
      have htext : pre ++ tableText cfg.sep (r :: rows) = pre ++ (joinFields cfg.sep r ++ [10]) ++ tableText cfg.sep rows := by
        simp [tableText]
      rw [htext]
      unfold sampleLoop
      by_cases hk : k < maxRows
      · rw [if_pos ⟨by simp, hk⟩]
        simp only [rowEnd_clean cfg.cpu cfg.quote h.quote pre _ _ hjoin]
        rw [if_neg (by omega)]
        have hslice : ((pre ++ (joinFields cfg.sep r ++ [10]) ++ tableText cfg.sep rows).drop pre.length).take
            (pre.length + ((joinFields cfg.sep r).length + 1) - pre.length) = joinFields cfg.sep r ++ [10] := by
          rw [List.append_assoc, List.drop_left' rfl, Nat.add_sub_cancel_left, List.take_left' (by simp)]
        rw [hslice, sampleRow_join cfg.sep cfg.quote h.sep.1 h.sep.2.1 h.sep.2.2 r hr.1 hr.2]
        have := ih ⟨h.quote, h.sep, fun x hx => h.rows x (by simp [hx])⟩ (pre ++ (joinFields cfg.sep r ++ [10])) fuel (k + 1)
          (updateTypes cfg types ([] ++ r)) (by simp at hf; omega)
        have hl : (pre ++ (joinFields cfg.sep r ++ [10])).length = pre.length + ((joinFields cfg.sep r).length + 1) := by simp
        rw [hl] at this
        rw [this, show maxRows - k = (maxRows - (k + 1)) + 1 by omega]
        simp
      · rw [if_neg (by tauto), show maxRows - k = 0 by omega]
        simp

theorem tableText_length (sep : UInt8) (rows : List (List Bytes)) : rows.length ≤ (tableText sep rows).length := by
  induction rows with
  | nil => simp
  | cons r rows ih =>
    have : tableText sep (r :: rows) = (joinFields sep r ++ [10]) ++ tableText sep rows := by simp [tableText]
    rw [this]; simp; omega

theorem finish_types (cfg : InferCfg) (rows : List (List Bytes)) (n : Nat) :
    ((rows.foldl (updateTypes cfg) (List.replicate n DataType.unknown)).map (fun t => if t = .unknown then .string else t)) =
      (List.range n).map (Spec.columnType cfg rows) := by
  rw [updateTypes_fold]
  apply List.ext_getElem
  · simp
  · intro i h1 h2
    simp [Spec.columnType]

/-- What the sampling sees: without a header, the rows from the first one. -/
theorem C18_no_header (cfg : InferCfg) (hh : cfg.hasHeader = false) (rows : List (List Bytes)) (h : CleanTable cfg rows)
    (hne : rows ≠ []) (n maxRows : Nat) (hn : n ≠ 0) :
    openInfer cfg (tableText cfg.sep rows) n maxRows = (List.range n).map (Spec.columnType cfg (rows.take maxRows)) := by
  unfold openInfer inferFromSample
  have hlen := tableText_length cfg.sep rows
  have : rows.length ≠ 0 := by simpa using hne
  simp only [hh, Bool.false_eq_true, if_false, List.drop_zero]
  rw [if_neg (by omega)]
  have := sampleLoop_table cfg maxRows rows h [] ((tableText cfg.sep rows).length + 1) 0 (List.replicate n .unknown) (by omega)
  simp only [List.nil_append, List.length_nil, Nat.sub_zero] at this
  rw [this, finish_types]

/-- With a header, the first data row is skipped as well: the sample is rows 2, 3, … -/
theorem C18_header_skips_first_row (cfg : InferCfg) (hh : cfg.hasHeader = true) (header first : List Bytes)
    (rows : List (List Bytes)) (h : CleanTable cfg (header :: first :: rows)) (n maxRows : Nat) (hn : n ≠ 0) :
    openInfer cfg (tableText cfg.sep (header :: first :: rows)) n maxRows =
      (List.range n).map (Spec.columnType cfg (rows.take maxRows)) := by
  have hA := h.rows header (by simp)
  have hB := h.rows first (by simp)
  have jA := join_clean cfg.sep cfg.quote h.sep.1 h.sep.2.1 h.sep.2.2 header hA.2
  have jB := join_clean cfg.sep cfg.quote h.sep.1 h.sep.2.1 h.sep.2.2 first hB.2
  have e1 : tableText cfg.sep (header :: first :: rows) =
      [] ++ (joinFields cfg.sep header ++ [10]) ++ tableText cfg.sep (first :: rows) := by simp [tableText]
  have e2 : tableText cfg.sep (first :: rows) =
      [] ++ (joinFields cfg.sep first ++ [10]) ++ tableText cfg.sep rows := by simp [tableText]
  unfold openInfer
  simp only [hh, if_true]
  have r1 : findRowEnd cfg.cpu cfg.quote (tableText cfg.sep (header :: first :: rows)) 0 = (joinFields cfg.sep header ++ [10]).length := by
    have := rowEnd_clean cfg.cpu cfg.quote h.quote [] (joinFields cfg.sep header) (tableText cfg.sep (first :: rows)) jA
    rw [← e1] at this
    simpa using this
  rw [r1]
  have d1 : (tableText cfg.sep (header :: first :: rows)).drop (joinFields cfg.sep header ++ [10]).length = tableText cfg.sep (first :: rows) := by
    rw [e1, List.nil_append, List.drop_left' rfl]
  rw [d1]
  unfold inferFromSample
  have hlen := tableText_length cfg.sep (first :: rows)
  simp only [List.length_cons] at hlen
  rw [if_neg (by omega)]
  simp only [hh, if_true]
  have r2 : findRowEnd cfg.cpu cfg.quote (tableText cfg.sep (first :: rows)) 0 = (joinFields cfg.sep first ++ [10]).length := by
    have := rowEnd_clean cfg.cpu cfg.quote h.quote [] (joinFields cfg.sep first) (tableText cfg.sep rows) jB
    rw [← e2] at this
    simpa using this
  rw [r2]
  have := sampleLoop_table cfg maxRows rows ⟨h.quote, h.sep, fun x hx => h.rows x (by simp [hx])⟩ (joinFields cfg.sep first ++ [10])
    ((tableText cfg.sep (first :: rows)).length + 1) 0 (List.replicate n .unknown) (by omega)
  rw [e2, List.nil_append] at this ⊢
  rw [this, Nat.sub_zero, finish_types]

/-- The full C18: the sample starts at the first data row. -/
def C18_full : Prop := ∀ (cfg : InferCfg), cfg.hasHeader = true → ∀ (header : List Bytes) (rows : List (List Bytes)),
  CleanTable cfg (header :: rows) → ∀ n maxRows, n ≠ 0 → rows ≠ [] →
  openInfer cfg (tableText cfg.sep (header :: rows)) n maxRows = (List.range n).map (Spec.columnType cfg (rows.take maxRows))

/-- The table h / x / 1. -/
theorem c18_clean : CleanTable (defaultInfer fun _ => false) [[[104]], [[120]], [[49]]] := by
  refine ⟨by decide, by decide, ?_⟩
  intro r hr
  simp only [List.mem_cons, List.not_mem_nil, or_false] at hr
  rcases hr with rfl | rfl | rfl <;>
  · refine ⟨by simp, ?_⟩
    intro f hf
    simp only [List.mem_cons, List.not_mem_nil, or_false] at hf
    subst hf
    exact ⟨by intro c hc; simp at hc; subst hc; decide, by decide, by decide⟩

/-- It is false of the code: in "h\nx\n1\n" the text row "x" is not sampled, the column becomes INT32 and
"x" is then stored as null. -/
theorem C18_full_fails : ¬ C18_full := by
  intro h
  have h1 := h (defaultInfer fun _ => false) rfl [[104]] [[[120]], [[49]]] c18_clean 1 100 (by decide) (by decide)
  have h2 := C18_header_skips_first_row (defaultInfer fun _ => false) rfl [[104]] [[120]] [[[49]]] c18_clean 1 100 (by decide)
  rw [h1] at h2
  exact absurd h2 (by decide +kernel)

theorem C18_value_lost : openInfer (defaultInfer fun _ => false) [104, 10, 120, 10, 49, 10] 1 100 = [.int32] ∧
    storeText 32 (fun _ => false) .int32 [120] = .null := by decide +kernel

end Vroom
