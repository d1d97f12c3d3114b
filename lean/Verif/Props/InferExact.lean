import Verif.Spec.Kept
import Verif.Props.StampText
import Verif.Props.Inference
import Verif.Props.Tightened
/- C17: exactly which sampled values a column of the inferred type keeps. -/
namespace Vroom
open Spec

theorem store_int32 (lanes : Nat) (isFloat : Bytes → Bool) (v : Bytes) : storeText lanes isFloat .int32 v ≠ .null ↔ IntText 11 2147483648 v := by
  simp only [storeText]
  obtain ⟨h1, h2⟩ := C19_parse_int32 lanes v
  unfold IntText
  cases hp : parseInt32Simd lanes v with
  | ok x =>
    obtain ⟨g1, g2, g3, g4⟩ := (h1 x).1 hp
    simp only [Outcome.stored, ne_eq, reduceCtorEq, not_false_eq_true, true_iff]
    exact ⟨x, g1, g2, by omega, by omega⟩
  | ub =>
    obtain ⟨g1, g2⟩ := h2.1 hp
    simp only [Outcome.stored, ne_eq, reduceCtorEq, not_false_eq_true, true_iff]
    exact ⟨_, g1, g2, by omega, by omega⟩
  | reject =>
    simp only [Outcome.stored, ne_eq, not_true_eq_false, false_iff]
    rintro ⟨x, g1, g2, g3, g4⟩
    by_cases hx : x = -2147483648
    · subst hx
      rw [h2.2 ⟨g1, g2⟩] at hp; cases hp
    · rw [(h1 x).2 ⟨g1, g2, by omega, by omega⟩] at hp; cases hp

theorem store_int64 (lanes : Nat) (isFloat : Bytes → Bool) (v : Bytes) : storeText lanes isFloat .int64 v ≠ .null ↔ IntText 20 9223372036854775808 v := by
  simp only [storeText]
  obtain ⟨h1, h2⟩ := C20_parse_int64 lanes v
  unfold IntText
  cases hp : parseInt64Simd lanes v with
  | ok x =>
    obtain ⟨g1, g2, g3, g4⟩ := (h1 x).1 hp
    simp only [Outcome.stored, ne_eq, reduceCtorEq, not_false_eq_true, true_iff]
    exact ⟨x, g1, g2, by omega, by omega⟩
  | ub =>
    obtain ⟨g1, g2⟩ := h2.1 hp
    simp only [Outcome.stored, ne_eq, reduceCtorEq, not_false_eq_true, true_iff]
    exact ⟨_, g1, g2, by omega, by omega⟩
  | reject =>
    simp only [Outcome.stored, ne_eq, not_true_eq_false, false_iff]
    rintro ⟨x, g1, g2, g3, g4⟩
    by_cases hx : x = -9223372036854775808
    · subst hx
      rw [h2.2 ⟨g1, g2⟩] at hp; cases hp
    · rw [(h1 x).2 ⟨g1, g2, by omega, by omega⟩] at hp; cases hp

theorem store_date (lanes : Nat) (isFloat : Bytes → Bool) (v : Bytes) : storeText lanes isFloat .date v ≠ .null ↔ CalendarText v := by
  simp only [storeText]
  unfold CalendarText
  rw [← C21_accepts_iff]
  split
  · next h => subst h; simp [parseDate]
  · cases hp : parseDate v <;> simp

theorem store_timestamp (lanes : Nat) (isFloat : Bytes → Bool) (v : Bytes) :
    storeText lanes isFloat .timestamp v ≠ .null ↔ ∃ t sep micros off, StampText v t sep micros off := by
  have key : (∃ x, parseTimestamp v = some x) ↔ ∃ t sep micros off, StampText v t sep micros off := by
    constructor
    · rintro ⟨x, h⟩
      obtain ⟨t, sep, micros, off, days, h1, -, -⟩ := (C22_exact v x).1 h
      exact ⟨t, sep, micros, off, h1⟩
    · rintro ⟨t, sep, micros, off, h⟩
      obtain ⟨days, hd⟩ : ∃ days, parseDate (t.text sep) = some days := by
        cases h with
        | mk _ _ tee hh mm ss f m z _ h1 h2 h3 => exact (C21_accepts_iff _).2 ⟨t, sep, h1, h2, h3, rfl⟩
      exact ⟨_, (C22_exact v _).2 ⟨t, sep, micros, off, days, h, hd, rfl⟩⟩
  rw [← key]
  simp only [storeText]
  split
  · next h => subst h; simp [parseTimestamp]
  · cases hp : parseTimestamp v <;> simp

theorem inferField_cases (cfg : InferCfg) (v : Bytes) :
    inferField cfg v = .na ∨ inferField cfg v = .bool ∨ inferField cfg v = .int32 ∨ inferField cfg v = .int64 ∨ inferField cfg v = .float64 ∨
      inferField cfg v = .date ∨ inferField cfg v = .timestamp ∨ inferField cfg v = .string := by
  unfold inferField
  split
  · simp
  split
  · simp
  split
  · simp
  split
  · simp
  split
  · next t hi =>
    obtain ⟨_, _, ht, _⟩ := inferInt_lit v t hi
    rcases ht with h | h <;> simp [h]
  · split
    · simp
    split
    · simp
    split <;> simp

theorem date_text_length (t : Date) (sep : UInt8) : (t.text sep).length = 10 := rfl

/-- **C17**, exactly: whatever the option lists and the other values of the sample, a sampled value that is not null-like is kept by its column (whose type is inferred from the whole sample)
**exactly when** `Kept` says so for the type it suggests itself and the type of the column. -/
theorem C17_exact (cfg : InferCfg) (lanes : Nat) (vs : List (List UInt8)) (v : List UInt8) (hv : v ∈ vs) (hna : inferField cfg v ≠ .na) :
    storeText lanes cfg.isFloat ((vs.map (inferField cfg)).foldl widerType .unknown) v ≠ .null ↔
      Kept cfg.isFloat (trueTexts ++ falseTexts) v (inferField cfg v) ((vs.map (inferField cfg)).foldl widerType .unknown) := by
  have hnu : ∀ w, inferField cfg w ≠ .unknown := by
    intro w h
    rcases inferField_cases cfg w with g | g | g | g | g | g | g | g <;> rw [h] at g <;> cases g
  have hj := C16_fold_is_join (vs.map (inferField cfg)) (by intro hn; rw [List.map_eq_nil_iff] at hn; subst hn; simp at hv) (by
    intro t ht
    rw [List.mem_map] at ht
    obtain ⟨w, hw, rfl⟩ := ht
    exact hnu w)
  generalize (vs.map (inferField cfg)).foldl widerType .unknown = T at hj ⊢
  have hlow : Below (inferField cfg v) T := hj.1 _ (List.mem_map_of_mem hv)
  rw [below_iff] at hlow
  have hfloat : ∀ f : Bytes → Bool, storeText lanes f .float64 v ≠ .null ↔ f v = true := by
    intro f
    simp only [storeText]
    split <;> simp_all
  have hstr : ∀ f : Bytes → Bool, storeText lanes f .string v ≠ .null := by intro f; simp [storeText]
  rcases inferField_cases cfg v with h | h | h | h | h | h | h | h
  · exact absurd h hna
  · -- bool
    rw [h] at hlow ⊢
    have hT : T = .bool ∨ T = .int32 ∨ T = .int64 ∨ T = .float64 ∨ T = .string := by revert hlow; cases T <;> decide
    rcases hT with rfl | rfl | rfl | rfl | rfl
    · simp only [Kept, List.mem_append]
      obtain ⟨-, -, h3⟩ := C17_bool_texts lanes cfg.isFloat v
      rw [ne_eq, h3]
      tauto
    · exact store_int32 lanes cfg.isFloat v
    · exact store_int64 lanes cfg.isFloat v
    · exact hfloat _
    · simpa [Kept] using hstr _
  · -- int32
    obtain ⟨x, -, h2, h3⟩ := C17_int32 cfg lanes v h
    rw [h] at hlow ⊢
    have hT : T = .int32 ∨ T = .int64 ∨ T = .float64 ∨ T = .string := by revert hlow; cases T <;> decide
    rcases hT with rfl | rfl | rfl | rfl
    · simp [Kept, h2]
    · simp [Kept, h3]
    · exact hfloat _
    · simpa [Kept] using hstr _
  · -- int64
    obtain ⟨x, hx, -, -⟩ := inferInt_lit v .int64 (inferField_int cfg v _ (Or.inr rfl) h)
    rw [h] at hlow ⊢
    have hT : T = .int64 ∨ T = .float64 ∨ T = .string := by revert hlow; cases T <;> decide
    rcases hT with rfl | rfl | rfl
    · rw [store_int64]
      simp only [Kept, IntText]
      constructor
      · rintro ⟨y, g1, g2, g3, g4⟩
        refine ⟨g2, fun z hz => ?_⟩
        have : z = y := by
          rw [intLit_iff] at hz g1
          obtain ⟨n1, d1, e1, -, rfl⟩ := hz
          obtain ⟨n2, d2, e2, -, rfl⟩ := g1
          rw [e1, Option.some.injEq, Prod.mk.injEq] at e2
          rw [e2.1, e2.2]
        subst this
        exact ⟨by omega, by omega⟩
      · rintro ⟨g1, g2⟩
        obtain ⟨e1, e2⟩ := g2 x hx
        exact ⟨x, hx, g1, by omega, by omega⟩
    · exact hfloat _
    · simpa [Kept] using hstr _
  · -- float64
    rw [h] at hlow ⊢
    have hT : T = .float64 ∨ T = .string := by revert hlow; cases T <;> decide
    rcases hT with rfl | rfl
    · exact hfloat _
    · simpa [Kept] using hstr _
  · -- date
    have hs := inferField_date cfg v h
    rw [h] at hlow ⊢
    have hT : T = .date ∨ T = .timestamp ∨ T = .string := by revert hlow; cases T <;> decide
    rcases hT with rfl | rfl | rfl
    · exact store_date lanes cfg.isFloat v
    · rw [store_timestamp]
      simp only [Kept, iff_false]
      rintro ⟨t, sep, micros, off, hst⟩
      have hlen : v.length = 10 := by
        unfold dateShape at hs
        split at hs
        · rfl
        · simp at hs
      cases hst with
      | mk => simp [Date.text, show4, show2] at hlen
    · simpa [Kept] using hstr _
  · -- timestamp
    rw [h] at hlow ⊢
    have hT : T = .timestamp ∨ T = .string := by revert hlow; cases T <;> decide
    rcases hT with rfl | rfl
    · exact store_timestamp lanes cfg.isFloat v
    · simpa [Kept] using hstr _
  · rw [h] at hlow ⊢
    have hT : T = .string := by revert hlow; cases T <;> decide
    subst hT
    simpa [Kept] using hstr _

/-- **C17** With the default options a truth value in a column of integers is always lost, whatever the rest of the sample. -/
theorem C17_bool_among_ints_lost (isFloat : List UInt8 → Bool) (lanes : Nat) (vs : List (List UInt8)) (v : List UInt8) (hv : v ∈ vs)
    (hb : inferField (defaultInfer isFloat) v = .bool)
    (hT : (vs.map (inferField (defaultInfer isFloat))).foldl widerType .unknown = .int32 ∨ (vs.map (inferField (defaultInfer isFloat))).foldl widerType .unknown = .int64) :
    storeText lanes isFloat ((vs.map (inferField (defaultInfer isFloat))).foldl widerType .unknown) v = .null := by
  have hex := C17_exact (defaultInfer isFloat) lanes vs v hv (by rw [hb]; simp)
  obtain ⟨-, hm⟩ := inferField_bool _ v hb
  have hno : ∀ x, ¬ IntLit v x := by
    intro x hx
    rw [intLit_iff] at hx
    obtain ⟨neg, ds, e1, e2, -⟩ := hx
    have hlist : v ∈ ["true", "TRUE", "True", "yes", "YES", "Yes", "false", "FALSE", "False", "no", "NO", "No"].map (fun s : String => s.toUTF8.toList) := by
      have e : commaPieces (defaultInfer isFloat).trueValues ++ commaPieces (defaultInfer isFloat).falseValues =
          ["true", "TRUE", "True", "yes", "YES", "Yes", "false", "FALSE", "False", "no", "NO", "No"].map (fun s : String => s.toUTF8.toList) := by
        show commaPieces "true,TRUE,True,yes,YES,Yes".toUTF8.toList ++ commaPieces "false,FALSE,False,no,NO,No".toUTF8.toList = _
        decide +kernel
      rw [← e]
      exact List.mem_append.2 hm
    have hall : ∀ w ∈ ["true", "TRUE", "True", "yes", "YES", "Yes", "false", "FALSE", "False", "no", "NO", "No"].map (fun s : String => s.toUTF8.toList),
        ∀ p, takeSign w = some p → p.2.all isDigitB = false := by decide +kernel
    have := hall v hlist _ e1
    have hd : ds.all isDigitB = true := by
      rw [List.all_eq_true]
      exact fun d hd => (isDigitB_iff d).2 (e2 d hd)
    rw [hd] at this
    cases this
  by_contra hne
  have hk := hex.1 hne
  rw [hb] at hk
  rcases hT with h | h <;> rw [h] at hk
  · obtain ⟨x, hx, -⟩ := hk
    exact hno x hx
  · obtain ⟨x, hx, -⟩ := hk
    exact hno x hx

/-- **C17** A date in a column of timestamps is always lost, whatever the options and the rest of the sample. -/
theorem C17_date_among_timestamps_lost (cfg : InferCfg) (lanes : Nat) (vs : List (List UInt8)) (v : List UInt8) (hv : v ∈ vs) (hd : inferField cfg v = .date)
    (hT : (vs.map (inferField cfg)).foldl widerType .unknown = .timestamp) :
    storeText lanes cfg.isFloat ((vs.map (inferField cfg)).foldl widerType .unknown) v = .null := by
  have hex := C17_exact cfg lanes vs v hv (by rw [hd]; simp)
  by_contra hne
  have hk := hex.1 hne
  rw [hd, hT] at hk
  exact hk

/-- **C17** If the number parser refuses a leading plus sign (as `fast_float` does by default), the integer `+5` in a column of floating-point numbers is lost. -/
theorem C17_plus_among_floats_lost (cfg : InferCfg) (lanes : Nat) (vs : List (List UInt8)) (v : List UInt8) (hv : v ∈ vs) (hplus : cfg.isFloat v = false)
    (hi : inferField cfg v = .int32 ∨ inferField cfg v = .int64) (hT : (vs.map (inferField cfg)).foldl widerType .unknown = .float64) :
    storeText lanes cfg.isFloat ((vs.map (inferField cfg)).foldl widerType .unknown) v = .null := by
  have hex := C17_exact cfg lanes vs v hv (by rcases hi with h | h <;> rw [h] <;> simp)
  by_contra hne
  have hk := hex.1 hne
  rw [hT] at hk
  rcases hi with h | h <;> rw [h] at hk <;> simp [Kept, hplus] at hk

/-- The samples exist: "+5" with "1.5", a date with a timestamp, "true" with "5". -/
example : let cfg := defaultInfer (fun w => w == "1.5".toUTF8.toList)
    inferField cfg "+5".toUTF8.toList = .int32 ∧ (["+5".toUTF8.toList, "1.5".toUTF8.toList].map (inferField cfg)).foldl widerType .unknown = .float64 ∧
    inferField cfg "2024-01-02".toUTF8.toList = .date ∧
    (["2024-01-02".toUTF8.toList, "2024-01-02T03:04:05".toUTF8.toList].map (inferField cfg)).foldl widerType .unknown = .timestamp ∧
    inferField cfg "true".toUTF8.toList = .bool ∧ (["true".toUTF8.toList, "5".toUTF8.toList].map (inferField cfg)).foldl widerType .unknown = .int32 := by
  decide +kernel

end Vroom
