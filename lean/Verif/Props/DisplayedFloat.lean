import Verif.Props.Displayed
import Mathlib.Data.Finset.Card
import Mathlib.Data.Finset.Range
/-
C75 for floating point cells: the stream prints six significant digits, so that different numbers get the same text.
No arithmetic is needed: there are fewer texts than numbers.
-/
namespace Vroom
open Spec

/-- Characters the default floating point output of a C++ stream consists of: digits, `+`, `-`, `.`, `e`, and the letters of `inf` and `nan`. -/
def floatChars : List UInt8 := asc "0123456789+-.einfa"

/-- What the C++ library promises about `oss << double` in its default format (precision 6, as by `%g`): at most thirteen characters
(`-1.23457e-308`), of the kinds above. -/
def ShortFloats (L : Libc) : Prop := ∀ v, (L.fmtDouble v).length ≤ 13 ∧ ∀ c ∈ L.fmtDouble v, c ∈ floatChars

/-- A text as a number in base 20, with digits from 1 on. -/
def textCode : Bytes → Nat
  | [] => 0
  | c :: t => floatChars.idxOf c + 1 + 20 * textCode t

theorem textCode_lt (l : Bytes) (k : Nat) (hl : l.length ≤ k) (hc : ∀ c ∈ l, c ∈ floatChars) : textCode l < 20 ^ k := by
  induction l generalizing k with
  | nil => exact Nat.pow_pos (by decide)
  | cons c t ih =>
    obtain ⟨k, rfl⟩ : ∃ j, k = j + 1 := ⟨k - 1, by rw [List.length_cons] at hl; omega⟩
    have h1 := ih k (by simpa using hl) (fun x hx => hc x (by simp [hx]))
    have h2 : floatChars.idxOf c < floatChars.length := List.idxOf_lt_length_iff.2 (hc c (by simp))
    have h3 : floatChars.length = 18 := by decide +kernel
    rw [textCode, Nat.pow_succ]
    omega

theorem textCode_inj (l m : Bytes) (hl : ∀ c ∈ l, c ∈ floatChars) (hm : ∀ c ∈ m, c ∈ floatChars) (h : textCode l = textCode m) : l = m := by
  have h3 : floatChars.length = 18 := by decide +kernel
  induction l generalizing m with
  | nil => cases m with
    | nil => rfl
    | cons c t => rw [textCode, textCode] at h; omega
  | cons c t ih => cases m with
    | nil => rw [textCode, textCode] at h; omega
    | cons d u =>
      rw [textCode, textCode] at h
      have hc := List.idxOf_lt_length_iff.2 (hl c (by simp))
      have hd := List.idxOf_lt_length_iff.2 (hm d (by simp))
      have e1 : floatChars.idxOf c = floatChars.idxOf d := by omega
      have e2 : textCode t = textCode u := by omega
      rw [ih u (fun x hx => hl x (by simp [hx])) (fun x hx => hm x (by simp [hx])) e2]
      have g1 := List.getElem_idxOf hc
      have g2 := List.getElem_idxOf hd
      rw [← g1, ← g2]
      simp only [e1]

/-- **C75 finding** Different finite non-negative numbers are printed alike: there are `2 ^ 63 - 2 ^ 52` of them, but not that many texts.  So no reader
can get the stored value of a floating point cell back from the printed text. -/
theorem C75_float_refuted (L : Libc) (h : ShortFloats L) :
    ∃ m n, m ≠ n ∧ m < 2 ^ 63 - 2 ^ 52 ∧ n < 2 ^ 63 - 2 ^ 52 ∧ showVal L .float64 (some (.num m)) = showVal L .float64 (some (.num n)) := by
  have hcard : (Finset.range (20 ^ 13)).card < (Finset.range (2 ^ 63 - 2 ^ 52)).card := by
    rw [Finset.card_range, Finset.card_range]; decide +kernel
  obtain ⟨m, hm, n, hn, hne, he⟩ := Finset.exists_ne_map_eq_of_card_lt_of_maps_to hcard
    (f := fun v : Nat => textCode (L.fmtDouble (UInt64.ofNat v)))
    (fun v _ => Finset.mem_coe.2 (Finset.mem_range.2 (textCode_lt _ 13 (h _).1 (h _).2)))
  exact ⟨m, n, hne, Finset.mem_range.1 hm, Finset.mem_range.1 hn, textCode_inj _ _ (h _).2 (h _).2 he⟩

/-- So reading back what `head` and `select` print for numbers fails for every reader. -/
theorem C75_float_reread_refuted (L : Libc) (h : ShortFloats L) :
    ¬ ∃ read : Bytes → Nat, ∀ n, n < 2 ^ 63 - 2 ^ 52 → read (showVal L .float64 (some (.num n))) = n := by
  rintro ⟨read, hr⟩
  obtain ⟨m, n, hne, hm, hn, he⟩ := C75_float_refuted L h
  exact hne (by rw [← hr m hm, he, hr n hn])

/-- The contract can be met: texts of thirteen digits, for example. -/
example : ShortFloats { calendarLibc with fmtDouble := fun v => List.replicate 13 (48 + UInt8.ofNat (v.toNat % 10)) } := by
  intro v
  refine ⟨by simp, ?_⟩
  intro c hc
  have hm : v.toNat % 10 < 10 := Nat.mod_lt _ (by decide)
  rw [List.eq_of_mem_replicate hc]
  generalize v.toNat % 10 = d at hm
  revert hm d
  decide +kernel

end Vroom
