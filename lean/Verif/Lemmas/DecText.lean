import Verif.Model.Cli
import Verif.Spec.Decimal
/- Decimal texts denote their numbers. -/
namespace Vroom
open Spec

theorem bytes_toList_loop (bs : ByteArray) (i : Nat) (r : List UInt8) : ByteArray.toList.loop bs i r = r.reverse ++ bs.data.toList.drop i := by
  induction hk : bs.size - i generalizing i r with
  | zero =>
    rw [ByteArray.toList.loop, if_neg (by omega), List.drop_eq_nil_of_le (by show bs.data.size ≤ i; have : bs.data.size = bs.size := rfl; omega)]
    simp
  | succ k ih =>
    have hi : i < bs.data.toList.length := by show i < bs.data.size; have : bs.data.size = bs.size := rfl; omega
    rw [ByteArray.toList.loop, if_pos (by omega), ih _ _ (by omega), List.drop_eq_getElem_cons hi]
    have : bs.get! i = bs.data.toList[i] := by
      show bs.data[i]! = _
      rw [getElem!_pos bs.data i hi]
      rfl
    rw [this]
    simp

theorem bytes_toList (bs : ByteArray) : bs.toList = bs.data.toList := by
  unfold ByteArray.toList
  rw [bytes_toList_loop]
  simp

/-- The bytes of an ASCII string. -/
theorem utf8_ascii (l : List Char) (h : ∀ c ∈ l, c.toNat < 128) : (String.ofList l).toUTF8.toList = l.map (fun c => UInt8.ofNat c.toNat) := by
  show (String.ofList l).toByteArray.toList = _
  rw [String.toByteArray_ofList, bytes_toList]
  have hx : ∀ l : List Char, (∀ c ∈ l, c.toNat < 128) → l.utf8Encode = (l.map (fun c => UInt8.ofNat c.toNat)).toByteArray := by
    intro l
    induction l with
    | nil => intro _; rfl
    | cons c l ih =>
      intro h
      have h1 := h c (by simp)
      rw [List.utf8Encode_cons, ih (fun c hc => h c (by simp [hc])), List.utf8Encode_singleton]
      have : String.utf8EncodeChar c = [UInt8.ofNat c.toNat] := by
        have hs : c.utf8Size = 1 := by
          unfold Char.utf8Size
          have : c.val ≤ 0x7f := by
            rw [UInt32.le_iff_toNat_le]
            have : c.val.toNat = c.toNat := rfl
            simp; omega
          simp [this]
        rw [String.utf8EncodeChar_eq_singleton hs]
        rfl
      rw [this, ← List.toByteArray_append]
      rfl
  rw [hx l h, List.toList_data_toByteArray]

theorem digit_char (c : Char) (h : c.isDigit = true) : 48 ≤ c.toNat ∧ c.toNat ≤ 57 := by
  simp only [Char.isDigit, Bool.and_eq_true, decide_eq_true_eq] at h
  obtain ⟨h1, h2⟩ := h
  rw [ge_iff_le, UInt32.le_iff_toNat_le] at h1
  rw [UInt32.le_iff_toNat_le] at h2
  exact ⟨h1, h2⟩

theorem asc_nat (n : Nat) : asc (toString n) = (Nat.toDigits 10 n).map (fun c => UInt8.ofNat c.toNat) := by
  unfold asc
  rw [Nat.toString_eq_ofList_toDigits]
  apply utf8_ascii
  intro c hc
  have := digit_char c (Nat.isDigit_of_mem_toDigits (by omega) (by omega) hc)
  omega

theorem asc_nat_digits (n : Nat) : ∀ b ∈ asc (toString n), IsDigit b := by
  rw [asc_nat]
  intro b hb
  obtain ⟨c, hc, rfl⟩ := List.mem_map.1 hb
  have := digit_char c (Nat.isDigit_of_mem_toDigits (by omega) (by omega) hc)
  unfold IsDigit
  rw [UInt8.toNat_ofNat_of_lt' (by show _ < 256; omega)]
  exact this

theorem asc_nat_ne (n : Nat) : asc (toString n) ≠ [] := by
  rw [asc_nat]
  simp [Nat.toDigits_ne_nil]

theorem asc_nat_value (n : Nat) : decValue (asc (toString n)) = n := by
  rw [asc_nat]
  have h := Nat.ofDigitChars_ten_toDigits (n := n)
  have hd : ∀ c ∈ Nat.toDigits 10 n, c.isDigit = true := fun c hc => Nat.isDigit_of_mem_toDigits (by omega) (by omega) hc
  refine Eq.trans ?_ h
  clear h
  generalize Nat.toDigits 10 n = l at hd
  unfold decValue
  suffices ∀ a, List.foldl (fun a d => a * 10 + (d.toNat - 48)) a (l.map (fun c => UInt8.ofNat c.toNat)) = Nat.ofDigitChars 10 l a from this 0
  induction l with
  | nil => intro a; simp
  | cons c l ih =>
    intro a
    have := digit_char c (hd c (by simp))
    rw [List.map_cons, List.foldl_cons, ih (fun c hc => hd c (by simp [hc])), Nat.ofDigitChars_cons, UInt8.toNat_ofNat_of_lt' (by show _ < 256; omega)]
    congr 1
    have : ('0' : Char).toNat = 48 := rfl
    omega

theorem asc_nat_inj (m n : Nat) (h : asc (toString m) = asc (toString n)) : m = n := by
  rw [← asc_nat_value m, h, asc_nat_value]

theorem decText_negSucc (n : Nat) : decText (Int.negSucc n) = 45 :: asc (toString (n + 1)) := by
  unfold decText asc
  show (("-" ++ toString (n + 1) : String)).toUTF8.toList = _
  rw [bytes_toList, bytes_toList]
  show (("-" ++ toString (n + 1) : String)).toByteArray.data.toList = _
  rw [String.toByteArray_append, ByteArray.data_append, Array.toList_append]
  rfl

/-- The decimal text of an integer denotes it. -/
theorem decText_intLit (i : Int) : IntLit (decText i) i := by
  cases i with
  | ofNat n =>
    have := IntLit.bare (asc (toString n)) (asc_nat_ne n) (asc_nat_digits n)
    rw [asc_nat_value] at this
    exact this
  | negSucc n =>
    rw [decText_negSucc]
    have := IntLit.minus (asc (toString (n + 1))) (asc_nat_ne _) (asc_nat_digits _)
    rw [asc_nat_value] at this
    exact this

end Vroom
