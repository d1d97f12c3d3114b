import Verif.Model.Unchecked
import Verif.Props.Buffers
/-
C25 and `push_back_unchecked`.
-/
namespace Vroom

/-- **C25 is refuted for `push_back_unchecked`**, for every column and every text, even when the caller has reserved enough room as the comment asks: what is stored is as many zero bytes as the
text is long. -/
theorem C25_unchecked_refuted {c xs} (h : StrHist c xs) (s : List UInt8) (cap : Nat) (hcap : strBytes xs + s.length ≤ cap) (hb : strBytes xs + s.length < 2 ^ 32) :
    ∃ b, c.values.pushUnchecked cap s = some b ∧ b.size = c.values.size + 1 ∧ b.get c.values.size = List.replicate s.length 0 ∧
      (b.get c.values.size = s ↔ ∀ x ∈ s, x = 0) := by
  obtain ⟨h1, h2, -, h4⟩ := C25_offsets h (by omega)
  unfold StringBuffer.pushUnchecked
  dsimp only
  rw [if_neg (by omega)]
  have hsz : c.values.size = xs.length := by simp [StringBuffer.size, h1]
  refine ⟨_, rfl, by simp [StringBuffer.size, h1], ?_⟩
  have hget : (StringBuffer.mk (List.take c.values.data.length (c.values.data ++ s) ++ List.replicate (c.values.data.length + s.length - c.values.data.length) 0)
      (c.values.offsets ++ [UInt32.ofNat (c.values.data.length + s.length)])).get c.values.size = List.replicate s.length 0 := by
    have hlast := h2 xs.length (Nat.le_refl _)
    rw [List.take_length] at hlast
    simp only [StringBuffer.get]
    rw [hsz]
    have e1 : (c.values.offsets ++ [UInt32.ofNat (c.values.data.length + s.length)]).getD xs.length 0 = c.values.offsets.getD xs.length 0 := by
      simp only [List.getD_eq_getElem?_getD]
      rw [List.getElem?_append_left (by omega)]
    have e2 : (c.values.offsets ++ [UInt32.ofNat (c.values.data.length + s.length)]).getD (xs.length + 1) 0 = UInt32.ofNat (c.values.data.length + s.length) := by
      simp only [List.getD_eq_getElem?_getD]
      rw [List.getElem?_append_right (by omega), h1]; simp
    rw [e1, e2, hlast]
    have e3 : (UInt32.ofNat (c.values.data.length + s.length) - c.values.offsets.getD xs.length 0).toNat = s.length := by
      rw [UInt32.toNat_sub_of_le]
      · rw [hlast, h4, UInt32.toNat_ofNat_of_lt' (by simpa using hb)]; omega
      · rw [UInt32.le_iff_toNat_le, hlast, h4, UInt32.toNat_ofNat_of_lt' (by simpa using hb)]; omega
    rw [e3, List.take_left' rfl, List.drop_left' h4]
    rw [show c.values.data.length + s.length - c.values.data.length = s.length by omega, List.take_of_length_le (by simp)]
  refine ⟨hget, ?_⟩
  rw [hget]
  constructor
  · intro e x hx
    rw [← e] at hx
    exact (List.mem_replicate.1 hx).2
  · intro e
    exact (List.eq_replicate_iff.2 ⟨rfl, e⟩).symm

/-- Without the room reserved, the call writes behind the allocation. -/
theorem C25_unchecked_overrun (b : StringBuffer) (s : List UInt8) (cap : Nat) (h : cap < b.data.length + s.length) : b.pushUnchecked cap s = none := by
  unfold StringBuffer.pushUnchecked
  rw [if_pos h]

/-- "ab" after "x": two zero bytes. -/
example : ((({} : StringBuffer).push [120]).pushUnchecked 64 [97, 98]).map (fun b => (b.get 0, b.get 1)) = some ([120], [0, 0]) := by decide

end Vroom
