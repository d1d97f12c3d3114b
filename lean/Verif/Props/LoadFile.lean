import Verif.Model.LoadFile
import Verif.Props.AnyInput
/-
C89: loading a file or standard input gives exactly its bytes followed by zeros, or an exception.
-/
namespace Vroom

/-- The allocator gives as many bytes as were asked for. -/
def AllocOk (alloc : Alloc) : Prop := ∀ n mem, alloc n = some mem → mem.length = n

/-- A buffer that holds exactly `content`, followed by `padding` zero bytes: `size()` is the number of bytes of the content. -/
def Holds (content : List UInt8) (padding : Nat) (r : Loaded) : Prop := r = .buffer (content ++ List.replicate padding 0) content.length

theorem allocBuf_ok {alloc : Alloc} (ha : AllocOk alloc) {size padding : Nat} (hp : size + padding < 2 ^ 64) :
    (alloc (size + padding) = none ∧ allocBuf alloc size padding = .throws) ∨
    ∃ front, front.length = size ∧ allocBuf alloc size padding = .buffer (front ++ List.replicate padding 0) size ∧ alloc (size + padding) ≠ none := by
  unfold allocBuf
  rw [Nat.mod_eq_of_lt hp]
  cases hm : alloc (size + padding) with
  | none => exact .inl ⟨rfl, rfl⟩
  | some mem =>
    have hl := ha _ _ hm
    refine .inr ⟨mem.take size, by simp; omega, ?_, by simp⟩
    dsimp only
    by_cases h : padding > 0
    · rw [if_pos h]
      unfold writeAt
      rw [if_pos (by simp; omega)]
      simp only [List.length_replicate]
      rw [List.drop_of_length_le (by omega), List.append_nil]
    · rw [if_neg h]
      have : padding = 0 := by omega
      subst this
      rw [List.take_of_length_le (by omega)]
      simp

theorem writeAt_front (front pad src : List UInt8) (h : src.length = front.length) : writeAt (front ++ pad) 0 src = some (src ++ pad) := by
  unfold writeAt
  rw [if_pos (by simp; omega)]
  simp [h]

/-- **C89** (files): loading ends with an exception or with a buffer holding exactly the first bytes of the file, as many as the file's reported size; memory is never
written outside the allocation. -/
theorem C89_load {alloc : Alloc} (ha : AllocOk alloc) (f : FileDev) (padding : Nat) (hp : ∀ n, f.size = some n → n + padding < 2 ^ 64) :
    loadFile alloc f padding = .throws ∨
    ∃ n, f.size = some n ∧ n ≤ f.bytes.length ∧ Holds (f.bytes.take n) padding (loadFile alloc f padding) := by
  unfold loadFile
  split
  · exact .inl rfl
  · split
    · exact .inl rfl
    · next n hn =>
      rcases allocBuf_ok ha (hp n hn) with ⟨-, e⟩ | ⟨front, hf, e, -⟩
      · rw [e]; exact .inl rfl
      · rw [e]
        dsimp only
        by_cases h0 : n > 0
        · rw [if_pos h0]
          by_cases hs : f.bytes.length < n
          · rw [if_pos hs]; exact .inl rfl
          · rw [if_neg hs, writeAt_front _ _ _ (by simp; omega)]
            refine .inr ⟨n, hn, by omega, ?_⟩
            unfold Holds
            rw [List.length_take, Nat.min_eq_left (by omega)]
        · have : n = 0 := by omega
          subst this
          rw [if_neg h0]
          refine .inr ⟨0, hn, by omega, ?_⟩
          have : front = [] := List.length_eq_zero_iff.1 hf
          subst this
          rfl

/-- **C89** (files, positively): a file that can be opened, whose reported size is the number of its bytes, is loaded whole if memory can be had. -/
theorem C89_load_whole {alloc : Alloc} (ha : AllocOk alloc) (f : FileDev) (padding : Nat) (ho : f.opens = true) (hs : f.size = some f.bytes.length)
    (hp : f.bytes.length + padding < 2 ^ 64) (hm : alloc (f.bytes.length + padding) ≠ none) : Holds f.bytes padding (loadFile alloc f padding) := by
  rcases C89_load ha f padding (by intro n hn; rw [hs] at hn; cases hn; exact hp) with h | ⟨n, hn, -, h⟩
  · exfalso
    rcases allocBuf_ok ha hp with ⟨e, -⟩ | ⟨front, hf, e, -⟩
    · exact hm e
    · unfold loadFile at h
      rw [if_neg (by simp [ho]), hs] at h
      dsimp only at h
      rw [e] at h
      dsimp only at h
      rw [if_neg (by omega : ¬ f.bytes.length < f.bytes.length)] at h
      split at h
      · rw [List.take_of_length_le (Nat.le_refl _), writeAt_front _ _ _ hf.symm] at h
        cases h
      · cases h
  · rw [hs] at hn
    cases hn
    rwa [List.take_of_length_le (Nat.le_refl _)] at h

/-- **C89** (files): if fewer bytes can be read than the file promises — it was truncated in between, or reading fails — there is an exception. -/
theorem C89_load_short {alloc : Alloc} (ha : AllocOk alloc) (f : FileDev) (padding n : Nat) (hs : f.size = some n) (hn : f.bytes.length < n)
    (hp : n + padding < 2 ^ 64) : loadFile alloc f padding = .throws := by
  rcases C89_load ha f padding (by intro k hk; rw [hs] at hk; cases hk; exact hp) with h | ⟨k, hk, hl, -⟩
  · exact h
  · rw [hs] at hk; cases hk; omega

/-- **C89** (standard input): the bytes delivered before the end are loaded exactly, or there is an exception (no memory). -/
theorem C89_stdin {alloc : Alloc} (ha : AllocOk alloc) (d : Dev) (padding : Nat) (hp : d.bytes.length + padding < 2 ^ 64) :
    (alloc (d.bytes.length + padding) = none ∧ readStdin alloc d padding = .throws) ∨
    (alloc (d.bytes.length + padding) ≠ none ∧ Holds d.bytes padding (readStdin alloc d padding)) := by
  unfold readStdin Cin.drain
  dsimp only
  rw [if_neg (by simp)]
  rcases allocBuf_ok ha hp with ⟨h, e⟩ | ⟨front, hf, e, h⟩
  · rw [e]; exact .inl ⟨h, rfl⟩
  · rw [e]
    dsimp only
    rw [writeAt_front _ _ _ hf.symm]
    exact .inr ⟨h, rfl⟩

/-- An allocator for the examples. -/
def allocAny : Alloc := fun n => some (List.replicate n 170)

theorem allocAny_ok : AllocOk allocAny := by intro n mem h; cases h; simp

/-- The documented contract ("Reads the complete contents … throws if reading fails"): whatever the stream does, the buffer is not returned with less than all of it. -/
def StdinReported : Prop := ∀ (alloc : Alloc) (d : Dev) (padding : Nat), AllocOk alloc → d.broken = true → readStdin alloc d padding = .throws

/-- **C89** refuted for standard input: an error while reading is taken for the end of the input. -/
theorem C89_stdin_error_refuted : ¬ StdinReported := by
  intro h
  exact absurd (h allocAny ⟨[97, 10], true⟩ 4 allocAny_ok rfl) (by decide +kernel)

/-- … for the program: standard input that breaks off gives the same exit code and output as one that ends there. -/
theorem C89_program_truncated {alloc : Alloc} (ha : AllocOk alloc) (m : Machine) (d : Dev) (files : Files) (args : List (List UInt8))
    (hp : d.bytes.length + 64 < 2 ^ 64) (hm : alloc (d.bytes.length + 64) ≠ none) :
    vroomDev m alloc d files args = vroom m d.bytes files args := by
  unfold vroomDev
  rcases C89_stdin ha d 64 hp with ⟨h, -⟩ | ⟨-, h⟩
  · exact absurd h hm
  · rw [h]
    dsimp only
    rw [List.take_left]

/-- A directory as standard input (`vroom count < dir`: reading fails at once): `0`, exit code 0. -/
theorem C89_directory_counts : vroomDev anyMachine allocAny ⟨[], true⟩ (fun _ => .unreadable []) [asc "count"] = some (.exit 0 [48, 10]) := by
  decide +kernel

/-- A file's content is delivered whole (as far as it can be read). -/
def LoadComplete : Prop := ∀ (alloc : Alloc) (f : FileDev) (padding : Nat), AllocOk alloc → f.opens = true →
  ∀ mem n, loadFile alloc f padding = .buffer mem n → mem.take n = f.bytes

/-- **C89** refuted for files that report no size although they have content (`/proc`, `/sys`): an empty buffer, no exception. -/
theorem C89_no_size_refuted : ¬ LoadComplete := by
  intro h
  exact absurd (h allocAny { bytes := [97, 10], size := some 0 } 4 allocAny_ok rfl [0, 0, 0, 0] 0 (by decide +kernel)) (by decide)

/-- **C89** refuted for a huge `padding`: whenever `size + padding` does not fit 64 bits and the allocation succeeds, the zeros are written outside it. -/
theorem C89_padding_refuted {alloc : Alloc} (ha : AllocOk alloc) (f : FileDev) (ho : f.opens = true) (n padding : Nat) (hs : f.size = some n)
    (hn : n < 2 ^ 63) (hp : padding < 2 ^ 64) (hw : 2 ^ 64 ≤ n + padding) (hm : alloc (n + padding - 2 ^ 64) ≠ none) : loadFile alloc f padding = .ub := by
  have : allocBuf alloc n padding = .ub := by
    unfold allocBuf
    rw [Nat.mod_eq_sub_mod hw, Nat.mod_eq_of_lt (by omega)]
    cases e : alloc (n + padding - 2 ^ 64) with
    | none => exact absurd e hm
    | some mem =>
      have := ha _ _ e
      dsimp only
      rw [if_pos (by omega), writeAt, if_neg (by rw [List.length_replicate]; omega)]
  unfold loadFile
  rw [if_neg (by simp [ho]), hs]
  dsimp only
  rw [this]

/-- An allocator that answers a request for no bytes with a null pointer (allowed by POSIX): an empty file without padding is an exception. -/
theorem C89_empty_without_padding (alloc : Alloc) (h : alloc 0 = none) : loadFile alloc { bytes := [], size := some 0 } 0 = .throws := by
  simp [loadFile, allocBuf, h]

/-- Non-vacuity: a file of five bytes with the default padding. -/
example : Holds [97, 44, 98, 10, 99] 64 (loadFile allocAny { bytes := [97, 44, 98, 10, 99], size := some 5 } 64) := by
  apply C89_load_whole allocAny_ok <;> decide

/-- … and one that has shrunk. -/
example : loadFile allocAny { bytes := [97, 44], size := some 5 } 64 = .throws := by
  apply C89_load_short (n := 5) allocAny_ok <;> decide

end Vroom
