import Verif.Props.Determinism
import Verif.Props.RowScan
/-
C92: the number of threads decides nothing but the chunk size, and is clamped away for inputs up to 16 MiB and for
inputs from 64 MiB per thread on.  No condition on the content: also for inputs on which parallel reading is wrong.
-/
namespace Vroom

/-- **C92** (chunk size): two thread counts with the same chunk size for this input convert it alike: the same runs are
possible, with the same reports and the same bytes. -/
theorem C92_threads_chunk (o : FileOpts) (k k' : Nat) (w : ConvWorld) (file : Bytes)
    (hcs : ∀ st, openData o.infer o.sampleRows (ReaderState.new o.mode o.maxErrors) file = (none, st) →
      calculateChunkSize (file.length - st.dataStart) st.schema.length k = calculateChunkSize (file.length - st.dataStart) st.schema.length k')
    (r : ConvResult) (out : Option (List UInt8)) :
    ConvertedFile { o with nThreads := k } w file r out ↔ ConvertedFile { o with nThreads := k' } w file r out := by
  have key : ∀ (k k' : Nat) (_ : ∀ st, openData o.infer o.sampleRows (ReaderState.new o.mode o.maxErrors) file = (none, st) →
      calculateChunkSize (file.length - st.dataStart) st.schema.length k = calculateChunkSize (file.length - st.dataStart) st.schema.length k'),
      ConvertedFile { o with nThreads := k } w file r out → ConvertedFile { o with nThreads := k' } w file r out := by
    intro k k' hcs h
    cases h with
    | unmapped m h => exact .unmapped m h
    | rejected h1 h2 => exact .rejected h1 h2
    | @opened st _ _ h1 h2 h3 =>
      refine .opened h1 h2 ?_
      have : FileOpts.conv { o with nThreads := k } st file = FileOpts.conv { o with nThreads := k' } st file := by
        unfold FileOpts.conv
        dsimp only
        rw [hcs st h2]
        rfl
      rw [← this]
      exact h3
  exact ⟨key k k' hcs, key k' k (fun st h => (hcs st h).symm)⟩

/-- Up to 16 MiB of data the chunk size does not depend on the number of threads, for any number of columns. -/
theorem chunkSize_small (size cols k k' : Nat) (hk : 1 ≤ k) (hk' : 1 ≤ k') (hl : k < 2 ^ 60) (hl' : k' < 2 ^ 60) (hs : size ≤ 2 ^ 24) :
    calculateChunkSize size cols k = calculateChunkSize size cols k' := by
  have key : ∀ k, 1 ≤ k → k < 2 ^ 60 → calculateChunkSize size cols k = calculateChunkSize size cols 1 := by
    intro k h1 h2
    unfold calculateChunkSize
    dsimp only
    generalize allocationBudget / max cols 1 = M
    rw [Nat.mod_eq_of_lt (show k * 16 < 2 ^ 64 by omega), show 1 * 16 % 2 ^ 64 = 16 by decide]
    by_cases hM : M ≤ 16
    · rw [Nat.min_eq_right (show M ≤ k * 16 by omega), Nat.min_eq_right hM]
    · have hdiv : ∀ p, 16 ≤ p → size / p ≤ minChunkSize := by
        intro p hp
        calc size / p ≤ size / 16 := Nat.div_le_div_left hp (by decide)
          _ ≤ 2 ^ 24 / 16 := Nat.div_le_div_right hs
          _ = minChunkSize := by decide
      have hp : 16 ≤ min (k * 16) M := by omega
      have hp1 : 16 ≤ min 16 M := by omega
      have d1 := hdiv _ hp
      have d2 := hdiv _ hp1
      rw [if_neg (show ¬ min (k * 16) M = 0 by omega), if_neg (show ¬ min 16 M = 0 by omega)]
      have c : ∀ x, x ≤ minChunkSize → (if x < minChunkSize then minChunkSize else x) = minChunkSize := by
        intro x hx; split <;> omega
      rw [c _ d1, c _ d2]
  rw [key k hk hl, key k' hk' hl']

/-- With 64 MiB per thread or more the chunks have their greatest size. -/
theorem chunkSize_large (size cols k : Nat) (hk : 1 ≤ k) (hl : k < 2 ^ 60) (hs : k * 2 ^ 26 ≤ size) :
    calculateChunkSize size cols k = maxChunkSize := by
  unfold calculateChunkSize
  dsimp only
  generalize allocationBudget / max cols 1 = M
  rw [Nat.mod_eq_of_lt (show k * 16 < 2 ^ 64 by omega)]
  generalize hp : (if min (k * 16) M = 0 then 1 else min (k * 16) M) = p
  have hp0 : 0 < p := by rw [← hp]; split <;> omega
  have hple : p ≤ k * 16 := by rw [← hp]; split <;> omega
  have : maxChunkSize ≤ size / p := by
    rw [Nat.le_div_iff_mul_le hp0]
    calc maxChunkSize * p ≤ maxChunkSize * (k * 16) := Nat.mul_le_mul_left _ hple
      _ = k * 2 ^ 26 := by unfold maxChunkSize; omega
      _ ≤ size := hs
  have hmm : minChunkSize ≤ maxChunkSize := by decide
  rw [if_neg (show ¬ size / p < minChunkSize by omega)]
  split <;> omega

/-- **C92** (up to 16 MiB): for inputs of any content the number of threads makes no difference to bytes and reports. -/
theorem C92_threads_16MiB (o : FileOpts) (k k' : Nat) (hk : 1 ≤ k) (hk' : 1 ≤ k') (hl : k < 2 ^ 60) (hl' : k' < 2 ^ 60)
    (w : ConvWorld) (file : Bytes) (hlen : file.length ≤ 2 ^ 24) (r : ConvResult) (out : Option (List UInt8)) :
    ConvertedFile { o with nThreads := k } w file r out ↔ ConvertedFile { o with nThreads := k' } w file r out :=
  C92_threads_chunk o k k' w file (fun _ _ => chunkSize_small _ _ k k' hk hk' hl hl' (by omega)) r out

/-- **C92** (large inputs): with 64 MiB of data per thread or more, for inputs of any content, the number of threads makes no
difference to bytes and reports. -/
theorem C92_threads_large (o : FileOpts) (k k' : Nat) (hk : 1 ≤ k) (hk' : 1 ≤ k') (hl : k < 2 ^ 60) (hl' : k' < 2 ^ 60)
    (w : ConvWorld) (file : Bytes)
    (hlen : ∀ st, openData o.infer o.sampleRows (ReaderState.new o.mode o.maxErrors) file = (none, st) → max k k' * 2 ^ 26 ≤ file.length - st.dataStart)
    (r : ConvResult) (out : Option (List UInt8)) :
    ConvertedFile { o with nThreads := k } w file r out ↔ ConvertedFile { o with nThreads := k' } w file r out :=
  C92_threads_chunk o k k' w file (fun st h => by
    have := hlen st h
    have h1 : k * 2 ^ 26 ≤ max k k' * 2 ^ 26 := Nat.mul_le_mul_right _ (Nat.le_max_left _ _)
    have h2 : k' * 2 ^ 26 ≤ max k k' * 2 ^ 26 := Nat.mul_le_mul_right _ (Nat.le_max_right _ _)
    exact (chunkSize_large _ _ k hk hl (Nat.le_trans h1 this)).trans (chunkSize_large _ _ k' hk' hl' (Nat.le_trans h2 this)).symm) r out

/-- **C92** (any two runs): with inputs of at most 16 MiB, two successful conversions with any numbers of threads, on any CPUs and under
any schedules give the same bytes and report the same. -/
theorem C92_same_bytes_16MiB (o : FileOpts) (cpu : Cpu) (lanes : Nat) (junk : Bool) (k k' : Nat) (hk : 1 ≤ k) (hk' : 1 ≤ k') (hl : k < 2 ^ 60) (hl' : k' < 2 ^ 60)
    {w w' : ConvWorld} (hw : Spoken w) (hw' : Spoken w') (file : Bytes) (hlen : file.length ≤ 2 ^ 24) {r r' : ConvResult} {out out'}
    (h : ConvertedFile { o with nThreads := k } w file r out) (h' : ConvertedFile ({ o with nThreads := k' }.on cpu lanes junk) w' file r' out')
    (hok : r.ok = true) (hok' : r'.ok = true) : out = out' ∧ r = r' :=
  C92_same_bytes { o with nThreads := k' } cpu lanes junk hw hw' file ((C92_threads_16MiB o k k' hk hk' hl hl' w file hlen r out).1 h) h' hok hok'

/-- **C92** (reading): up to 16 MiB of data, of any content, the table read does not depend on the number of threads. -/
theorem C92_read_16MiB (cfg : ReadCfg) (n k k' : Nat) (hk : 1 ≤ k) (hk' : 1 ≤ k') (hl : k < 2 ^ 60) (hl' : k' < 2 ^ 60)
    (file : Bytes) (dataStart : Nat) (hlen : file.length - dataStart ≤ 2 ^ 24) :
    readAll' cfg n k file dataStart = readAll' cfg n k' file dataStart := by
  unfold readAll'
  rw [chunkSize_small _ n k k' hk hk' hl hl' hlen]

/-- Both clamps bite, and in between the thread count shows: 1, 4 and 64 threads cut 16 MiB alike and 4 GiB alike, but not 60 MiB. -/
example : calculateChunkSize (2 ^ 24) 10 1 = calculateChunkSize (2 ^ 24) 10 64 ∧ calculateChunkSize (2 ^ 32) 10 1 = calculateChunkSize (2 ^ 32) 10 64 ∧
    calculateChunkSize (60 * 2 ^ 20) 10 1 ≠ calculateChunkSize (60 * 2 ^ 20) 10 4 := by decide +kernel

end Vroom
