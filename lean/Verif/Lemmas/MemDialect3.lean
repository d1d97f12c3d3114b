import Verif.Lemmas.DialectComments
import Verif.Lemmas.MemDialect2
/-
The checked loads of `Model/MemDialect` against the byte lists of the other models: cells, line ends, comments.
-/
namespace Vroom.Mem
open Vroom

theorem inferGo_eq : ∀ (fuel : Nat) (v : Bytes), inferGoM fuel v = some (inferGo fuel v) := by
  intro fuel
  induction fuel with
  | zero =>
    intro v
    rw [inferGoM, inferGo, trimView_eq, Option.bind_some]
    dsimp only
    generalize trimBy isSpaceLocale v = cell
    by_cases he : cell.isEmpty = true
    · rw [if_pos he, if_pos he]
    · have hne : cell ≠ [] := fun h => he (by rw [h]; rfl)
      rw [if_neg he, if_neg he, intScan_eq hne, floatScan_eq hne, dateScan_eq, timeScan_eq]
      simp only [Option.bind_some]
      split_ifs <;> rfl
  | succ fuel ih =>
    intro v
    rw [inferGoM, inferGo, trimView_eq, Option.bind_some]
    dsimp only
    generalize trimBy isSpaceLocale v = cell
    by_cases he : cell.isEmpty = true
    · rw [if_pos he, if_pos he]
    · have hne : cell ≠ [] := fun h => he (by rw [h]; rfl)
      rw [if_neg he, if_neg he, intScan_eq hne, floatScan_eq hne, dateScan_eq, timeScan_eq]
      simp only [Option.bind_some, ih]
      by_cases c1 : boolScan cell = true
      · rw [if_pos c1, if_pos c1]
      rw [if_neg c1, if_neg c1]
      by_cases c2 : intScan cell = true
      · rw [if_pos c2, if_pos c2]
      rw [if_neg c2, if_neg c2]
      by_cases c3 : floatScan cell = true
      · rw [if_pos c3, if_pos c3]
      rw [if_neg c3, if_neg c3]
      by_cases c4 : dateScan cell = true
      · rw [if_pos c4, if_pos c4]
      rw [if_neg c4, if_neg c4]
      by_cases c5 : timeScan cell = true
      · rw [if_pos c5, if_pos c5]
      rw [if_neg c5, if_neg c5]
      by_cases c6 : cell.length ≥ 16
      · rw [if_pos c6, if_pos c6]
        cases sepPos cell with
        | none => rfl
        | some p =>
          dsimp only
          by_cases c7 : p ≥ 8
          · rw [if_pos c7, if_pos c7]
            generalize inferGo fuel (cell.take p) = a
            generalize dropZone (cell.drop (p + 1)) = z
            generalize inferGo fuel z = b
            by_cases ha : a = .DATE
            · rw [if_pos ha]
              subst ha
              rw [Option.map_some]
              congr 1
              by_cases hb : b = .TIME ∨ z.length ≥ 5
              · rw [if_pos hb, if_pos (by rcases hb with hb | hb <;> simp [hb])]
              · rw [if_neg hb, if_neg (by simpa using hb)]
            · rw [if_neg ha, if_neg (by simp [ha])]
          · rw [if_neg c7, if_neg c7]
      · rw [if_neg c6, if_neg c6]

theorem inferCellType_eq (v : Bytes) : inferCellTypeM v = some (inferCellType v) := inferGo_eq _ v

theorem isEmpty_of_length {v : Bytes} (h : v.length = 0) : v = [] := List.length_eq_zero_iff.1 h

theorem couldBeInteger_eq (v : Bytes) : couldBeIntegerM v = some (couldBeInteger v) := by
  unfold couldBeIntegerM couldBeInteger
  by_cases h0 : v.length = 0
  · rw [isEmpty_of_length h0]; rfl
  · rw [if_neg h0, trimView_eq, Option.bind_some]
    dsimp only
    generalize trimBy isBlankC v = t
    by_cases he : t.isEmpty = true
    · rw [if_pos he, he]; rfl
    · have hne : t ≠ [] := fun h => he (by rw [h]; rfl)
      rw [if_neg he, intScan_eq hne]
      simp [he]

theorem lowerChain_eq (t : Bytes) : ∀ (l : List UInt8) (off : Nat), off + l.length ≤ t.length →
    chainM t (lowerChain off l) = some (decide (((t.drop off).take l.length).map lowerC = l)) := by
  intro l
  induction l with
  | nil => intro off _; simp [lowerChain, chainM]
  | cons x l ih =>
    intro off h
    rw [List.length_cons] at h
    have hlt : off < t.length := by omega
    have hc : lowerChain off (x :: l) = (off, fun c => lowerC c == x) :: lowerChain (off + 1) l := by
      unfold lowerChain
      rw [List.mapIdx_cons]
      congr 1
      congr 1
      funext k y
      rw [show off + (k + 1) = off + 1 + k by omega]
    rw [hc, chainM, ld, List.getElem?_eq_getElem hlt, Option.bind_some, ih (off + 1) (by omega), List.length_cons, List.drop_eq_getElem_cons hlt, List.take_succ_cons, List.map_cons]
    by_cases hx : lowerC t[off] = x
    · simp [hx]
    · simp [hx]

theorem special_eq {t : Bytes} (h : t ≠ []) : specialM t = some (specialScan t) := by
  obtain ⟨s, s1, s2, s3⟩ := sign_eq h
  unfold specialM specialScan
  rw [s2]
  by_cases h3 : t.length ≥ 3
  · rw [if_pos h3, decide_eq_true h3, Bool.true_and]
    have hnan : (if t.length = 3 then chainM t (lowerChain 0 [110, 97, 110]) else some false) = some (t.map lowerC == [110, 97, 110]) := by
      by_cases he : t.length = 3
      · rw [if_pos he, lowerChain_eq t _ 0 (by simp; omega), List.drop_zero]
        congr 1
        have : t.take ([110, 97, 110] : List UInt8).length = t := List.take_of_length_le (by simp; omega)
        rw [this, Bool.eq_iff_iff]; simp
      · rw [if_neg he]
        congr 1
        rw [eq_comm, beq_eq_false_iff_ne]
        intro hc
        have := congrArg List.length hc
        simp at this
        omega
    rw [hnan, Option.bind_some]
    dsimp only
    by_cases hn : (t.map lowerC == [110, 97, 110]) = true
    · rw [if_pos hn, hn]; rfl
    · rw [if_neg hn, s1, Option.bind_some]
      rw [Bool.not_eq_true] at hn
      rw [hn, Bool.false_or]
      have hul : ((t.drop s).map lowerC).length = t.length - s := by simp
      have hinf : ∀ l : List UInt8, t.length - s ≠ l.length → ((t.drop s).map lowerC == l) = false := by
        intro l hl
        rw [beq_eq_false_iff_ne]
        intro hc
        rw [hc] at hul
        omega
      by_cases hs : t.length - s ≥ 3
      · rw [if_pos hs, lowerChain_eq t _ s (by simp; omega), Option.bind_some]
        have hmt : (((t.drop s).take ([105, 110, 102] : List UInt8).length).map lowerC) = ((t.drop s).map lowerC).take 3 := by rw [List.map_take]; rfl
        rw [hmt]
        by_cases hi : ((t.drop s).map lowerC).take 3 = [105, 110, 102]
        · rw [decide_eq_true hi, if_pos rfl]
          by_cases e3 : t.length - s = 3
          · rw [if_pos e3]
            rw [List.take_of_length_le (by omega)] at hi
            rw [hi]; rfl
          · rw [if_neg e3, hinf [105, 110, 102] (by simpa using e3), Bool.false_or]
            by_cases e8 : t.length - s = 8
            · rw [if_pos e8, lowerChain_eq t _ (s + 3) (by simp; omega)]
              congr 1
              have hm2 : (((t.drop (s + 3)).take ([105, 110, 105, 116, 121] : List UInt8).length).map lowerC) = ((t.drop s).map lowerC).drop 3 := by
                rw [← List.drop_drop, List.map_take, List.map_drop (i := 3)]
                apply List.take_of_length_le
                simp; omega
              rw [hm2, Bool.eq_iff_iff, decide_eq_true_eq, beq_iff_eq]
              generalize (t.drop s).map lowerC = u at hi
              constructor
              · intro hd
                rw [← List.take_append_drop 3 u, hi, hd]; rfl
              · intro hd
                rw [hd]; rfl
            · rw [if_neg e8, hinf [105, 110, 102, 105, 110, 105, 116, 121] (by simpa using e8)]
        · rw [decide_eq_false hi]
          simp only [Bool.false_eq_true, if_false]
          congr 1
          rw [eq_comm, Bool.or_eq_false_iff, beq_eq_false_iff_ne, beq_eq_false_iff_ne]
          constructor
          · intro hc; rw [hc] at hi; exact hi rfl
          · intro hc; rw [hc] at hi; exact hi rfl
      · rw [if_neg hs, hinf _ (by simp; omega), hinf _ (by simp; omega)]; rfl
  · rw [if_neg h3, decide_eq_false h3]; rfl

theorem couldBeFloat_eq (v : Bytes) : couldBeFloatM v = some (couldBeFloat v) := by
  unfold couldBeFloatM couldBeFloat
  by_cases h0 : v.length = 0
  · rw [isEmpty_of_length h0]; rfl
  · rw [if_neg h0, trimView_eq, Option.bind_some]
    dsimp only
    generalize trimBy isBlankC v = t
    by_cases he : t.isEmpty = true
    · rw [if_pos he, he]; rfl
    · have hne : t ≠ [] := fun h => he (by rw [h]; rfl)
      rw [if_neg he, special_eq hne, floatScan_eq hne, Option.bind_some]
      simp only [he, Bool.not_false, Bool.true_and]
      cases specialScan t <;> rfl

theorem lineEndingGo_eq {p : Bytes} {len : Nat} (hs : len ≤ p.length) : ∀ (n : Nat) (s : Bool × Bool × Bool) (i : Nat), len - i ≤ n →
    lineEndingGoM p len s i = some (lineEndingLoop ((p.take len).drop i) s) := by
  intro n
  induction n with
  | zero =>
    intro s i h
    rw [lineEndingGoM, if_neg (by omega), drop_end (by omega)]
    obtain ⟨a, b, c⟩ := s
    simp only [lineEndingLoop]
  | succ n ih =>
    intro s i h
    obtain ⟨x, y, z⟩ := s
    by_cases hi : i < len
    · obtain ⟨c, e1, e2⟩ := ld_step hs hi
      rw [lineEndingGoM, if_pos hi, e1, Option.bind_some, e2, peek_eq hs]
      by_cases c1 : c = 13
      · subst c1
        rw [if_pos rfl, Option.bind_some]
        by_cases hj : i + 1 < len
        · obtain ⟨d, f1, f2⟩ := ld_step hs hj
          have g1 := fun s => ih s (i + 1) (by omega)
          have g2 := fun s => ih s (i + 2) (by omega)
          rw [f2] at g1 ⊢
          by_cases hd : d = 10
          · subst hd
            simp only [List.head?_cons, decide_true, if_true, lineEndingLoop, g2]
          · have hne : ∀ r, d :: (p.take len).drop (i + 1 + 1) = 10 :: r → False := by
              intro r hr; injection hr with h1 _; exact hd h1
            rw [lineEndingLoop]
            · simp [hd, g1]
            · simpa using hne
        · have g1 := fun s => ih s (i + 1) (by omega)
          rw [drop_end hj] at g1 ⊢
          simp [lineEndingLoop, g1]
      · rw [if_neg c1, lineEndingLoop]
        · have g1 := fun s => ih s (i + 1) (by omega)
          by_cases c2 : c = 10
          · simp [c2, g1]
          · simp [c1, c2, g1]
        · intro r hr; exact absurd hr c1
    · rw [lineEndingGoM, if_neg hi, drop_end hi]
      simp only [lineEndingLoop]

theorem escapePairs_eq (q e : UInt8) {p : Bytes} {len : Nat} (hs : len ≤ p.length) : ∀ (n a b i : Nat), len - i ≤ n →
    escapePairsM q e p len a b i = some ((escapePairs q e ((p.take len).drop i)).1 + a, (escapePairs q e ((p.take len).drop i)).2 + b) := by
  intro n
  induction n with
  | zero =>
    intro a b i h
    rw [escapePairsM, if_neg (by omega), drop_end (by omega)]
    simp [escapePairs]
  | succ n ih =>
    intro a b i h
    by_cases hj : i + 1 < len
    · obtain ⟨c, e1, e2⟩ := ld_step hs (show i < len by omega)
      obtain ⟨d, f1, f2⟩ := ld_step hs hj
      rw [escapePairsM, if_pos hj, e1, Option.bind_some, f1, Option.bind_some, ih _ _ (i + 1) (by omega), e2, f2, escapePairs]
      dsimp only
      congr 2 <;> omega
    · rw [escapePairsM, if_neg hj]
      by_cases hi : i < len
      · obtain ⟨c, e1, e2⟩ := ld_step hs hi
        rw [e2, drop_end hj]
        simp [escapePairs]
      · rw [drop_end hi]
        simp [escapePairs]

theorem skipLine_eq {p : Bytes} {len : Nat} (hs : len ≤ p.length) : ∀ (n i : Nat), len - i ≤ n → skipLineM p len i = some (i + skipLine ((p.take len).drop i)) := by
  intro n
  induction n with
  | zero =>
    intro i h
    rw [skipLineM, if_neg (by omega), drop_end (by omega)]
    simp [skipLine]
  | succ n ih =>
    intro i h
    by_cases hi : i < len
    · obtain ⟨c, e1, e2⟩ := ld_step hs hi
      rw [skipLineM, if_pos hi, e1, Option.bind_some, e2, peek_eq hs]
      by_cases c1 : c = 13
      · subst c1
        rw [if_pos rfl]
        by_cases hj : i + 1 < len
        · obtain ⟨d, f1, f2⟩ := ld_step hs hj
          rw [f2]
          by_cases hd : d = 10
          · subst hd
            simp [skipLine]
          · rw [skipLine]
            · simp [hd]
            · intro r _ h2; injection h2 with h1 _; exact hd h1
        · rw [drop_end hj]
          simp [skipLine]
      · rw [if_neg c1, skipLine]
        · by_cases c2 : c = 10
          · simp [c2]
          · rw [if_neg c2, ih (i + 1) (by omega)]
            simp [c1, c2]; omega
        · intro r hr; exact absurd hr c1
    · rw [skipLineM, if_neg hi, drop_end hi]
      simp [skipLine]

theorem skipLine_le : ∀ l : Bytes, skipLine l ≤ l.length := by
  intro l
  fun_induction skipLine l <;> simp_all

theorem skipLoop_step (chars : List UInt8) (rest : Bytes) (offset : Nat) (cc : UInt8) (lines : Nat) {c : UInt8} {t : Bytes} (hne : ¬ rest = [])
    (hd : rest.drop (blanks rest) = c :: t) (hk : ¬ (!chars.contains c) = true) :
    skipCommentsLoop chars rest offset cc lines = skipCommentsLoop chars (rest.drop (blanks rest + skipLine (c :: t))) (offset + (blanks rest + skipLine (c :: t))) (if cc == 0 then c else cc) (lines + 1) := by
  conv => lhs; rw [skipCommentsLoop]
  rw [if_neg hne]
  dsimp only
  split
  · rename_i heq; rw [hd] at heq; cases heq
  · rename_i c' t' heq
    rw [hd] at heq
    injection heq with hc ht
    subst hc ht
    rw [if_neg hk]

theorem skipComments_eq (chars : List UInt8) {p : Bytes} {len : Nat} (hs : len ≤ p.length) : ∀ (fuel offset : Nat) (cc : UInt8) (lines : Nat), len - offset < fuel → offset ≤ len →
    skipCommentsM chars p len fuel offset cc lines = some (skipCommentsLoop chars ((p.take len).drop offset) offset cc lines) := by
  have hl : (p.take len).length = len := by simp; omega
  intro fuel
  induction fuel with
  | zero => intro offset cc lines h; omega
  | succ fuel ih =>
    intro offset cc lines h hle
    rw [skipCommentsM]
    by_cases ho : offset < len
    · obtain ⟨c0, e1, e2⟩ := ld_step hs ho
      have hne : ¬ (p.take len).drop offset = [] := by rw [e2]; simp
      rw [if_pos ho, blankRun_eq hs _ offset (Nat.le_refl _), Option.bind_some]
      generalize hn : blanks ((p.take len).drop offset) = n
      by_cases hi : offset + n < len
      · obtain ⟨c, f1, f2⟩ := ld_step hs hi
        rw [if_neg (by omega), f1, Option.bind_some]
        have hd : ((p.take len).drop offset).drop n = c :: (p.take len).drop (offset + n + 1) := by rw [List.drop_drop, f2]
        generalize hg : (p.take len).drop (offset + n + 1) = t' at hd f2
        by_cases hk : (!chars.contains c) = true
        · rw [if_pos hk, skipCommentsLoop, if_neg hne]
          dsimp only
          rw [hn]
          split
          · rename_i heq
            rw [hd] at heq; cases heq
          · rename_i c' t'' heq
            rw [hd] at heq
            injection heq with hc ht
            subst hc
            rw [if_pos hk]
        · have hsk := skipLine_pos (c :: t') (by simp)
          have hskl := skipLine_le (c :: t')
          have hlen2 : (c :: t').length = len - (offset + n) := by
            rw [← f2, List.length_drop, hl]
          rw [if_neg hk, skipLine_eq hs _ _ (Nat.le_refl _), Option.bind_some, f2, ih _ _ _ (by omega) (by omega)]
          subst hn
          rw [skipLoop_step chars _ offset cc lines hne hd hk, List.drop_drop]
          rw [Nat.add_assoc]
      · rw [if_pos (by omega)]
        have hd : ((p.take len).drop offset).drop n = [] := by rw [List.drop_drop, drop_end hi]
        rw [skipCommentsLoop, if_neg hne]
        dsimp only
        rw [hn]
        split
        · rfl
        · rename_i heq
          rw [hd] at heq; cases heq
    · rw [if_neg ho, skipCommentsLoop, if_pos (drop_end ho)]

theorem skipCommentsLoop_le (chars : List UInt8) (rest : Bytes) (offset : Nat) (cc : UInt8) (lines : Nat) :
    (skipCommentsLoop chars rest offset cc lines).1 ≤ offset + rest.length := by
  fun_induction skipCommentsLoop chars rest offset cc lines with
  | case1 => simp
  | case2 rest offset cc lines h n hd =>
    have : (rest.takeWhile (fun c => c == 32 || c == 9)).length ≤ rest.length := takeWhile_le _ _
    dsimp only
    have hn : n ≤ rest.length := this
    omega
  | case3 => dsimp only; omega
  | case4 rest offset cc lines h n c t hd hk k ih =>
    have h1 : (rest.drop n).length = t.length + 1 := by rw [hd]; rfl
    have h2 := skipLine_le (c :: t)
    rw [List.length_drop] at h1 ih
    rw [List.length_cons] at h2
    refine Nat.le_trans ih ?_
    have hk2 : k ≤ n + (t.length + 1) := Nat.add_le_add_left h2 n
    omega

theorem skipCommentLines_eq (o : DetectOptions) {p : Bytes} {len : Nat} (hs : len ≤ p.length) :
    skipCommentLinesM o p len = some (skipCommentLines o (p.take len)) ∧ (skipCommentLines o (p.take len)).1 ≤ len := by
  have hl : (p.take len).length = len := by simp; omega
  unfold skipCommentLinesM skipCommentLines
  have he : ((p.take len).isEmpty || o.commentChars.isEmpty) = true ↔ (len = 0 ∨ o.commentChars.isEmpty = true) := by
    rw [Bool.or_eq_true, List.isEmpty_iff]
    constructor
    · rintro (h | h)
      · left; rw [h] at hl; simpa using hl.symm
      · exact .inr h
    · rintro (h | h)
      · left; rw [h]; rfl
      · exact .inr h
  by_cases h : len = 0 ∨ o.commentChars.isEmpty = true
  · rw [if_pos h, if_pos (he.2 h)]
    exact ⟨rfl, Nat.zero_le _⟩
  · rw [if_neg h, if_neg (fun hc => h (he.1 hc))]
    have := skipComments_eq o.commentChars hs (len + 1) 0 0 0 (by omega) (Nat.zero_le _)
    rw [List.drop_zero] at this
    refine ⟨this, ?_⟩
    have := skipCommentsLoop_le o.commentChars (p.take len) 0 0 0
    omega

theorem firstNewline_eq {p : Bytes} {n : Nat} (hs : n ≤ p.length) : ∀ (k i : Nat), n - i ≤ k →
    firstNewlineM p n i = some ((((p.take n).drop i).findIdx? (· == 10)).map (· + i)) := by
  intro k
  induction k with
  | zero =>
    intro i h
    rw [firstNewlineM, if_neg (by omega), drop_end (by omega)]; rfl
  | succ k ih =>
    intro i h
    by_cases hi : i < n
    · obtain ⟨c, e1, e2⟩ := ld_step hs hi
      rw [firstNewlineM, if_pos hi, e1, Option.bind_some, e2, List.findIdx?_cons]
      by_cases hc : c = 10
      · simp [hc]
      · rw [if_neg hc, ih (i + 1) (by omega)]
        simp only [hc, beq_iff_eq, if_false, Option.map_map]
        congr 2
        funext x
        simp only [Function.comp]; omega
    · rw [firstNewlineM, if_neg hi, drop_end hi]; rfl

theorem sampleLen_eq (o : DetectOptions) {p : Bytes} {len : Nat} (hs : len ≤ p.length) : sampleLenM o p len = some (sampleLen o (p.take len)) := by
  have hl : (p.take len).length = len := by simp; omega
  unfold sampleLenM sampleLen
  rw [firstNewline_eq (by omega) _ 0 (Nat.le_refl _), List.drop_zero, List.take_take, hl, Nat.min_comm o.sampleSize len]
  rw [Option.map_some]
  congr 1
  cases ((p.take (min len o.sampleSize)).findIdx? (· == 10)) <;> rfl

end Vroom.Mem
