import Verif.Lemmas.SplitLine
/-
C11: splitting a line into fields.
-/
namespace Vroom
open Spec

/-- The specification determines the fields. -/
theorem C11_split_unique {sep q : UInt8} {line : Bytes} {raws raws' : List Bytes} (h : IsSplit sep q line raws)
    (h' : IsSplit sep q line raws') : raws = raws' := by
  have cut1 : ∀ {r r' x : Bytes} (_ : r = r' ++ sep :: x) (_ : ∀ k, r[k]? = some sep → Quoted q r k), r'.count q % 2 ≠ 0 := by
    intro r r' x e hc hev
    have := hc r'.length (by rw [e]; simp)
    unfold Quoted at this
    rw [e, List.take_left' rfl] at this
    omega
  induction raws generalizing line raws' with
  | nil => exact absurd rfl h.ne
  | cons r rs ih =>
    cases raws' with
    | nil => exact absurd rfl h'.ne
    | cons r' rs' =>
      have j := h.join.trans h'.join.symm
      by_cases e1 : rs = [] <;> by_cases e2 : rs' = []
      · subst e1 e2; simpa [joinFields] using j
      · subst e1
        rw [joinFields_cons _ _ _ e2] at j
        exact absurd (h'.closed r' (by rw [List.dropLast_cons_of_ne_nil e2]; simp)) (cut1 j (h.cut r (by simp)))
      · subst e2
        rw [joinFields_cons _ _ _ e1] at j
        exact absurd (h.closed r (by rw [List.dropLast_cons_of_ne_nil e1]; simp)) (cut1 j.symm (h'.cut r' (by simp)))
      · rw [joinFields_cons _ _ _ e1, joinFields_cons _ _ _ e2] at j
        have hr := h.closed r (by rw [List.dropLast_cons_of_ne_nil e1]; simp)
        have hr' := h'.closed r' (by rw [List.dropLast_cons_of_ne_nil e2]; simp)
        have key : ∀ {a b x y : Bytes}, a ++ sep :: x = b ++ sep :: y → a.length < b.length → ∃ z, b = a ++ sep :: z := by
          intro a b x y e hl
          have hp : a ++ [sep] <+: b := by
            apply List.prefix_of_prefix_length_le (l₃ := b ++ sep :: y)
            · rw [← e]; exact ⟨x, by simp⟩
            · exact ⟨_, rfl⟩
            · simp; omega
          obtain ⟨z, hz⟩ := hp
          exact ⟨z, by rw [← hz]; simp⟩
        have hlen : r.length = r'.length := by
          rcases Nat.lt_trichotomy r.length r'.length with hl | hl | hl
          · obtain ⟨z, hz⟩ := key j hl
            exact absurd hr (cut1 hz (h'.cut r' (by simp)))
          · exact hl
          · obtain ⟨z, hz⟩ := key j.symm hl
            exact absurd hr' (cut1 hz (h.cut r (by simp)))
        obtain ⟨er, et⟩ := List.append_inj j hlen
        subst er
        congr 1
        apply ih (line := joinFields sep rs)
        · exact ⟨e1, rfl, fun x hx => h.cut x (List.mem_cons_of_mem _ hx), fun x hx => h.closed x (by
            rw [List.dropLast_cons_of_ne_nil e1]; exact List.mem_cons_of_mem _ hx)⟩
        · exact ⟨e2, ((List.cons.inj et).2).symm, fun x hx => h'.cut x (List.mem_cons_of_mem _ hx), fun x hx => h'.closed x (by
            rw [List.dropLast_cons_of_ne_nil e2]; exact List.mem_cons_of_mem _ hx)⟩

/-- **C11** On every buffer holding one line (nothing but CR/LF after the first unquoted CR/LF; quotes may be
open) the vectorised and the scalar splitter return the same fields, on every CPU. -/
theorem C11_simd_eq_scalar (cpu : Cpu) {sep q : UInt8} (hs : SplitSane sep q) (data : Bytes) (hone : SingleLine q data) :
    splitSimd cpu sep q data = splitScalar sep q data := by
  unfold splitSimd splitScalar
  split
  · rfl
  · rw [splitSimdGo_ref cpu hs data hone 0#64 0 0 [] (by omega) (by omega) rfl (by intro k h1 h2; omega), splitScalarGo_ref]
    rfl

theorem singleLine_of {sep q : UInt8} (hs : SplitSane sep q) {line term : Bytes} (hl : IsLine q line) (ht : ∀ c ∈ term, Eol c) :
    SingleLine q (line ++ term) := by
  intro k c hk hc hq
  by_cases h : k < line.length
  · rw [List.getElem?_append_left h] at hk
    exact absurd ((quoted_append_left h).2 (hl.eol k c hk hc)) hq
  · intro c' hc'
    rw [List.drop_append, List.drop_eq_nil_of_le (by omega), List.nil_append] at hc'
    exact ht c' (List.mem_of_mem_drop hc')

/-- **C11** A complete line, with or without its terminator, is cut exactly at the unquoted separators, by
`split_fields`, by the vectorised splitter and by the scalar splitter: the result is the post-processed
list of the fields of the line. -/
theorem C11_split (cpu : Cpu) {sep q : UInt8} (hs : SplitSane sep q) (line term : Bytes) (hl : IsLine q line)
    (ht : ∀ c ∈ term, Eol c) (hne : line ++ term ≠ []) :
    ∃ raws, IsSplit sep q line raws ∧
      splitFieldsApi cpu sep q (line ++ term) = raws.map (postProcess q) ∧
      splitSimd cpu sep q (line ++ term) = raws.map (postProcess q) ∧
      splitScalar sep q (line ++ term) = raws.map (postProcess q) := by
  have hsp := splitRef_split hs term ht line [] hl (by simp)
  have hsc : splitScalar sep q (line ++ term) = (splitRef sep q false [] (line ++ term)).map (postProcess q) := by
    unfold splitScalar
    rw [if_neg (by simpa using hne), splitScalarGo_ref]
  have hsi := C11_simd_eq_scalar cpu hs (line ++ term) (singleLine_of hs hl ht)
  refine ⟨_, hsp, ?_, ?_, ?_⟩
  · unfold splitFieldsApi
    split
    · rw [hsi, hsc]; rfl
    · rw [hsc]; rfl
  · rw [hsi, hsc]; rfl
  · rw [hsc]; rfl

/-! ### Fields as written -/

theorem count_escape (q : UInt8) (b : Bytes) : (escape q b).count q % 2 = 0 := by
  induction b with
  | nil => rfl
  | cons c r ih =>
    simp only [escape]
    split
    · simp only [List.count_cons, beq_self_eq_true, if_true]; omega
    · next h =>
      rw [List.count_cons]
      have : (c == q) = false := by simpa using h
      simp only [this, Bool.false_eq_true, if_false]; omega

/-- Inside an escaped text, every byte other than the quote stands after an even number of quotes. -/
theorem escape_even (q : UInt8) (b : Bytes) : ∀ k c, (escape q b)[k]? = some c → c ≠ q → ((escape q b).take k).count q % 2 = 0 := by
  induction b with
  | nil => intro k c hk; simp [escape] at hk
  | cons x r ih =>
    intro k c hk hc
    simp only [escape] at hk ⊢
    split at hk
    · next hx =>
      rw [if_pos hx]
      rcases k with _ | _ | k
      · simp
      · simp at hk; exact absurd hk.symm hc
      · have := ih k c (by simpa using hk) hc
        simp only [List.take_succ_cons, List.count_cons, beq_self_eq_true, if_true]; omega
    · next hx =>
      rw [if_neg hx]
      rcases k with _ | k
      · simp
      · have := ih k c (by simpa using hk) hc
        have e : (x == q) = false := by simpa using hx
        simp only [List.take_succ_cons, List.count_cons, e, Bool.false_eq_true, if_false]; omega

/-- A written field is closed, and every separator or line end in it is quoted. -/
theorem render_ok {M : Marks} (f : WField) (hf : f.WF M) (hlf : M.eol = 10) :
    (f.render M.quote).count M.quote % 2 = 0 ∧
    ∀ k c, (f.render M.quote)[k]? = some c → c ≠ M.quote → (c = M.sep ∨ Eol c) → Quoted M.quote (f.render M.quote) k := by
  cases f with
  | plain s =>
    obtain ⟨h1, h2, h3, h4⟩ := hf
    refine ⟨by simp only [WField.render]; rw [List.count_eq_zero.2 h2], ?_⟩
    intro k c hk _ hc
    have hm := List.mem_of_getElem? hk
    simp only [WField.render] at hm
    rcases hc with rfl | rfl | rfl
    · exact absurd hm h1
    · rw [hlf] at h3; exact absurd hm h3
    · exact absurd hm h4
  | quoted b =>
    simp only [WField.render]
    refine ⟨by rw [List.cons_append, List.count_cons, List.count_append]; have := count_escape M.quote b; simp; omega, ?_⟩
    intro k c hk hq _
    rcases k with _ | k
    · simp at hk; exact absurd hk.symm hq
    · unfold Quoted
      have hlt : k < (escape M.quote b).length := by
        by_contra hcon
        rw [List.cons_append, List.getElem?_cons_succ, List.getElem?_append_right (by omega)] at hk
        rcases hz : k - (escape M.quote b).length with _ | j
        · rw [hz] at hk; simp at hk; exact hq hk.symm
        · rw [hz] at hk; simp at hk
      rw [List.cons_append, List.getElem?_cons_succ, List.getElem?_append_left hlt] at hk
      rw [List.cons_append, List.take_succ_cons, List.take_append_of_le_length (by omega), List.count_cons]
      have := escape_even M.quote b k c hk hq
      simp only [beq_self_eq_true, if_true]; omega

theorem isLine_join {sep q : UInt8} (hs : SplitSane sep q) (raws : List Bytes)
    (h : ∀ r ∈ raws, r.count q % 2 = 0 ∧ ∀ k c, r[k]? = some c → Eol c → Quoted q r k) : IsLine q (joinFields sep raws) := by
  induction raws with
  | nil => exact ⟨by simp [joinFields], by simp [joinFields]⟩
  | cons r rs ih =>
    have hr := h r (by simp)
    have hi := ih (fun x hx => h x (List.mem_cons_of_mem _ hx))
    by_cases e : rs = []
    · subst e; exact ⟨hr.2, hr.1⟩
    · rw [joinFields_cons _ _ _ e]
      have hsq : (sep == q) = false := by simpa using hs.sep_quote
      constructor
      · intro k c hk hc
        by_cases hlt : k < r.length
        · rw [List.getElem?_append_left hlt] at hk
          exact (quoted_append_left hlt).2 (hr.2 k c hk hc)
        · obtain ⟨j, rfl⟩ := Nat.exists_eq_add_of_le (Nat.le_of_not_lt hlt)
          rw [quoted_append_right hr.1]
          rw [List.getElem?_append_right (by omega), Nat.add_sub_cancel_left] at hk
          rcases j with _ | j
          · simp at hk; exact absurd (hk ▸ hc) hs.sep_eol
          · have := hi.eol j c (by simpa using hk) hc
            unfold Quoted at this ⊢
            rw [List.take_succ_cons, List.count_cons]
            simpa [hsq] using this
      · rw [List.count_append, List.count_cons]
        have := hi.closed
        simp only [hsq, Bool.false_eq_true, if_false]; omega

/-- **C11** A line written from fields (bare text without special bytes, or anything between quotes) is split
into these fields; what the caller sees of a field is its text without the surrounding quotes (doubled
quotes are left doubled) and without leading and trailing blanks, and whether it was quoted. -/
theorem C11_written (cpu : Cpu) (M : Marks) (hs : SplitSane M.sep M.quote) (hlf : M.eol = 10) (fields : List WField)
    (hne : fields ≠ []) (hwf : ∀ f ∈ fields, f.WF M) (term : Bytes) (ht : ∀ c ∈ term, Eol c)
    (hbytes : joinFields M.sep (fields.map (·.render M.quote)) ++ term ≠ []) :
    splitFieldsApi cpu M.sep M.quote (joinFields M.sep (fields.map (·.render M.quote)) ++ term) =
      fields.map (fun f => match f with
        | .plain s => ⟨trimBlanks s, false⟩
        | .quoted b => ⟨trimBlanks (escape M.quote b), true⟩) := by
  have hr : ∀ r ∈ fields.map (·.render M.quote), r.count M.quote % 2 = 0 ∧
      ∀ k c, r[k]? = some c → Eol c → Quoted M.quote r k := by
    intro r hr
    obtain ⟨f, hf, rfl⟩ := List.mem_map.1 hr
    have := render_ok f (hwf f hf) hlf
    exact ⟨this.1, fun k c h1 h2 => this.2 k c h1 (fun h => hs.quote_eol (h ▸ h2)) (.inr h2)⟩
  obtain ⟨raws, h1, h2, -, -⟩ := C11_split cpu hs _ term (isLine_join hs _ hr) ht hbytes
  have huniq := C11_split_unique h1 (raws' := fields.map (·.render M.quote))
    ⟨by simpa using hne, rfl, by
      intro r hr' k hk
      obtain ⟨f, hf, rfl⟩ := List.mem_map.1 hr'
      exact (render_ok f (hwf f hf) hlf).2 k _ hk hs.sep_quote (.inl rfl), fun r hr' => (hr r ((List.dropLast_sublist _).subset hr')).1⟩
  rw [h2, huniq, List.map_map]
  apply List.map_congr_left
  intro f hf
  cases f with
  | plain s =>
    have hq : M.quote ∉ s := (hwf _ hf).2.1
    have : ¬ ((s.length ≥ 2) ∧ s.head? = some M.quote ∧ s.getLast? = some M.quote) := by
      rintro ⟨-, h, -⟩
      exact hq (List.mem_of_mem_head? h)
    simp only [Function.comp_apply, WField.render, postProcess]
    rw [if_neg this]
  | quoted b =>
    simp only [Function.comp_apply, WField.render, postProcess]
    rw [if_pos (by refine ⟨by simp, by simp, ?_⟩; rw [List.getLast?_concat])]
    simp

/-! ### What is excluded -/

/-- **C11 finding** On a buffer with more than one line the two splitters differ: the scalar one puts
everything up to the end of the buffer into the last field.  Here 64 bytes `a\nbbb…`. -/
theorem C11_two_lines_differ (cpu : Cpu) :
    splitSimd cpu 44 34 ([97, 10] ++ List.replicate 62 98) ≠ splitScalar 44 34 ([97, 10] ++ List.replicate 62 98) := by
  have hs : splitScalar 44 34 ([97, 10] ++ List.replicate 62 98) = [⟨[97, 10] ++ List.replicate 62 98, false⟩] := by decide +kernel
  rw [hs]
  intro hcon
  have hlen : (splitSimd cpu 44 34 ([97, 10] ++ List.replicate 62 98)) = [⟨[97], false⟩] := by
    generalize hd : ([97, 10] ++ List.replicate 62 98 : Bytes) = data
    have hl : data.length = 64 := by rw [← hd]; rfl
    unfold splitSimd
    rw [if_neg (by omega), splitSimdGo, if_pos (by omega)]
    have hsane : SplitSane 44 34 := ⟨by decide, by unfold Eol; decide, by unfold Eol; decide⟩
    obtain ⟨m1, -⟩ := splitBlockMask_spec cpu hsane data 0
    have hst : stateWord (insAt 34 data 0) = 0#64 := rfl
    rw [hst] at m1
    generalize splitBlockMask cpu 44 34 ((data.drop 0).take 64) 0#64 = r at m1
    have hb1 : r.1.getLsbD 1 = true := by rw [m1 1 (by omega), ← hd]; decide +kernel
    have hb0 : r.1.getLsbD 0 = false := by rw [m1 0 (by omega), ← hd]; decide +kernel
    have hr : r.1 ≠ 0#64 := by intro h; rw [h] at hb1; simp at hb1
    have hctz : r.1.ctz.toNat = 1 := by
      obtain ⟨t1, t2, t3⟩ := ctz_spec r.1 hr
      rcases Nat.lt_trichotomy r.1.ctz.toNat 1 with h | h | h
      · have : r.1.ctz.toNat = 0 := by omega
        rw [this, hb0] at t2; simp at t2
      · exact h
      · have := t3 1 h; rw [hb1] at this; simp at this
    have hex : simdExtract data 0 r.1 0 [] = ([[97]], 0, true) := by
      rw [simdExtract, dif_neg hr, if_pos (by left; rw [hctz, ← hd]; rfl), hctz, ← hd]
      rfl
    simp only [hex]
    decide
  rw [hlen] at hcon
  revert hcon
  decide +kernel

/-- **C11 finding** Blanks inside quotes are removed as well: `" a "` yields `a`, quoted. -/
theorem C11_blanks_inside_quotes_lost : splitScalar 44 34 [34, 32, 97, 32, 34] = [⟨[97], true⟩] := by decide +kernel

/-- Non-vacuity of C11_split: `"a,b",c` and its line end. -/
example : SplitSane 44 34 ∧ IsLine 34 [34, 97, 44, 10, 34, 44, 99] ∧
    splitScalar 44 34 ([34, 97, 44, 10, 34, 44, 99] ++ [13, 10]) = [⟨[97, 44, 10], true⟩, ⟨[99], false⟩] := by
  refine ⟨⟨by decide, by unfold Eol; decide, by unfold Eol; decide⟩, ⟨?_, by decide⟩, by decide +kernel⟩
  intro k c hk hc
  rcases k with _ | _ | _ | _ | _ | _ | _ | k
  all_goals simp at hk
  all_goals subst hk
  all_goals revert hc
  all_goals unfold Eol Quoted
  all_goals decide

end Vroom
