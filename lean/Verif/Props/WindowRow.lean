import Verif.Lemmas.WindowRow
import Verif.Props.Reader
/-
C12, C13: exactly which rows the streaming reader cuts into their fields, and exactly which files a serial read delivers as the table written.
-/
namespace Vroom
open Spec

/-- **C12**, for every input whatsoever: the fields of the row and the bytes after it are those of the description by windows (`WindowRow`), and no others. -/
theorem C12_exact (cpu : Cpu) (D : Marks) (hsq : D.sep ≠ D.quote) (heq : D.eol ≠ D.quote) (junk : Bool) (data : List UInt8) (fs : List (List UInt8)) (tail : List UInt8) :
    (∃ out, splitRow cpu D junk data = some (out, tail) ∧ out.map Prod.fst = fs) ↔ WindowRow D 0 false data fs tail := by
  obtain ⟨out, t, h1, h2⟩ := collect_window cpu D hsq heq (data.length + 2) { rest := data } junk rfl 0 false (CacheW.zero _ _) (Nat.le_refl _)
  constructor
  · rintro ⟨o, g1, rfl⟩
    have := g1.symm.trans h1
    cases this
    exact h2
  · intro h
    obtain ⟨rfl, rfl⟩ := windowRow_unique h2 h
    exact ⟨out, h1, rfl⟩

/-- **C12**, rows of well-formed fields: the row is cut into its fields **exactly when** no separator or line end inside a quoted field lies in a window opened by an unquoted field. -/
theorem C12_iff (cpu : Cpu) (D : Marks) (hD : D.Sane) (junk : Bool) (fs : List (List UInt8)) (t : List UInt8) (hfs : fs ≠ [])
    (hraw : ∀ f ∈ fs, RawField D f) (ht : t = [] ∨ t.head? = some D.eol) :
    (∃ out, splitRow cpu D junk (joinFields D.sep fs ++ t) = some (out, t.drop 1) ∧ out.map Prod.fst = fs) ↔ WindowClear D 0 false fs t := by
  rw [C12_exact cpu D hD.sep_quote hD.eol_quote, windowRow_iff D hD fs t hfs hraw ht]
  simp

/-- The condition of `C12_rows_partial` is a special case. -/
theorem C12_clear_of_order (D : Marks) (hD : D.Sane) (fs : List (List UInt8)) (t : List UInt8) (hfs : fs ≠ []) (hraw : ∀ f ∈ fs, RawField D f) (ht : t = [] ∨ t.head? = some D.eol)
    (hgood : (joinFields D.sep fs ++ t).length ≤ 64 ∨ QuotedSepsFirst D fs) : WindowClear D 0 false fs t :=
  (C12_iff cpu32 D hD false fs t hfs hraw ht).1 (C12_rows_partial cpu32 D hD false fs t hfs hraw ht hgood)

theorem raw_plain {D : Marks} {f : List UInt8} (h : D.sep ∉ f ∧ D.quote ∉ f ∧ D.eol ∉ f) : RawField D f := Or.inl h

/-- A row that is cut well although a separator in quotes follows an unquoted field: the first field takes up the window (70 bytes `a`, then `"x,y"`, and 100 more bytes in the file). -/
example : WindowClear csvMarks 0 false [List.replicate 70 97, [34, 120, 44, 121, 34]] (10 :: List.replicate 30 97) ∧
    ¬ QuotedSepsFirst csvMarks [List.replicate 70 97, [34, 120, 44, 121, 34]] := by
  constructor
  · refine ⟨fun _ k c hk => by omega, ?_⟩
    rw [if_neg (by omega)]
    have : windowLeft (joinFields csvMarks.sep [List.replicate 70 97, [34, 120, 44, 121, 34]] ++ 10 :: List.replicate 30 97).length (List.replicate 70 (97 : UInt8)).length = 0 := by decide +kernel
    rw [this]
    refine ⟨fun _ k c hk => by omega, ?_⟩
    split <;> trivial
  · intro h
    have := h.1 (by unfold PlainField; decide +kernel) [34, 120, 44, 121, 34] (by simp)
    revert this
    unfold Simple
    decide +kernel

/-- The row of `C12_full_fails` is not clear. -/
example : ¬ WindowClear csvMarks 0 false [[49], [34, 97, 44, 98, 34]] (10 :: List.replicate 64 97) := by
  rintro ⟨-, h⟩
  rw [if_neg (by omega)] at h
  have hw : windowLeft (joinFields csvMarks.sep [[49], [34, 97, 44, 98, 34]] ++ 10 :: List.replicate 64 97).length [(49 : UInt8)].length = 62 := by decide +kernel
  rw [hw] at h
  exact (h.1 (by decide +kernel) 2 44 (by omega) rfl).1 rfl

/-! ### Whole files -/

theorem clear_rawTexts (D : Marks) (hs : D.sep ≠ 13) (he : D.eol ≠ 13) (crlf : Bool) (fs : List WField) (t : List UInt8) (w : Nat) (aware : Bool) :
    WindowClear D w aware (rawTexts D crlf fs) t ↔ WindowClear D w aware (fs.map (·.render D.quote)) ((if crlf then [13] else []) ++ t) := by
  induction fs generalizing w aware with
  | nil => cases crlf <;> exact Iff.rfl
  | cons f fs ih =>
    cases fs with
    | nil =>
      simp only [rawTexts, List.map_cons, List.map_nil, WindowClear, ite_self, and_true]
      cases crlf with
      | false => simp
      | true =>
        simp only [if_true]
        refine forall_congr' fun _ => forall_congr' fun k => forall_congr' fun c => forall_congr' fun hk => ?_
        by_cases hlt : k < (f.render D.quote).length
        · rw [List.getElem?_append_left hlt]
        · rw [List.getElem?_append_right (by omega), List.getElem?_eq_none (l := f.render D.quote) (by omega)]
          constructor
          · intro _ h; simp at h
          · intro _ h
            have : c = 13 := by
              cases hj : k - (f.render D.quote).length with
              | zero => rw [hj] at h; simpa using h.symm
              | succ j => rw [hj] at h; simp at h
            subst this
            exact ⟨hs.symm, he.symm⟩
    | cons g gs =>
      have hj : joinFields D.sep (rawTexts D crlf (f :: g :: gs)) ++ t =
          joinFields D.sep ((f :: g :: gs).map (·.render D.quote)) ++ ((if crlf then [13] else []) ++ t) := by
        rw [rawTexts_join _ _ _ (by simp), List.append_assoc]
      rw [show rawTexts D crlf (f :: g :: gs) = f.render D.quote :: rawTexts D crlf (g :: gs) from rfl] at hj ⊢
      rw [List.map_cons] at hj ⊢
      rw [WindowClear, WindowClear, hj, ih, ih]

theorem file_rest (M : Marks) (r : WRow) (rows : List WRow) (hne : r.fields ≠ []) :
    renderFile M (r :: rows) = joinFields M.sep (rawTexts M r.crlf r.fields) ++ (if rows = [] then [] else M.eol :: renderFile M rows) ∧
      (if rows = [] then [] else M.eol :: renderFile M rows).drop 1 = renderFile M rows := by
  rw [rawTexts_join _ _ _ hne]
  cases rows with
  | nil => simp [renderFile, joinFields, WRow.render]
  | cons a l => simp [renderFile, joinFields, WRow.render]

/-- Rows are cut whole in a file exactly when it is clear. -/
theorem cutsWhole_iff (cfg : ReadCfg) (hM : ReadSane cfg.dial) (rows : List WRow) (hne : ∀ r ∈ rows, r.fields ≠ [])
    (hwf : ∀ r ∈ rows, ∀ f ∈ r.fields, f.WF cfg.dial) : CutsWhole cfg rows ↔ FileClear cfg.dial rows := by
  induction rows with
  | nil => exact Iff.rfl
  | cons r rows ih =>
    refine and_congr (forall_congr' fun _ => ?_) (ih (fun x hx => hne x (by simp [hx])) (fun x hx => hwf x (by simp [hx])))
    obtain ⟨h1, h2⟩ := file_rest cfg.dial r rows (hne r (by simp))
    rw [h1, ← clear_rawTexts _ hM.sep_cr (by rw [hM.eol_lf]; decide), ← C12_iff cfg.cpu cfg.dial hM.toSane cfg.junk _ _ (rawTexts_ne _ _ _ (hne r (by simp)))
      (by
        intro f hf
        obtain ⟨g, hg, cr, rfl⟩ := mem_rawTexts _ _ _ _ hf
        exact rawText_raw _ hM cr g (hwf r (by simp) g hg))
      (by split <;> simp), h2]

/-- **C13**, whole files read serially: a clear file is delivered as the table written. -/
theorem C13_serial_clear (cfg : ReadCfg) (hM : ReadSane cfg.dial) (n : Nat) (hn : n ≠ 0) (rows : List WRow) (hne : ∀ r ∈ rows, r.fields ≠ [])
    (hwf : ∀ r ∈ rows, ∀ f ∈ r.fields, f.WF cfg.dial) (hclear : FileClear cfg.dial rows) :
    ∃ res, readSerial cfg n (renderFile cfg.dial rows) = some res ∧
      (wholeCols n res).map (fun col => col.map Cell.toOption) = tableOf cfg.quote (commaPieces cfg.nullValues) n rows ∧
      res.totalRows = (rows.filter (fun r => !r.blank)).length := by
  unfold readSerial
  rw [if_neg hn]
  obtain ⟨rs, h1, h2⟩ := rawRows_file_of cfg hM rows hne hwf ((cutsWhole_iff cfg hM rows hne hwf).2 hclear) _ (Nat.le_refl _)
  rw [parseRows_spec, h1]
  have h0 : 0 < n := Nat.pos_of_ne_zero hn
  refine ⟨_, rfl, ?_, ?_⟩
  · simp only
    rw [wholeCols_of_groups n _ _ _ [groupCols cfg n rows] (by simp only [List.map_cons, List.map_nil]; rw [cols_of_rows cfg n rs rows h2])]
    have := tableOf_groups cfg n [rows]
    simpa using this
  · simp [List.getElem?_replicate, h0, rows_match_length cfg _ _ h2]

theorem unescapeGo_mem (q : UInt8) (v : Bytes) (c : UInt8) (h : c ∈ unescapeGo q v) : c ∈ v := by
  fun_induction unescapeGo q v with
  | case1 => exact h
  | case2 => exact h
  | case3 c' d rest hcd ih =>
    simp only [List.mem_cons] at h ⊢
    rcases h with h | h
    · left; rw [h, hcd.1]
    · right; right; exact ih h
  | case4 c' d rest hcd ih =>
    simp only [List.mem_cons] at h ⊢ ih
    rcases h with h | h
    · left; exact h
    · right; exact ih h

theorem cellOf_mem (nc : NullChecker) (q : UInt8) (f : Bytes) (needs : Bool) (v : Bytes) (h : cellOf nc q f needs = .text v) : ∀ c ∈ v, c ∈ f := by
  have hs : ∀ c ∈ stripCR f, c ∈ f := by
    intro c hc
    unfold stripCR at hc
    split at hc
    · exact List.dropLast_subset _ hc
    · exact hc
  unfold cellOf at h
  dsimp only at h
  split at h
  · simp at h
  · split at h
    · simp only [Cell.text.injEq] at h
      subst h
      intro c hc
      apply hs
      have hun : ∀ v, c ∈ unescapeQuotes v q → c ∈ v := by
        intro v hv
        unfold unescapeQuotes at hv
        split at hv
        · exact hv
        · exact unescapeGo_mem _ _ _ hv
      replace hc : c ∈ (if (stripCR f).length ≥ 2 ∧ (stripCR f).head? = some q ∧ (stripCR f).getLast? = some q then ((stripCR f).drop 1).take ((stripCR f).length - 2) else stripCR f) := hun _ hc
      split at hc
      · exact List.mem_of_mem_drop (List.mem_of_mem_take hc)
      · exact hc
    · simp only [Cell.text.injEq] at h
      subst h
      exact hs

/-- A row that is not clear has a field that is cut short. -/
theorem windowRow_cut (D : Marks) (hD : D.Sane) (fs : List Bytes) (t : Bytes) (hfs : fs ≠ []) (hraw : ∀ f ∈ fs, RawField D f) (ht : t = [] ∨ t.head? = some D.eol)
    (w : Nat) (aware : Bool) (out : List Bytes) (tail : Bytes) (h : WindowRow D w aware (joinFields D.sep fs ++ t) out tail) (hnot : ¬ WindowClear D w aware fs t) :
    ∃ (j : Nat) (f : Bytes) (e : Nat), fs[j]? = some f ∧ e < f.length ∧ out[j]? = some (f.take e) ∧ Simple D (f.take e) ∧ ¬ Simple D f := by
  induction fs generalizing w aware out tail with
  | nil => exact absurd rfl hfs
  | cons f fs ih =>
    have hf := hraw f (by simp)
    obtain ⟨u, hu1, hu2⟩ : ∃ u, joinFields D.sep (f :: fs) ++ t = f ++ u ∧ ((fs = [] ∧ u = t) ∨ (fs ≠ [] ∧ u = D.sep :: (joinFields D.sep fs ++ t))) := by
      cases fs with
      | nil => exact ⟨t, rfl, Or.inl ⟨rfl, rfl⟩⟩
      | cons g gs => exact ⟨_, by rw [joinFields_cons _ _ _ (by simp), List.append_assoc, List.cons_append], Or.inr ⟨by simp, rfl⟩⟩
    have hu : u = [] ∨ u.head? = some D.sep ∨ u.head? = some D.eol := by
      rcases hu2 with ⟨-, rfl⟩ | ⟨-, rfl⟩
      · exact ht.imp id Or.inr
      · exact Or.inr (Or.inl rfl)
    have hstep : ∃ e w' a', FieldStep D w aware (f ++ u) e w' a' ∧ out[0]? = some ((f ++ u).take e) ∧
        (e = f.length → fs ≠ [] → ∃ out', out = f :: out' ∧ WindowRow D w' a' (joinFields D.sep fs ++ t) out' tail) := by
      rw [hu1] at h
      generalize hd : f ++ u = d at h
      cases h with
      | last h1 h2 =>
        subst hd
        refine ⟨_, _, _, h1, rfl, ?_⟩
        intro he hne
        subst he
        exfalso
        obtain ⟨-, rfl⟩ := hu2.resolve_left (fun h => hne h.1)
        rcases h2 with h2 | h2
        · simp at h2
        · rw [List.getElem?_append_right (by omega), Nat.sub_self] at h2
          simp only [List.getElem?_cons_zero, Option.some.injEq] at h2
          exact hD.sep_eol h2
      | more h1 h2 h3 h4 =>
        subst hd
        refine ⟨_, _, _, h1, rfl, ?_⟩
        intro he hne
        subst he
        obtain ⟨-, rfl⟩ := hu2.resolve_left (fun h => hne h.1)
        refine ⟨_, by rw [List.take_left' rfl], ?_⟩
        rw [List.drop_append, List.drop_of_length_le (by omega)] at h4
        simpa using h4
    obtain ⟨e, w', a', k1, k2, k3⟩ := hstep
    by_cases he : e = f.length
    · subst he
      obtain ⟨c1, c2⟩ := (raw_step D hD w aware f u hf hu _ _).1 k1
      by_cases hne : fs = []
      · exfalso
        subst hne
        exact hnot ⟨c1, by split <;> trivial⟩
      · obtain ⟨out', rfl, k4⟩ := k3 rfl hne
        obtain ⟨j, g, e, g1, g2, g3, g4⟩ := ih hne (fun x hx => hraw x (by simp [hx])) w' a' out' tail k4 (by
          intro hcl
          apply hnot
          refine ⟨c1, ?_⟩
          rw [hu1]
          split at c2
          · next hlt => cases c2; rw [if_pos hlt]; exact hcl
          · next hlt => cases c2; rw [if_neg hlt]; exact hcl)
        exact ⟨j + 1, g, e, g1, g2, g3, g4⟩
    · have hend : IsFieldEnd false D (f ++ u) e := by
        cases k1 with
        | shown q1 q2 =>
          cases aware with
          | true => exact absurd (fieldEnd_unique q1 (raw_end D true f u hf hu (by simp))) he
          | false => exact q1
        | search q1 q2 =>
          rw [raw_head D hD f u hf hu] at q2
          exact absurd (fieldEnd_unique q2 (raw_end D _ f u hf hu (raw_opens D hD f hf))) he
      have hlt : e < f.length := by
        by_contra hge
        have hgt : f.length < e := by omega
        apply hend.2.2 _ hgt
        have : f.length < (f ++ u).length := by have := hend.1; omega
        exact ((raw_end D true f u hf hu (by simp)).2.1 this).imp id (fun h _ => h rfl)
      refine ⟨0, f, e, rfl, hlt, ?_, ?_, ?_⟩
      · rw [k2, List.take_append_of_le_length (by omega)]
      · apply not_simple_get
        intro k c hc
        have hk : k < e := by
          by_contra hge
          rw [List.getElem?_eq_none (by simp; omega)] at hc; simp at hc
        have hn := hend.2.2 k hk
        dsimp only at hn
        rw [List.getElem?_take_of_lt hk] at hc
        rw [List.getElem?_append_left (by omega), hc] at hn
        constructor
        · intro h; subst h; exact hn ⟨Or.inl rfl, by simp⟩
        · intro h; subst h; exact hn ⟨Or.inr rfl, by simp⟩
      · intro hs
        have := (hend.2.1 (by simp; omega)).1
        rw [List.getElem?_append_left hlt] at this
        rcases this with g | g
        · exact hs.1 (List.mem_of_getElem? g)
        · exact hs.2 (List.mem_of_getElem? g)

/-- A field cut short is not the value written. -/
theorem cut_cell (cfg : ReadCfg) (hM : ReadSane cfg.dial) (hnull : ∀ v ∈ commaPieces cfg.nullValues, v.head? ≠ some cfg.quote) (cr : Bool) (f : WField)
    (hwf : f.WF cfg.dial) (e : Nat) (hs : Simple cfg.dial ((rawText cfg.dial cr f).take e)) (hn : ¬ Simple cfg.dial (rawText cfg.dial cr f)) (needs : Bool) :
    (cellOf cfg.nc cfg.quote ((rawText cfg.dial cr f).take e) needs).toOption ≠ f.value cfg.quote (commaPieces cfg.nullValues) := by
  have ht : ¬ f.Tame cfg.dial := fun h => hn (rawText_simple cfg.dial hM cr f hwf h)
  cases f with
  | plain s => exact absurd trivial ht
  | quoted b =>
    have hv : (WField.quoted b).value cfg.quote (commaPieces cfg.nullValues) = some b := by
      simp only [WField.value]
      rw [if_neg]
      intro h
      exact hnull _ h rfl
    rw [hv]
    intro h
    cases hc : cellOf cfg.nc cfg.quote ((rawText cfg.dial cr (WField.quoted b)).take e) needs with
    | null => rw [hc] at h; simp [Cell.toOption] at h
    | text v =>
      rw [hc] at h
      have hvb : v = b := by simpa [Cell.toOption] using h
      subst hvb
      have hm := cellOf_mem _ _ _ _ _ hc
      apply ht
      exact ⟨fun h => hs.1 (hm _ h), fun h => hs.2 (hm _ h)⟩

theorem rawRows_clear (cfg : ReadCfg) (hM : ReadSane cfg.dial) (hnull : ∀ v ∈ commaPieces cfg.nullValues, v.head? ≠ some cfg.quote) (n : Nat) (rows : List WRow)
    (hne : ∀ r ∈ rows, r.fields ≠ [] ∧ r.fields.length ≤ n) (hwf : ∀ r ∈ rows, ∀ f ∈ r.fields, f.WF cfg.dial) (fuel : Nat) (rs)
    (h : rawRows cfg fuel (renderFile cfg.dial rows) = some rs)
    (hm : ∀ j < n, rs.map (fun fs => (cellAt cfg.nc cfg.quote fs j).toOption) =
      (rows.filter (fun r => !r.blank)).map (fun r => r.valueAt cfg.quote (commaPieces cfg.nullValues) j)) : FileClear cfg.dial rows := by
  induction rows generalizing fuel rs with
  | nil => trivial
  | cons r rows ih =>
    have hrn : ∀ x ∈ rows, x.fields ≠ [] ∧ x.fields.length ≤ n := fun x hx => hne x (by simp [hx])
    have hrest : ∀ x ∈ rows, ∀ f ∈ x.fields, f.WF cfg.dial := fun x hx => hwf x (by simp [hx])
    have hr := hwf r (by simp)
    have heol : cfg.dial.eol = 10 := rfl
    cases hb : r.blank with
    | true =>
      refine ⟨fun h => by simp [hb] at h, ih hrn hrest fuel rs ?_ ?_⟩
      · rw [← h]
        apply rawRows_congr
        symm
        have h0 : skipBlank [] = [] := by rw [skipBlank]
        have h13 : skipBlank [13] = [] := skipBlank_cr
        cases rows with
        | nil =>
          have : renderFile cfg.dial [r] = r.render cfg.dial := rfl
          rw [this]
          rcases blank_render cfg.dial r hb with hbr | hbr <;> rw [hbr]
          · rfl
          · rw [h13]; exact h0.symm
        | cons a l =>
          have : renderFile cfg.dial (r :: a :: l) = r.render cfg.dial ++ 10 :: renderFile cfg.dial (a :: l) := by simp [renderFile, joinFields, heol]
          rw [this]
          rcases blank_render cfg.dial r hb with hbr | hbr <;> rw [hbr]
          · exact skipBlank_lf _
          · exact skipBlank_crlf _
      · intro j hj
        rw [hm j hj]
        simp [hb]
    | false =>
      obtain ⟨h1, h2⟩ := file_rest cfg.dial r rows (hne r (by simp)).1
      have hraw : ∀ f ∈ rawTexts cfg.dial r.crlf r.fields, RawField cfg.dial f := by
        intro f hf
        obtain ⟨g, hg, cr, rfl⟩ := mem_rawTexts _ _ _ _ hf
        exact rawText_raw _ hM cr g (hr g hg)
      have htt : (if rows = [] then [] else cfg.dial.eol :: renderFile cfg.dial rows) = [] ∨
          (if rows = [] then [] else cfg.dial.eol :: renderFile cfg.dial rows).head? = some cfg.dial.eol := by split <;> simp
      have hrender : renderFile cfg.dial (r :: rows) = r.render cfg.dial ++ (if rows = [] then [] else cfg.dial.eol :: renderFile cfg.dial rows) := by
        cases rows with
        | nil => simp [renderFile, joinFields]
        | cons a l => simp [renderFile, joinFields]
      obtain ⟨c, d, hcd, hc1, hc2⟩ := row_head cfg.dial hM r (hne r (by simp)).1 hr hb (if rows = [] then [] else cfg.dial.eol :: renderFile cfg.dial rows)
      cases fuel with
      | zero => simp [rawRows] at h
      | succ fuel =>
        have hskip : skipBlank (renderFile cfg.dial (r :: rows)) = renderFile cfg.dial (r :: rows) := by
          rw [hrender, hcd]; exact skipBlank_cons c d hc1 hc2
        unfold rawRows at h
        rw [hskip, if_neg (by rw [hrender, hcd]; simp)] at h
        obtain ⟨out, tail, g1, g2⟩ := collect_window cfg.cpu cfg.dial hM.sep_quote hM.eol_quote ((renderFile cfg.dial (r :: rows)).length + 2)
          { rest := renderFile cfg.dial (r :: rows) } cfg.junk rfl 0 false (CacheW.zero _ _) (Nat.le_refl _)
        have g1' : splitRow cfg.cpu cfg.dial cfg.junk (renderFile cfg.dial (r :: rows)) = some (out, tail) := g1
        rw [g1'] at h
        dsimp only at h
        simp only at g2
        rw [h1] at g2
        cases hrs : rawRows cfg fuel tail with
        | none => rw [hrs] at h; simp at h
        | some rs' =>
          rw [hrs] at h
          simp only [Option.map_some, Option.some.injEq] at h
          subst h
          have hm' : ∀ j < n, (cellAt cfg.nc cfg.quote out j).toOption = r.valueAt cfg.quote (commaPieces cfg.nullValues) j ∧
              rs'.map (fun fs => (cellAt cfg.nc cfg.quote fs j).toOption) =
              (rows.filter (fun r => !r.blank)).map (fun r => r.valueAt cfg.quote (commaPieces cfg.nullValues) j) := by
            intro j hj
            have := hm j hj
            simpa [hb] using this
          by_cases hcl : WindowClear cfg.dial 0 false (rawTexts cfg.dial r.crlf r.fields) (if rows = [] then [] else cfg.dial.eol :: renderFile cfg.dial rows)
          · refine ⟨fun _ => (clear_rawTexts _ hM.sep_cr (by rw [hM.eol_lf]; decide) _ _ _ _ _).1 hcl, ih hrn hrest fuel rs' ?_ fun j hj => (hm' j hj).2⟩
            have := (windowRow_iff cfg.dial hM.toSane _ _ (rawTexts_ne _ _ _ (hne r (by simp)).1) hraw htt 0 false (renderFile cfg.dial rows)).2 ⟨hcl, h2.symm⟩
            obtain ⟨-, rfl⟩ := windowRow_unique g2 this
            exact hrs
          · exfalso
            obtain ⟨j, f, e, q1, q2, q3, q4, q5⟩ := windowRow_cut cfg.dial hM.toSane _ _ (rawTexts_ne _ _ _ (hne r (by simp)).1) hraw htt 0 false _ _ g2 hcl
            rw [rawTexts_get] at q1
            cases hj : r.fields[j]? with
            | none => rw [hj] at q1; simp at q1
            | some g =>
              rw [hj] at q1
              simp only [Option.map_some, Option.some.injEq] at q1
              have hjl : j < r.fields.length := (List.getElem?_eq_some_iff.1 hj).1
              have hjn : j < n := by have := (hne r (by simp)).2; omega
              have key := (hm' j hjn).1
              rw [List.getElem?_map] at q3
              cases ho : out[j]? with
              | none => rw [ho] at q3; simp at q3
              | some fn =>
                rw [ho] at q3
                simp only [Option.map_some, Option.some.injEq] at q3
                unfold cellAt WRow.valueAt at key
                rw [ho, hj] at key
                dsimp only at key
                rw [q3, ← q1] at key
                rw [← q1] at q4 q5
                exact cut_cell cfg hM hnull _ g (hr g (List.mem_of_getElem? hj)) e q4 q5 fn.2 key

/-- **C13**, exactly: when no row has more than `n` fields and no null spelling starts with a quote, a serial read delivers the table written **exactly when** the file is clear. -/
theorem C13_serial_iff (cfg : ReadCfg) (hM : ReadSane cfg.dial) (n : Nat) (hn : n ≠ 0) (rows : List WRow) (hne : ∀ r ∈ rows, r.fields ≠ [] ∧ r.fields.length ≤ n)
    (hwf : ∀ r ∈ rows, ∀ f ∈ r.fields, f.WF cfg.dial) (hnull : ∀ v ∈ commaPieces cfg.nullValues, v.head? ≠ some cfg.quote) :
    (∃ res, readSerial cfg n (renderFile cfg.dial rows) = some res ∧
      (wholeCols n res).map (fun col => col.map Cell.toOption) = tableOf cfg.quote (commaPieces cfg.nullValues) n rows) ↔ FileClear cfg.dial rows := by
  constructor
  · rintro ⟨res, h1, h2⟩
    unfold readSerial at h1
    rw [if_neg hn, parseRows_spec] at h1
    cases hrs : rawRows cfg ((renderFile cfg.dial rows).length + 1) (renderFile cfg.dial rows) with
    | none => rw [hrs] at h1; simp at h1
    | some rs =>
      rw [hrs] at h1
      simp only [Option.map_some, Option.some.injEq] at h1
      subst h1
      refine rawRows_clear cfg hM hnull n rows hne hwf _ rs hrs ?_
      intro j hj
      have := congrArg (fun l => l[j]?) h2
      simp only [wholeCols, tableOf, List.map_map, List.getElem?_map, List.getElem?_range hj, Option.map_some, Option.some.injEq, Function.comp,
        List.map_cons, List.map_nil, List.flatten_cons, List.flatten_nil, List.append_nil, List.getD_eq_getElem?_getD, List.getElem?_mapIdx, List.getElem?_replicate, hj,
        if_true, Option.getD_some, List.nil_append] at this
      exact this
  · intro h
    obtain ⟨res, h1, h2, -⟩ := C13_serial_clear cfg hM n hn rows (fun r hr => (hne r hr).1) hwf h
    exact ⟨res, h1, h2⟩

/-- The conditions are met by a file of more than 64 bytes whose second row has a separator in quotes after an unquoted field (of 63 bytes), and that is clear. -/
def clearRows : List WRow := [⟨[.plain [97], .plain [98]], true⟩, ⟨[.plain (List.replicate 63 97), .quoted [120, 44, 121]], false⟩, ⟨[.plain (List.replicate 90 97)], false⟩]

theorem clearRows_ok : FileClear cfg0.dial clearRows ∧ (∀ r ∈ clearRows, r.fields ≠ [] ∧ r.fields.length ≤ 2) ∧ (∀ r ∈ clearRows, ∀ f ∈ r.fields, f.WF cfg0.dial) ∧
    ¬ ∀ r ∈ clearRows, TameAfterPlain cfg0.dial r.fields := by
  refine ⟨⟨fun _ => ?_, fun _ => ?_, fun _ => ?_, trivial⟩, by unfold clearRows; decide +kernel, ?_, ?_⟩
  · refine ⟨fun _ k c hk => by omega, ?_⟩
    rw [if_neg (by omega)]
    refine ⟨fun _ k c _ hc => ?_, by simp only [List.map_nil, WindowClear, ite_self]⟩
    cases k with
    | zero => simp only [WField.render, List.getElem?_cons_zero, Option.some.injEq] at hc; subst hc; decide
    | succ k => simp [WField.render] at hc
  · refine ⟨fun _ k c hk => by omega, ?_⟩
    rw [if_neg (by omega)]
    have : windowLeft (joinFields cfg0.dial.sep [WField.render cfg0.dial.quote (WField.plain (List.replicate 63 97)), WField.render cfg0.dial.quote (WField.quoted [120, 44, 121])] ++
        ([] ++ cfg0.dial.eol :: renderFile cfg0.dial [⟨[.plain (List.replicate 90 97)], false⟩])).length (WField.render cfg0.dial.quote (WField.plain (List.replicate 63 97))).length = 0 := by decide +kernel
    show WindowClear _ (windowLeft (joinFields cfg0.dial.sep [WField.render cfg0.dial.quote (WField.plain (List.replicate 63 97)), WField.render cfg0.dial.quote (WField.quoted [120, 44, 121])] ++
        ([] ++ cfg0.dial.eol :: renderFile cfg0.dial [⟨[.plain (List.replicate 90 97)], false⟩])).length (WField.render cfg0.dial.quote (WField.plain (List.replicate 63 97))).length) _ _ _
    rw [this]
    refine ⟨fun _ k c hk => by omega, ?_⟩
    split <;> trivial
  · refine ⟨fun _ k c hk => by omega, ?_⟩
    split <;> trivial
  · intro r hr f hf
    unfold clearRows at hr
    simp only [List.mem_cons, List.not_mem_nil, or_false] at hr
    rcases hr with rfl | rfl | rfl <;> simp only [List.mem_cons, List.not_mem_nil, or_false] at hf
    · rcases hf with rfl | rfl <;> (simp only [WField.WF]; decide +kernel)
    · rcases hf with rfl | rfl
      · simp only [WField.WF]; decide +kernel
      · trivial
    · subst hf; simp only [WField.WF]; decide +kernel
  · intro h
    have := (h ⟨[.plain (List.replicate 63 97), .quoted [120, 44, 121]], false⟩ (by simp [clearRows])).1 (.quoted [120, 44, 121]) (by simp)
    exact this.1 (by decide)

/-- and the read delivers the table, by `C13_serial_iff`. -/
example : (readSerial cfg0 2 (renderFile cfg0.dial clearRows)).map (fun res => (wholeCols 2 res).map (fun col => col.map Cell.toOption)) =
    some [[some [97], some (List.replicate 63 97), some (List.replicate 90 97)], [some [98], some [120, 44, 121], none]] := by
  decide +kernel

end Vroom
