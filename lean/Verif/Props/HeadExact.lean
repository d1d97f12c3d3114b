import Verif.Props.Cli
import Verif.Props.CutInside
/- C65: exactly when the output of `head` and `select` reads back. -/
namespace Vroom
open Spec

/-- A file of rows with one field each is always clear. -/
theorem fileClear_single (M : Marks) (rows : List WRow) (h : ∀ r ∈ rows, r.fields.length = 1) : FileClear M rows := by
  induction rows with
  | nil => trivial
  | cons r rows ih =>
    refine ⟨fun _ => ?_, ih (fun x hx => h x (by simp [hx]))⟩
    have h1 := h r (by simp)
    match hf : r.fields, h1 with
    | [f], _ => simp [WindowClear]

theorem csvRow_blank (M : Marks) (row : List (List UInt8)) : (csvRow M row).blank = true ↔ row = [[]] := by
  simp only [WRow.blank, csvRow, beq_iff_eq]
  constructor
  · intro hz
    match row, hz with
    | [], hz => simp at hz
    | [s], hz =>
      simp only [List.map_cons, List.map_nil, List.cons.injEq, and_true] at hz
      unfold csvField at hz
      split at hz
      · cases hz
      · rw [WField.plain.injEq] at hz; rw [hz]
    | _ :: _ :: _, hz => simp at hz
  · rintro rfl
    simp [csvField]

theorem csvRows_kept (M : Marks) (rows : List (List (List UInt8))) :
    (rows.map (csvRow M) ++ [emptyRow]).filter (fun r => !r.blank) = (rows.filter (fun r => r ≠ [[]])).map (csvRow M) := by
  have h0 : [emptyRow].filter (fun r => !r.blank) = [] := by decide
  rw [List.filter_append, h0, List.append_nil, List.filter_map]
  congr 1
  apply List.filter_congr
  intro r _
  have := csvRow_blank M r
  by_cases h : r = [[]]
  · simp [h, csvRow_blank]
  · have hb : (csvRow M r).blank = false := by
      cases hb : (csvRow M r).blank
      · rfl
      · exact absurd (this.1 hb) h
    simp [h, hb]

/-- What the rows printed mean when they are read by the rules of CSV: the texts, a null for an empty one, and no row that is one empty text. -/
theorem csv_tableOf (cfg : ReadCfg) (n : Nat) (rows : List (List (List UInt8))) (hlen : ∀ r ∈ rows, r.length = n)
    (hnull : ∀ r ∈ rows, ∀ s ∈ r, s ≠ [] → s ∉ commaPieces cfg.nullValues) (hnq : ∀ v ∈ commaPieces cfg.nullValues, v.head? ≠ some cfg.quote) :
    tableOf cfg.quote (commaPieces cfg.nullValues) n (rows.map (csvRow cfg.dial) ++ [emptyRow]) =
      (List.range n).map (fun j => (rows.filter (fun r => r ≠ [[]])).map (fun r => if r.getD j [] = [] then none else some (r.getD j []))) := by
  unfold tableOf
  apply List.map_congr_left
  intro j hj
  have hj' := List.mem_range.1 hj
  rw [csvRows_kept, List.map_map]
  apply List.map_congr_left
  intro r hr
  have hr := (List.mem_filter.1 hr).1
  have hrl := hlen r hr
  simp only [Function.comp_apply, WRow.valueAt, csvRow, List.getElem?_map, List.getElem?_eq_getElem (show j < r.length by omega), Option.map_some]
  rw [List.getD_eq_getElem?_getD, List.getElem?_eq_getElem (show j < r.length by omega), Option.getD_some]
  have hs := hnull r hr _ (List.getElem_mem (show j < r.length by omega))
  generalize r[j] = s at *
  unfold csvField
  by_cases hq : cfg.dial.sep ∈ s ∨ cfg.dial.quote ∈ s ∨ cfg.dial.eol ∈ s ∨ (13 : UInt8) ∈ s
  · rw [if_pos hq]
    have hne : s ≠ [] := by rintro rfl; simp at hq
    have hnn : (WField.quoted s).render cfg.quote ∉ commaPieces cfg.nullValues := by
      intro hm
      exact hnq _ hm rfl
    simp only [WField.value]
    rw [if_neg hnn, if_neg hne]
  · rw [if_neg hq]
    simp only [WField.value]
    by_cases hz : s = []
    · rw [if_pos (.inl hz), if_pos hz]
    · rw [if_neg (by simp [hz, hs hz]), if_neg hz]

theorem lone_shrinks (n : Nat) (hn : n ≠ 0) (rows : List (List (List UInt8))) :
    (List.range n).map (fun j => (rows.filter (fun r => r ≠ [[]])).map (fun r => if r.getD j [] = [] then none else some (r.getD j []))) =
      (List.range n).map (fun j => rows.map (fun r => if r.getD j [] = [] then none else some (r.getD j []))) ↔ ∀ r ∈ rows, r ≠ [[]] := by
  constructor
  · intro h
    have := congrArg (fun l => (l[0]?).map List.length) h
    simp only [List.getElem?_map, List.getElem?_range (Nat.pos_of_ne_zero hn), Option.map_some, List.length_map, Option.some.injEq] at this
    have := List.length_filter_eq_length_iff.1 this
    intro r hr
    simpa using this r hr
  · intro h
    rw [List.filter_eq_self.2 (by intro r hr; simpa using h r hr)]

/-- **C65**, exactly: the lines printed for rows of `n` texts, none of which spells a null, are read back below the parallel threshold as the same texts (a null for an empty one)
**exactly when** the file is clear (`FileClear`: the condition of C12) and no row is one empty text. -/
theorem C65_iff (cfg : ReadCfg) (hM : ReadSane cfg.dial) (n threshold chunkSize : Nat) (hn : n ≠ 0) (rows : List (List (List UInt8))) (hlen : ∀ r ∈ rows, r.length = n)
    (hnull : ∀ r ∈ rows, ∀ s ∈ r, s ≠ [] → s ∉ commaPieces cfg.nullValues) (hnq : ∀ v ∈ commaPieces cfg.nullValues, v.head? ≠ some cfg.quote)
    (file : List UInt8) (hfile : file = rows.flatMap (csvLine cfg.dial)) (hsmall : file.length < threshold) :
    (∃ res, readAll cfg n threshold chunkSize file 0 = some res ∧
      (wholeCols n res).map (fun col => col.map Cell.toOption) =
        (List.range n).map (fun j => rows.map (fun r => if r.getD j [] = [] then none else some (r.getD j [])))) ↔
      FileClear cfg.dial (rows.map (csvRow cfg.dial) ++ [emptyRow]) ∧ ∀ r ∈ rows, r ≠ [[]] := by
  have hread : readAll cfg n threshold chunkSize file 0 = readSerial cfg n (renderFile cfg.dial (rows.map (csvRow cfg.dial) ++ [emptyRow])) := by
    unfold readAll
    rw [if_neg hn, if_pos (by simpa using hsmall), List.drop_zero, hfile, csvLines_file]
  have hne : ∀ r ∈ rows.map (csvRow cfg.dial) ++ [emptyRow], r.fields ≠ [] ∧ r.fields.length ≤ n := by
    intro r hr
    rcases List.mem_append.1 hr with h | h
    · obtain ⟨row, hrow, rfl⟩ := List.mem_map.1 h
      have h1 := hlen row hrow
      refine ⟨?_, by simp [csvRow, h1]⟩
      intro hz
      have h2 : row.length = 0 := by simpa [csvRow] using congrArg List.length hz
      omega
    · rw [List.mem_singleton] at h
      subst h
      exact ⟨by simp [emptyRow], by simp [emptyRow]; omega⟩
  have hwf : ∀ r ∈ rows.map (csvRow cfg.dial) ++ [emptyRow], ∀ f ∈ r.fields, f.WF cfg.dial := by
    intro r hr
    rcases List.mem_append.1 hr with h | h
    · obtain ⟨row, hrow, rfl⟩ := List.mem_map.1 h
      intro f hf
      obtain ⟨s, _, rfl⟩ := List.mem_map.1 hf
      exact csvField_wf _ s
    · rw [List.mem_singleton] at h
      subst h
      exact (emptyRow_wf cfg.dial).wf
  rw [hread]
  have htab := csv_tableOf cfg n rows hlen hnull hnq
  have hiff := C13_serial_iff cfg hM n hn _ hne hwf hnq
  by_cases hl : ∀ r ∈ rows, r ≠ [[]]
  · rw [(lone_shrinks n hn rows).2 hl] at htab
    rw [htab] at hiff
    rw [hiff]
    exact ⟨fun h => ⟨h, hl⟩, fun h => h.1⟩
  · constructor
    · rintro ⟨res, h1, h2⟩
      have hn1 : n = 1 := by
        rw [not_forall] at hl
        obtain ⟨r, hr⟩ := hl
        rw [Classical.not_imp, not_not] at hr
        have := hlen r hr.1
        rw [hr.2] at this
        simpa using this.symm
      have hclear : FileClear cfg.dial (rows.map (csvRow cfg.dial) ++ [emptyRow]) := fileClear_single _ _ (by
        intro r hr
        have := hne r hr
        have := List.length_pos_iff.2 this.1
        omega)
      obtain ⟨res', g1, g2⟩ := hiff.2 hclear
      rw [h1, Option.some.injEq] at g1
      subst g1
      rw [h2, htab] at g2
      exact absurd ((lone_shrinks n hn rows).1 g2.symm) hl
    · rintro ⟨-, h⟩
      exact absurd h hl

/-- **C65** Above the threshold: rows printed that give a clear file are read back **exactly when** no chunk starts inside quotes and no row is one empty text. -/
theorem C65_big_iff (cfg : ReadCfg) (hM : ReadSane cfg.dial) (n threshold chunkSize : Nat) (hn : n ≠ 0) (hc : 0 < chunkSize) (rows : List (List (List UInt8))) (hlen : ∀ r ∈ rows, r.length = n)
    (hnull : ∀ r ∈ rows, ∀ s ∈ r, s ≠ [] → s ∉ commaPieces cfg.nullValues) (hnq : ∀ v ∈ commaPieces cfg.nullValues, v.head? ≠ some cfg.quote)
    (file : List UInt8) (hfile : file = rows.flatMap (csvLine cfg.dial)) (hbig : threshold ≤ file.length) (hclear : FileClear cfg.dial (rows.map (csvRow cfg.dial) ++ [emptyRow]))
    (hl : ∀ r ∈ rows, r ≠ [[]]) :
    (∃ res, readAll cfg n threshold chunkSize file 0 = some res ∧
      (wholeCols n res).map (fun col => col.map Cell.toOption) =
        (List.range n).map (fun j => rows.map (fun r => if r.getD j [] = [] then none else some (r.getD j [])))) ↔ CutsOutside cfg file 0 chunkSize := by
  have hne : ∀ r ∈ rows.map (csvRow cfg.dial) ++ [emptyRow], r.fields ≠ [] ∧ r.fields.length ≤ n := by
    intro r hr
    rcases List.mem_append.1 hr with h | h
    · obtain ⟨row, hrow, rfl⟩ := List.mem_map.1 h
      have h1 := hlen row hrow
      refine ⟨?_, by simp [csvRow, h1]⟩
      intro hz
      have h2 : row.length = 0 := by simpa [csvRow] using congrArg List.length hz
      omega
    · rw [List.mem_singleton] at h
      subst h
      exact ⟨by simp [emptyRow], by simp [emptyRow]; omega⟩
  have hwf : ∀ r ∈ rows.map (csvRow cfg.dial) ++ [emptyRow], ∀ f ∈ r.fields, f.WF cfg.dial := by
    intro r hr
    rcases List.mem_append.1 hr with h | h
    · obtain ⟨row, hrow, rfl⟩ := List.mem_map.1 h
      intro f hf
      obtain ⟨s, _, rfl⟩ := List.mem_map.1 hf
      exact csvField_wf _ s
    · rw [List.mem_singleton] at h
      subst h
      exact (emptyRow_wf cfg.dial).wf
  have htab := csv_tableOf cfg n rows hlen hnull hnq
  rw [(lone_shrinks n hn rows).2 hl] at htab
  rw [← htab]
  exact C07_clear_iff cfg hM n threshold chunkSize hn hc file 0 (Nat.zero_le _) (by omega) _ hne hwf hnq hclear (by rw [List.drop_zero, hfile, csvLines_file])

/-- Both sides of `C65_iff` occur: `x` / `a,b` is read back although an unquoted cell precedes a cell with a comma; with 70 further bytes in the row it is not. -/
example : ((readAll cfg0 2 1000 100 ([[[120], [97, 44, 98]]].flatMap (csvLine cfg0.dial)) 0).map (fun r => (wholeCols 2 r).map (fun col => col.map Cell.toOption))) =
    some [[some [120]], [some [97, 44, 98]]] ∧
    ¬ FileClear cfg0.dial ([[[120], [97, 44, 98], List.replicate 70 120]].map (csvRow cfg0.dial) ++ [emptyRow]) := by
  refine ⟨by decide +kernel, ?_⟩
  intro h
  obtain ⟨res, h1, h2⟩ := (C65_iff cfg0 cfg0_sane 3 1000 100 (by decide) [[[120], [97, 44, 98], List.replicate 70 120]] (by decide) (by decide +kernel) (by decide +kernel) _ rfl
    (by decide +kernel)).2 ⟨h, by decide⟩
  have key : ((readAll cfg0 3 1000 100 ([[[120], [97, 44, 98], List.replicate 70 120]].flatMap (csvLine cfg0.dial)) 0).map (fun r => (wholeCols 3 r).map (fun col => col.map Cell.toOption))) =
      some [[some [120]], [some [34, 97]], [some [98, 34]]] := by decide +kernel
  rw [h1] at key
  simp only [Option.map_some, Option.some.injEq] at key
  rw [h2] at key
  exact absurd key (by decide +kernel)

end Vroom
