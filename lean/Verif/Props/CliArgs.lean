import Verif.Spec.CliArgs
import Verif.Props.CliFile
import Mathlib.Data.List.Induction
import Mathlib.Data.List.Perm.Basic
/-
C68, C69: the command line.
-/
namespace Vroom
open Spec Parquet

theorem takeWhile_all_cli {s : List UInt8} {p : UInt8 → Bool} (h : ∀ c ∈ s, p c = true) : s.takeWhile p = s := by
  induction s with
  | nil => rfl
  | cons c r ih => rw [List.takeWhile_cons, if_pos (h c (by simp)), ih (fun x hx => h x (List.mem_cons_of_mem _ hx))]

/-- `stoul` of a digit string. -/
theorem stoul_digits (s : List UInt8) (h : allDigits s) (hv : decValue s < 2 ^ 64) : stoul s = some (decValue s) := by
  obtain ⟨hne, hd⟩ := h
  match s, hne with
  | c :: r, _ =>
    have hc := hd c (by simp)
    have hc1 : 48 ≤ c.toNat := UInt8.le_iff_toNat_le.1 hc.1
    have hc2 : c.toNat ≤ 57 := UInt8.le_iff_toNat_le.1 hc.2
    have hsp : isSpaceC c = false := by
      have h1 : c ≠ 32 := by rintro rfl; revert hc1; decide
      have h2 : ¬ c ≤ 13 := by intro hx; have := UInt8.le_iff_toNat_le.1 hx; have e : (13 : UInt8).toNat = 13 := rfl; omega
      simp [isSpaceC, h1, h2]
    have h45 : c ≠ 45 := by rintro rfl; revert hc1; decide
    have h43 : c ≠ 43 := by rintro rfl; revert hc1; decide
    unfold stoul
    have e1 : (c :: r).dropWhile isSpaceC = c :: r := by rw [List.dropWhile_cons, hsp]; simp
    rw [e1]
    have e2 : ¬ ((c :: r).head? = some 45 ∨ (c :: r).head? = some 43) := by simp [h45, h43]
    dsimp only
    rw [if_neg e2]
    have e3 : leadDigits (c :: r) = some (decValue (c :: r)) := by
      unfold leadDigits
      rw [takeWhile_all_cli (by intro x hx; simpa using hd x hx)]
      dsimp only
      rw [if_neg (by simp), decDigits_eq]
    rw [e3]
    dsimp only
    rw [if_neg (by omega), if_neg (by simp [h45])]

/-- What an item does to the settings found so far. -/
def Item.effect (o : CliOpts) : Item → CliOpts
  | .rows _ ds => { o with rows := decValue ds }
  | .threads _ ds => { o with threads := decValue ds }
  | .delimiter _ c => { o with delimiter := c }
  | .delimiterTab => { o with delimiter := 9 }
  | .delimiterComma => { o with delimiter := 44 }
  | .delimiterSemicolon => { o with delimiter := 59 }
  | .delimiterPipe => { o with delimiter := 124 }
  | .delimiterColon => { o with delimiter := 58 }
  | .quote _ c => { o with quote := c }
  | .noHeader => { o with hasHeader := false }
  | .progress _ => { o with progress := true }
  | .verbose _ => { o with verbose := true }
  | .strict => { o with mode := .failFast }
  | .permissive => { o with mode := .permissive }
  | .maxErrors ds => o.withMaxErrors (decValue ds)
  | .columns _ s => { o with columns := s }
  | .file p => if o.input = [] then { o with input := p } else o

theorem delimiter_char (c : UInt8) : delimiterArg [c] = some c := by
  have : ∀ s : List UInt8, s.length ≠ 1 → ¬ [c] = s := by rintro s hs rfl; exact hs rfl
  unfold delimiterArg
  rw [if_neg (by rintro (h | h); exact this _ (by decide +kernel) h; exact this _ (by decide +kernel) h), if_neg (this _ (by decide +kernel)), if_neg (this _ (by decide +kernel)), if_neg (this _ (by decide +kernel)),
    if_neg (this _ (by decide +kernel))]

theorem optOf_path (p : List UInt8) (h : p.head? ≠ some 45) : optOf p = .other := by
  have : ∀ s : List UInt8, s.head? = some 45 → ¬ p = s := by rintro s hs rfl; exact h hs
  have k : ∀ s : String, (asc s).head? = some 45 → (p = asc s) = False := fun s hs => by simp [this _ hs]
  unfold optOf
  simp only [k "-n" (by decide +kernel), k "--rows" (by decide +kernel), k "-j" (by decide +kernel), k "-t" (by decide +kernel),
    k "--threads" (by decide +kernel), k "-d" (by decide +kernel), k "--delimiter" (by decide +kernel), k "-q" (by decide +kernel),
    k "--quote" (by decide +kernel), k "--no-header" (by decide +kernel), k "-H" (by decide +kernel), k "-p" (by decide +kernel),
    k "--progress" (by decide +kernel), k "-v" (by decide +kernel), k "--verbose" (by decide +kernel), k "--strict" (by decide +kernel),
    k "--permissive" (by decide +kernel), k "--max-errors" (by decide +kernel), k "-c" (by decide +kernel), k "--columns" (by decide +kernel),
    k "-h" (by decide +kernel), k "--help" (by decide +kernel), or_self, if_false]

theorem parse_item (o : CliOpts) (it : Item) (hv : it.Valid) (hc : it.columns?.isSome = true → o.columns = []) (rest : List (List UInt8)) :
    parseCommon o (it.args ++ rest) = parseCommon (it.effect o) rest := by
  cases it with
  | rows long ds =>
    have e : optOf (asc (if long then "--rows" else "-n")) = .rows := by cases long <;> decide +kernel
    simp only [Item.args, List.cons_append, List.nil_append]
    rw [parseCommon.eq_def]
    simp only [e, stoul_digits ds hv.1 hv.2, Item.effect]
  | threads long ds =>
    have e : optOf (asc (if long then "--threads" else "-j")) = .threads := by cases long <;> decide +kernel
    simp only [Item.args, List.cons_append, List.nil_append]
    rw [parseCommon.eq_def]
    simp only [e, stoul_digits ds hv.1 hv.2, Item.effect]
  | delimiter long c =>
    have e : optOf (asc (if long then "--delimiter" else "-d")) = .delimiter := by cases long <;> decide +kernel
    simp only [Item.args, List.cons_append, List.nil_append]
    rw [parseCommon.eq_def]
    simp only [e, delimiter_char, Item.effect]
  | delimiterTab | delimiterComma | delimiterSemicolon | delimiterPipe | delimiterColon =>
    have e : optOf (asc "-d") = .delimiter := by decide +kernel
    have e1 : delimiterArg (asc "tab") = some 9 := by decide +kernel
    have e2 : delimiterArg (asc "comma") = some 44 := by decide +kernel
    have e3 : delimiterArg (asc "semicolon") = some 59 := by decide +kernel
    have e4 : delimiterArg (asc "pipe") = some 124 := by decide +kernel
    have e5 : delimiterArg (asc "colon") = some 58 := by decide +kernel
    simp only [Item.args, List.cons_append, List.nil_append]
    rw [parseCommon.eq_def]
    simp only [e, e1, e2, e3, e4, e5, Item.effect]
  | quote long c =>
    have e : optOf (asc (if long then "--quote" else "-q")) = .quote := by cases long <;> decide +kernel
    simp only [Item.args, List.cons_append, List.nil_append]
    rw [parseCommon.eq_def]
    simp only [e, Item.effect]
    rfl
  | noHeader =>
    have e : optOf (asc "--no-header") = .noHeader := by decide +kernel
    simp only [Item.args, List.cons_append, List.nil_append]
    rw [parseCommon.eq_def]
    simp only [e, Item.effect]
  | progress long =>
    have e : optOf (asc (if long then "--progress" else "-p")) = .progress := by cases long <;> decide +kernel
    simp only [Item.args, List.cons_append, List.nil_append]
    rw [parseCommon.eq_def]
    simp only [e, Item.effect]
  | verbose long =>
    have e : optOf (asc (if long then "--verbose" else "-v")) = .verbose := by cases long <;> decide +kernel
    simp only [Item.args, List.cons_append, List.nil_append]
    rw [parseCommon.eq_def]
    simp only [e, Item.effect]
  | strict =>
    have e : optOf (asc "--strict") = .strict := by decide +kernel
    simp only [Item.args, List.cons_append, List.nil_append]
    rw [parseCommon.eq_def]
    simp only [e, Item.effect]
  | permissive =>
    have e : optOf (asc "--permissive") = .permissive := by decide +kernel
    simp only [Item.args, List.cons_append, List.nil_append]
    rw [parseCommon.eq_def]
    simp only [e, Item.effect]
  | maxErrors ds =>
    have e : optOf (asc "--max-errors") = .maxErrors := by decide +kernel
    simp only [Item.args, List.cons_append, List.nil_append]
    rw [parseCommon.eq_def]
    simp only [e, stoul_digits ds hv.1 hv.2, Item.effect]
  | columns long s =>
    have e : optOf (asc (if long then "--columns" else "-c")) = .columns := by cases long <;> decide +kernel
    simp only [Item.args, List.cons_append, List.nil_append]
    rw [parseCommon.eq_def]
    simp only [e, Item.effect, hc rfl, if_pos]
  | file p =>
    obtain ⟨hp, hh⟩ := hv
    simp only [Item.args, List.cons_append, List.nil_append]
    rw [parseCommon.eq_def]
    have hf : firstChar p ≠ 45 := by
      match p, hp with
      | c :: r, _ => simpa [firstChar] using hh
    simp only [optOf_path p hh, Item.effect]
    by_cases hi : o.input = []
    · rw [if_pos ⟨hf, hi⟩, if_pos hi]
    · rw [if_neg (fun h => hi h.2), if_neg hf, if_neg hi]

theorem effect_columns (o : CliOpts) (it : Item) (h : it.columns? = none) : (it.effect o).columns = o.columns := by
  cases it <;> first | rfl | (simp [Item.columns?] at h)
  simp only [Item.effect]; split <;> rfl

theorem parse_items (items : List Item) : ∀ (o : CliOpts), (∀ it ∈ items, it.Valid) →
    (o.columns = [] ∨ items.filterMap Item.columns? = []) → (items.filterMap Item.columns?).length ≤ 1 →
    parseCommon o (items.flatMap Item.args) = .ok (items.foldl Item.effect o) := by
  induction items with
  | nil => intro o _ _ _; rfl
  | cons it rest ih =>
    intro o hv hc h1
    rw [List.flatMap_cons, List.foldl_cons]
    rw [List.filterMap_cons] at hc h1
    cases hcol : it.columns? with
    | none =>
      rw [hcol] at hc h1
      rw [parse_item o it (hv it (by simp)) (by rw [hcol]; intro h; cases h)]
      exact ih _ (fun x hx => hv x (List.mem_cons_of_mem _ hx)) (by rw [effect_columns o it hcol]; exact hc) h1
    | some s =>
      rw [hcol] at hc h1
      simp only [List.length_cons, reduceCtorEq, or_false] at hc h1
      rw [parse_item o it (hv it (by simp)) (fun _ => hc)]
      have : (rest.filterMap Item.columns?) = [] := List.length_eq_zero_iff.1 (by omega)
      exact ih _ (fun x hx => hv x (List.mem_cons_of_mem _ hx)) (.inr this) (by omega)

theorem foldl_settings (items : List Item) (hv : ∀ it ∈ items, it.Valid) (hc : (items.filterMap Item.columns?).length ≤ 1) :
    items.foldl Item.effect {} = settings items := by
  induction items using List.reverseRecOn with
  | nil => rfl
  | append_singleton items it ih =>
    rw [List.filterMap_append, List.length_append] at hc
    rw [List.foldl_append, List.foldl_cons, List.foldl_nil, ih (fun x hx => hv x (by simp [hx])) (by omega)]
    have hfile : (items.filterMap Item.file?).headD [] = [] ↔ items.filterMap Item.file? = [] := by
      constructor
      · intro h
        cases hl : items.filterMap Item.file? with
        | nil => rfl
        | cons p ps =>
          rw [hl] at h
          simp at h
          subst h
          have : ([] : List UInt8) ∈ items.filterMap Item.file? := by rw [hl]; simp
          obtain ⟨x, hx, hxe⟩ := List.mem_filterMap.1 this
          have hval := hv x (by simp [hx])
          cases x <;> simp [Item.file?] at hxe
          subst hxe
          exact absurd rfl hval.1
      · intro h; rw [h]; rfl
    have fm : ∀ {α : Type} (f : Item → Option α), (items ++ [it]).filterMap f = items.filterMap f ++ (f it).toList := by
      intro α f
      rw [List.filterMap_append, List.filterMap_cons, List.filterMap_nil]
      cases f it <;> rfl
    have hc' : it.columns? = none ∨ items.filterMap Item.columns? = [] := by
      cases hcol : it.columns? with
      | none => exact .inl rfl
      | some x =>
        right
        rw [List.filterMap_cons, hcol] at hc
        simp only [List.filterMap_nil, List.length_cons, List.length_nil] at hc
        exact List.length_eq_zero_iff.1 (by omega)
    have hI' : ∀ m ∈ items.filterMap Item.mode?, m ≠ ErrMode.disabled := by
      intro m hm
      obtain ⟨x, _, hx⟩ := List.mem_filterMap.1 hm
      cases x <;> simp [Item.mode?] at hx <;> subst hx <;> decide
    unfold settings
    simp only [lastOf, fm]
    clear fm hc ih hv
    generalize items.filterMap Item.file? = A at *
    generalize items.filterMap Item.delimiter? = B at *
    generalize items.filterMap Item.quote? = C at *
    generalize items.filterMap Item.noHeader? = D at *
    generalize items.filterMap Item.threads? = E at *
    generalize items.filterMap Item.rows? = F at *
    generalize items.filterMap Item.progress? = G at *
    generalize items.filterMap Item.verbose? = H at *
    generalize items.filterMap Item.mode? = I at *
    generalize items.filterMap Item.maxErrors? = J at *
    generalize items.filterMap Item.columns? = K at *
    cases it with
    | columns long s =>
      have hk : K = [] := by simpa [Item.columns?] using hc'
      subst hk
      simp [Item.effect, Item.rows?, Item.threads?, Item.delimiter?, Item.quote?, Item.noHeader?, Item.progress?, Item.verbose?, Item.mode?,
        Item.maxErrors?, Item.columns?, Item.file?]
    | file p =>
      simp only [Item.effect, Item.rows?, Item.threads?, Item.delimiter?, Item.quote?, Item.noHeader?, Item.progress?, Item.verbose?, Item.mode?,
        Item.maxErrors?, Item.columns?, Item.file?, Option.toList_none, Option.toList_some, List.append_nil]
      by_cases hi : A.headD [] = []
      · rw [if_pos hi, hfile.1 hi]; rfl
      · rw [if_neg hi]
        cases A with
        | nil => exact absurd rfl hi
        | cons a as => rfl
    | maxErrors ds =>
      simp only [Item.effect, CliOpts.withMaxErrors, Item.rows?, Item.threads?, Item.delimiter?, Item.quote?, Item.noHeader?, Item.progress?, Item.verbose?, Item.mode?,
        Item.maxErrors?, Item.columns?, Item.file?, Option.toList_none, Option.toList_some, List.append_nil]
      simp
      cases hI : I.getLast? with
      | none => cases J <;> simp
      | some x =>
        have := hI' x (List.mem_of_getLast? hI)
        simp [this]
    | _ =>
      simp [Item.effect, Item.rows?, Item.threads?, Item.delimiter?, Item.quote?, Item.noHeader?, Item.progress?, Item.verbose?, Item.mode?,
        Item.maxErrors?, Item.columns?, Item.file?]

/-- **C68** A command line of documented options, in any order and any mixture of short and long forms, with at most one `-c`, gives the settings it means. -/
theorem C68_options (items : List Item) (hv : ∀ it ∈ items, it.Valid) (hc : (items.filterMap Item.columns?).length ≤ 1) :
    parseCommon {} (items.flatMap Item.args) = .ok (settings items) := by
  rw [parse_items items {} hv (.inl rfl) hc, foldl_settings items hv hc]

theorem perm_short {α : Type} {a b : List α} (h : a.Perm b) (h1 : a.length ≤ 1) : a = b := by
  match a, h1 with
  | [], _ => exact (List.Perm.nil_eq h)
  | [x], _ => exact List.singleton_perm.1 h

theorem unit_lists {a b : List Unit} (h : a.Perm b) : a = b := by
  have := h.length_eq
  exact List.ext_getElem this (fun _ _ _ => rfl)

/-- **C68** If no setting is given twice, the order of the options does not matter. -/
theorem C68_any_order (items items' : List Item) (hp : items.Perm items') (hv : ∀ it ∈ items, it.Valid) (hr : NoRepeat items) :
    parseCommon {} (items'.flatMap Item.args) = parseCommon {} (items.flatMap Item.args) := by
  obtain ⟨r1, r2, r3, r4, r5, r6, r7, r8⟩ := hr
  have e1 := perm_short (hp.filterMap Item.rows?) r1
  have e2 := perm_short (hp.filterMap Item.threads?) r2
  have e3 := perm_short (hp.filterMap Item.delimiter?) r3
  have e4 := perm_short (hp.filterMap Item.quote?) r4
  have e5 := perm_short (hp.filterMap Item.mode?) r5
  have e6 := perm_short (hp.filterMap Item.maxErrors?) r6
  have e7 := perm_short (hp.filterMap Item.columns?) r7
  have e8 := perm_short (hp.filterMap Item.file?) r8
  have e9 := unit_lists (hp.filterMap Item.noHeader?)
  have e10 := unit_lists (hp.filterMap Item.progress?)
  have e11 := unit_lists (hp.filterMap Item.verbose?)
  rw [C68_options items hv r7, C68_options items' (fun it h => hv it (hp.mem_iff.2 h)) (by rw [← e7]; exact r7)]
  unfold settings lastOf
  rw [e1, e2, e3, e4, e5, e6, e7, e8, e9, e10, e11]

/-- The word of a command. -/
def CmdName.word : CmdName → List UInt8
  | .count => asc "count"
  | .head => asc "head"
  | .info => asc "info"
  | .select => asc "select"
  | .pretty => asc "pretty"

theorem follows_iff (m : Machine) (s : CliOpts) (c : Compression) (fo : FileOpts) : Follows m s c fo ↔ fo = m.fileOpts s c := by
  constructor
  · intro h
    obtain ⟨⟨cpu, sep, quote, hasHeader, nullValues, trueValues, falseValues, isFloat⟩, nThreads, sampleRows, mode, maxErrors, junk, lanes, floatBits,
      ⟨compression, enableDictionary, compress, ratioLt⟩⟩ := fo
    obtain ⟨h1, h2, h3, h4, h5, h6, h7, h8, h9, h10, h11, h12, h13, h14, h15, h16, h17, h18, h19⟩ := h
    dsimp only at *
    subst h1 h2 h3 h4 h5 h6 h7 h8 h9 h10 h11 h12 h13 h14 h15 h16 h17 h18 h19
    unfold Machine.fileOpts
    congr 1
    by_cases hz : s.threads = 0
    · rw [if_pos hz, if_neg (by omega)]
    · rw [if_neg hz, if_pos (by omega)]
  · rintro rfl
    refine ⟨rfl, rfl, rfl, rfl, rfl, rfl, ?_, rfl, rfl, rfl, rfl, rfl, rfl, rfl, rfl, rfl, rfl, rfl, rfl⟩
    unfold Machine.fileOpts
    dsimp only
    by_cases hz : s.threads = 0
    · rw [if_pos hz, if_neg (by omega)]
    · rw [if_neg hz, if_pos (by omega)]

theorem isStdin_iff (p : List UInt8) : isStdin p = true ↔ p = [] ∨ p = asc "-" ∨ p = asc "/dev/stdin" := by
  unfold isStdin
  exact decide_eq_true_iff

/-- **C68** The whole program: a command word followed by documented options runs that command, on the input named, with the settings the options mean;
`select` without `-c` fails. -/
theorem C68_program (m : Machine) (stdin : List UInt8) (files : Files) (cmd : CmdName) (items : List Item) (hv : ∀ it ∈ items, it.Valid)
    (hc : (items.filterMap Item.columns?).length ≤ 1) (fo : FileOpts) (hfo : Follows m (settings items) .zstd fo) :
    vroom m stdin files (cmd.word :: items.flatMap Item.args) =
      match cmd.command (settings items) with
      | some c => c.run m.L fo (source stdin files (settings items))
      | none => some (.exit 1 []) := by
  have : mainPlan m (cmd.word :: items.flatMap Item.args) = .command cmd (items.flatMap Item.args) := by
    cases cmd <;> unfold mainPlan CmdName.word <;> dsimp only <;>
      repeat (first | rw [if_pos (by decide +kernel)] | rw [if_neg (by decide +kernel)])
  unfold vroom
  rw [this]
  dsimp only
  unfold CmdName.main
  rw [C68_options items hv hc]
  dsimp only
  rw [(follows_iff _ _ _ _).1 hfo]
  generalize settings items = s
  have hi : inputOf stdin files s.input = source stdin files s := by
    unfold inputOf source
    by_cases hz : isStdin s.input = true
    · rw [if_pos hz, if_pos ((isStdin_iff _).1 hz)]
    · rw [if_neg hz, if_neg (fun hx => hz ((isStdin_iff _).2 hx))]
  unfold CmdName.exec
  dsimp only
  rw [hi]
  cases cmd with
  | count => rfl
  | head => rfl
  | pretty => rfl
  | select =>
    unfold CmdName.command
    dsimp only
    by_cases hz : s.columns = []
    · rw [if_pos hz, if_pos hz]
    · rw [if_neg hz, if_neg hz]
  | info =>
    unfold CmdName.command
    dsimp only
    by_cases hz : isStdin s.input = true
    · rw [if_pos hz, if_pos ((isStdin_iff _).1 hz)]
    · rw [if_neg hz, if_neg (fun hx => hz ((isStdin_iff _).2 hx))]

/-- `vroom head -d tab --rows 5 data.csv --strict` -/
example : settings [.delimiterTab, .rows true [53], .file (asc "data.csv"), .strict] =
    { input := asc "data.csv", delimiter := 9, rows := 5, mode := .failFast } ∧
    ∀ it ∈ [Item.delimiterTab, .rows true [53], .file (asc "data.csv"), .strict], it.Valid := by
  refine ⟨by decide +kernel, ?_⟩
  intro it hit
  simp only [List.mem_cons, List.not_mem_nil, or_false] at hit
  rcases hit with rfl | rfl | rfl | rfl
  · trivial
  · exact ⟨⟨by simp, by decide⟩, by decide⟩
  · exact ⟨by decide +kernel, by decide +kernel⟩
  · trivial

/-- **C68 limit** An option that is not known is not reported: it ends the parsing, and what follows - here the input file and `-n 3` - is dropped, so that
standard input is read. -/
theorem C68_unknown_option_refuted : parseCommon {} [asc "--foo", asc "data.csv", asc "-n", asc "3"] = .ok {} := by decide +kernel

/-- **C68 limit** The same happens to a second `-c`, to `-d;`, and to `-` for standard input. -/
theorem C68_dropped_refuted :
    parseCommon {} [asc "-c", asc "a", asc "-c", asc "b", asc "data.csv"] = .ok { columns := asc "a" } ∧
    parseCommon {} [asc "-d;", asc "data.csv"] = .ok {} ∧
    parseCommon {} [asc "-", asc "-n", asc "3"] = .ok {} := by decide +kernel

/-- **C68 limit** A second input file is ignored. -/
theorem C68_second_file_refuted : parseCommon {} [asc "a.csv", asc "b.csv"] = .ok { input := asc "a.csv" } := by decide +kernel

/-- **C68 limit** Numbers are not checked: `-n -1` asks for 2^64-1 rows, `-n 5x` for 5, and `-n x` ends the program with an uncaught exception. -/
theorem C68_numbers_refuted :
    parseCommon {} [asc "-n", asc "-1"] = .ok { rows := 18446744073709551615 } ∧
    parseCommon {} [asc "-n", asc "5x"] = .ok { rows := 5 } ∧
    parseCommon {} [asc "-n", asc "x"] = .abort := by decide +kernel

/-- **C68 limit** `convert` has its own argument loop: there `-d tab` means the letter t, although every other command takes it for a tab. -/
theorem C68_convert_delimiter_refuted :
    parseConvert {} [asc "-d", asc "tab"] = .ok { common := { delimiter := 116 } } ∧
    parseCommon {} [asc "-d", asc "tab"] = .ok { delimiter := 9 } := by decide +kernel

/-- **C68 limit** An input file called `convert` cannot be converted. -/
theorem C68_file_named_convert_refuted :
    convertPlan [asc "convert", asc "convert", asc "-o", asc "out.parquet"] = .exit 1 := by decide +kernel

/-! ### convert -/

/-- What an item of `convert` does to the settings found so far. -/
def ConvItem.effect (o : ConvOpts) : ConvItem → ConvOpts
  | .output _ p => { o with output := p }
  | .compression _ c => { o with compression := compressionName c }
  | .rowGroup _ ds => { o with rowGroup := decValue ds }
  | .threads _ ds => { o with common := { o.common with threads := decValue ds } }
  | .delimiter _ c => { o with common := { o.common with delimiter := c } }
  | .quote _ c => { o with common := { o.common with quote := c } }
  | .noHeader => { o with common := { o.common with hasHeader := false } }
  | .strict => { o with common := { o.common with mode := .failFast } }
  | .permissive => { o with common := { o.common with mode := .permissive } }
  | .maxErrors ds => { o with common := o.common.withMaxErrors (decValue ds) }
  | .progress _ => { o with common := { o.common with progress := true } }
  | .verbose _ => { o with common := { o.common with verbose := true } }
  | .file p => { o with common := { o.common with input := p } }

theorem convOptOf_path (p : List UInt8) (h : p.head? ≠ some 45) (hc : p ≠ asc "convert") : convOptOf p = .other := by
  have : ∀ s : List UInt8, s.head? = some 45 → ¬ p = s := by rintro s hs rfl; exact h hs
  have k : ∀ s : String, (asc s).head? = some 45 → (p = asc s) = False := fun s hs => by simp [this _ hs]
  unfold convOptOf
  simp only [k "-o" (by decide +kernel), k "--output" (by decide +kernel), k "-c" (by decide +kernel), k "--compression" (by decide +kernel),
    k "-r" (by decide +kernel), k "--row-group" (by decide +kernel), k "-j" (by decide +kernel),
    k "--threads" (by decide +kernel), k "-d" (by decide +kernel), k "--delimiter" (by decide +kernel), k "-q" (by decide +kernel),
    k "--quote" (by decide +kernel), k "--no-header" (by decide +kernel), k "-p" (by decide +kernel),
    k "--progress" (by decide +kernel), k "-v" (by decide +kernel), k "--verbose" (by decide +kernel), k "--strict" (by decide +kernel),
    k "--permissive" (by decide +kernel), k "--max-errors" (by decide +kernel),
    k "-h" (by decide +kernel), k "--help" (by decide +kernel), or_self, if_false, hc]

theorem parse_convItem (o : ConvOpts) (it : ConvItem) (hv : it.Valid) (hf : it.file?.isSome = true → o.common.input = []) (rest : List (List UInt8)) :
    parseConvert o (it.args ++ rest) = parseConvert (it.effect o) rest := by
  cases it with
  | output long p =>
    have e : convOptOf (asc (if long then "--output" else "-o")) = .output := by cases long <;> decide +kernel
    simp only [ConvItem.args, List.cons_append, List.nil_append]
    rw [parseConvert.eq_def]
    simp only [e, ConvItem.effect]
  | compression long c =>
    have e : convOptOf (asc (if long then "--compression" else "-c")) = .compression := by cases long <;> decide +kernel
    simp only [ConvItem.args, List.cons_append, List.nil_append]
    rw [parseConvert.eq_def]
    simp only [e, ConvItem.effect]
  | rowGroup long ds =>
    have e : convOptOf (asc (if long then "--row-group" else "-r")) = .rowGroup := by cases long <;> decide +kernel
    simp only [ConvItem.args, List.cons_append, List.nil_append]
    rw [parseConvert.eq_def]
    simp only [e, stoul_digits ds hv.1 hv.2, ConvItem.effect]
  | threads long ds =>
    have e : convOptOf (asc (if long then "--threads" else "-j")) = .threads := by cases long <;> decide +kernel
    simp only [ConvItem.args, List.cons_append, List.nil_append]
    rw [parseConvert.eq_def]
    simp only [e, stoul_digits ds hv.1 hv.2, ConvItem.effect]
  | delimiter long c =>
    have e : convOptOf (asc (if long then "--delimiter" else "-d")) = .delimiter := by cases long <;> decide +kernel
    simp only [ConvItem.args, List.cons_append, List.nil_append]
    rw [parseConvert.eq_def]
    simp only [e, ConvItem.effect]
    rfl
  | quote long c =>
    have e : convOptOf (asc (if long then "--quote" else "-q")) = .quote := by cases long <;> decide +kernel
    simp only [ConvItem.args, List.cons_append, List.nil_append]
    rw [parseConvert.eq_def]
    simp only [e, ConvItem.effect]
    rfl
  | noHeader =>
    have e : convOptOf (asc "--no-header") = .noHeader := by decide +kernel
    simp only [ConvItem.args, List.cons_append, List.nil_append]
    rw [parseConvert.eq_def]
    simp only [e, ConvItem.effect]
  | strict =>
    have e : convOptOf (asc "--strict") = .strict := by decide +kernel
    simp only [ConvItem.args, List.cons_append, List.nil_append]
    rw [parseConvert.eq_def]
    simp only [e, ConvItem.effect]
  | permissive =>
    have e : convOptOf (asc "--permissive") = .permissive := by decide +kernel
    simp only [ConvItem.args, List.cons_append, List.nil_append]
    rw [parseConvert.eq_def]
    simp only [e, ConvItem.effect]
  | maxErrors ds =>
    have e : convOptOf (asc "--max-errors") = .maxErrors := by decide +kernel
    simp only [ConvItem.args, List.cons_append, List.nil_append]
    rw [parseConvert.eq_def]
    simp only [e, stoul_digits ds hv.1 hv.2, ConvItem.effect]
  | progress long =>
    have e : convOptOf (asc (if long then "--progress" else "-p")) = .progress := by cases long <;> decide +kernel
    simp only [ConvItem.args, List.cons_append, List.nil_append]
    rw [parseConvert.eq_def]
    simp only [e, ConvItem.effect]
  | verbose long =>
    have e : convOptOf (asc (if long then "--verbose" else "-v")) = .verbose := by cases long <;> decide +kernel
    simp only [ConvItem.args, List.cons_append, List.nil_append]
    rw [parseConvert.eq_def]
    simp only [e, ConvItem.effect]
  | file p =>
    obtain ⟨hp, hh, hcv⟩ := hv
    simp only [ConvItem.args, List.cons_append, List.nil_append]
    rw [parseConvert.eq_def]
    have hf' : firstChar p ≠ 45 := by
      match p, hp with
      | c :: r, _ => simpa [firstChar] using hh
    simp only [convOptOf_path p hh hcv, ConvItem.effect]
    rw [if_pos ⟨hf', hf rfl⟩]

theorem convEffect_input (o : ConvOpts) (it : ConvItem) (h : it.file? = none) : (it.effect o).common.input = o.common.input := by
  cases it <;> first | rfl | (simp [ConvItem.file?] at h)

theorem parse_convItems (items : List ConvItem) : ∀ (o : ConvOpts), (∀ it ∈ items, it.Valid) →
    (o.common.input = [] ∨ items.filterMap ConvItem.file? = []) → (items.filterMap ConvItem.file?).length ≤ 1 →
    parseConvert o (items.flatMap ConvItem.args) = .ok (items.foldl ConvItem.effect o) := by
  induction items with
  | nil => intro o _ _ _; rfl
  | cons it rest ih =>
    intro o hv hc h1
    rw [List.flatMap_cons, List.foldl_cons]
    rw [List.filterMap_cons] at hc h1
    cases hcol : it.file? with
    | none =>
      rw [hcol] at hc h1
      rw [parse_convItem o it (hv it (by simp)) (by rw [hcol]; intro h; cases h)]
      exact ih _ (fun x hx => hv x (List.mem_cons_of_mem _ hx)) (by rw [convEffect_input o it hcol]; exact hc) h1
    | some s =>
      rw [hcol] at hc h1
      simp only [List.length_cons, reduceCtorEq, or_false] at hc h1
      rw [parse_convItem o it (hv it (by simp)) (fun _ => hc)]
      have : (rest.filterMap ConvItem.file?) = [] := List.length_eq_zero_iff.1 (by omega)
      exact ih _ (fun x hx => hv x (List.mem_cons_of_mem _ hx)) (.inr this) (by omega)

theorem foldl_convSettings (items : List ConvItem) (hc : (items.filterMap ConvItem.file?).length ≤ 1) :
    items.foldl ConvItem.effect {} = convSettings items := by
  induction items using List.reverseRecOn with
  | nil => decide +kernel
  | append_singleton items it ih =>
    rw [List.filterMap_append, List.length_append] at hc
    rw [List.foldl_append, List.foldl_cons, List.foldl_nil, ih (by omega)]
    have fm : ∀ {α : Type} (f : ConvItem → Option α), (items ++ [it]).filterMap f = items.filterMap f ++ (f it).toList := by
      intro α f
      rw [List.filterMap_append, List.filterMap_cons, List.filterMap_nil]
      cases f it <;> rfl
    have hc' : it.file? = none ∨ items.filterMap ConvItem.file? = [] := by
      cases hcol : it.file? with
      | none => exact .inl rfl
      | some x =>
        right
        rw [List.filterMap_cons, hcol] at hc
        simp only [List.filterMap_nil, List.length_cons, List.length_nil] at hc
        exact List.length_eq_zero_iff.1 (by omega)
    have hI' : ∀ m ∈ items.filterMap ConvItem.mode?, m ≠ ErrMode.disabled := by
      intro m hm
      obtain ⟨x, _, hx⟩ := List.mem_filterMap.1 hm
      cases x <;> simp [ConvItem.mode?] at hx <;> subst hx <;> decide
    unfold convSettings
    simp only [lastOf, fm]
    clear fm hc ih
    generalize items.filterMap ConvItem.file? = A at *
    generalize items.filterMap ConvItem.delimiter? = B at *
    generalize items.filterMap ConvItem.quote? = C at *
    generalize items.filterMap ConvItem.noHeader? = D at *
    generalize items.filterMap ConvItem.threads? = E at *
    generalize items.filterMap ConvItem.output? = F at *
    generalize items.filterMap ConvItem.progress? = G at *
    generalize items.filterMap ConvItem.verbose? = H at *
    generalize items.filterMap ConvItem.mode? = I at *
    generalize items.filterMap ConvItem.maxErrors? = J at *
    generalize items.filterMap ConvItem.compression? = K at *
    generalize items.filterMap ConvItem.rowGroup? = K' at *
    cases it with
    | file p =>
      have hk : A = [] := by simpa [ConvItem.file?] using hc'
      subst hk
      simp [ConvItem.effect, ConvItem.output?, ConvItem.compression?, ConvItem.rowGroup?, ConvItem.threads?, ConvItem.delimiter?, ConvItem.quote?, ConvItem.noHeader?, ConvItem.progress?, ConvItem.verbose?, ConvItem.mode?,
        ConvItem.maxErrors?, ConvItem.file?]
    | maxErrors ds =>
      simp only [ConvItem.effect, CliOpts.withMaxErrors, ConvItem.output?, ConvItem.compression?, ConvItem.rowGroup?, ConvItem.threads?, ConvItem.delimiter?, ConvItem.quote?, ConvItem.noHeader?, ConvItem.progress?, ConvItem.verbose?, ConvItem.mode?,
        ConvItem.maxErrors?, ConvItem.file?, Option.toList_none, Option.toList_some, List.append_nil]
      simp
      cases hI : I.getLast? with
      | none => cases J <;> simp
      | some x =>
        have := hI' x (List.mem_of_getLast? hI)
        simp [this]
    | _ =>
      simp [ConvItem.effect, ConvItem.output?, ConvItem.compression?, ConvItem.rowGroup?, ConvItem.threads?, ConvItem.delimiter?, ConvItem.quote?, ConvItem.noHeader?, ConvItem.progress?, ConvItem.verbose?, ConvItem.mode?,
        ConvItem.maxErrors?, ConvItem.file?]

theorem compressionArg_name (c : Compression) : compressionArg (compressionName c) = some c := by cases c <;> decide +kernel

/-- **C69** `vroom convert` with documented options, in any order, one input file and an output file, runs the conversion with the settings they mean. -/
theorem C69_convert_program (m : Machine) (items : List ConvItem) (hv : ∀ it ∈ items, it.Valid)
    (hf : (items.filterMap ConvItem.file?).length = 1) (ho : items.filterMap ConvItem.output? ≠ []) :
    mainPlan m (asc "convert" :: items.flatMap ConvItem.args) = .convert (.run (convSettings items) (lastOf items ConvItem.compression? .zstd)) := by
  have hp : parseConvert {} (asc "convert" :: items.flatMap ConvItem.args) = .ok (convSettings items) := by
    rw [parseConvert.eq_def]
    have e : convOptOf (asc "convert") = .command := by decide +kernel
    simp only [e]
    rw [parse_convItems items {} hv (.inl rfl) (by omega), foldl_convSettings items (by omega)]
  have hin : (convSettings items).common.input ≠ [] := by
    show (items.filterMap ConvItem.file?).headD [] ≠ []
    cases hl : items.filterMap ConvItem.file? with
    | nil => rw [hl] at hf; simp at hf
    | cons p ps =>
      have : p ∈ items.filterMap ConvItem.file? := by rw [hl]; simp
      obtain ⟨x, hx, hxe⟩ := List.mem_filterMap.1 this
      have hval := hv x hx
      cases x <;> simp [ConvItem.file?] at hxe
      subst hxe
      exact hval.1
  have hout : (convSettings items).output ≠ [] := by
    show lastOf items ConvItem.output? [] ≠ []
    unfold lastOf
    obtain ⟨p, hp⟩ : ∃ p, (items.filterMap ConvItem.output?).getLast? = some p := by
      cases h : (items.filterMap ConvItem.output?).getLast? with
      | none => exact absurd (List.getLast?_eq_none_iff.1 h) ho
      | some p => exact ⟨p, rfl⟩
    rw [hp]
    obtain ⟨x, hx, hxe⟩ := List.mem_filterMap.1 (List.mem_of_getLast? hp)
    have hval := hv x hx
    cases x <;> simp [ConvItem.output?] at hxe
    subst hxe
    exact hval
  unfold mainPlan
  dsimp only
  rw [if_neg (by decide +kernel), if_neg (by decide +kernel), if_pos rfl]
  unfold convertPlan
  rw [hp]
  dsimp only
  rw [if_neg hin, if_neg hout, show (convSettings items).compression = compressionName (lastOf items ConvItem.compression? .zstd) from rfl, compressionArg_name]

/-- **C69** If `vroom convert` exits with 0, the conversion was successful; under `--strict`, `open` also found nothing to report. -/
theorem C69_exit_zero (m : Machine) (w : ConvWorld) (data : List UInt8) (items : List ConvItem) (hv : ∀ it ∈ items, it.Valid)
    (hf : (items.filterMap ConvItem.file?).length = 1) (ho : items.filterMap ConvItem.output? ≠ []) (out : Option (List UInt8))
    (h : VroomConverts m w data (asc "convert" :: items.flatMap ConvItem.args) 0 out)
    (fo : FileOpts) (hfo' : Follows m (convSettings items).common (lastOf items ConvItem.compression? .zstd) fo) :
    ∃ r, ConvertedFile fo w data r out ∧ r.ok = true ∧
      (fo.mode = .failFast → (openData fo.infer fo.sampleRows (ReaderState.new fo.mode fo.maxErrors) data).2.collector.errors = []) := by
  have hfo := (follows_iff _ _ _ _).1 hfo'
  generalize hcode : 0 = code at h
  cases h with
  | @mk o c r out hadErrors hplan hconv herr =>
    rw [C69_convert_program m items hv hf ho] at hplan
    simp only [MainPlan.convert.injEq, ConvPlan.run.injEq] at hplan
    obtain ⟨rfl, rfl⟩ := hplan
    subst hfo
    unfold convertExit at hcode
    cases hok : r.ok with
    | false => rw [hok] at hcode; simp at hcode
    | true =>
      refine ⟨r, hconv, hok, ?_⟩
      intro hm
      rw [hok] at hcode
      simp only [Bool.true_eq_false, if_false] at hcode
      have hm' : (convSettings items).common.mode = .failFast := hm
      cases hh : hadErrors with
      | true => rw [hh, if_pos ⟨rfl, hm'⟩] at hcode; cases hcode
      | false =>
        have := herr hok
        rw [hh] at this
        have hz := this.symm
        simp only [Bool.not_eq_false', List.isEmpty_iff] at hz
        exact hz

/-- **C69** The other direction: a successful conversion gives exit code 0, unless `--strict` was given and `open` reported something. -/
theorem C69_exit_code (m : Machine) (w : ConvWorld) (data : List UInt8) (items : List ConvItem) (hv : ∀ it ∈ items, it.Valid)
    (hf : (items.filterMap ConvItem.file?).length = 1) (ho : items.filterMap ConvItem.output? ≠ []) (code : Nat) (out : Option (List UInt8))
    (h : VroomConverts m w data (asc "convert" :: items.flatMap ConvItem.args) code out) (hne : code ≠ 0)
    (fo : FileOpts) (hfo' : Follows m (convSettings items).common (lastOf items ConvItem.compression? .zstd) fo) :
    code = 1 ∧ ∃ r, ConvertedFile fo w data r out ∧
      (r.ok = false ∨ (fo.mode = .failFast ∧ (openData fo.infer fo.sampleRows (ReaderState.new fo.mode fo.maxErrors) data).2.collector.errors ≠ [])) := by
  have hfo := (follows_iff _ _ _ _).1 hfo'
  cases h with
  | @mk o c r out hadErrors hplan hconv herr =>
    rw [C69_convert_program m items hv hf ho] at hplan
    simp only [MainPlan.convert.injEq, ConvPlan.run.injEq] at hplan
    obtain ⟨rfl, rfl⟩ := hplan
    subst hfo
    unfold convertExit at hne ⊢
    cases hok : r.ok with
    | false => exact ⟨if_pos rfl, r, hconv, .inl hok⟩
    | true =>
      rw [hok] at hne
      simp only [Bool.true_eq_false, if_false] at hne ⊢
      by_cases hx : hadErrors = true ∧ (convSettings items).common.mode = .failFast
      · refine ⟨if_pos hx, r, hconv, .inr ⟨hx.2, ?_⟩⟩
        have := herr hok
        rw [hx.1] at this
        intro hz
        have hz' : (openData (m.fileOpts (convSettings items).common (lastOf items ConvItem.compression? .zstd)).infer 1000
          (ReaderState.new (convSettings items).common.mode (convSettings items).common.maxErrors) data).2.collector.errors = [] := hz
        rw [hz'] at this
        cases this
      · rw [if_neg hx] at hne
        exact absurd rfl hne

/-- **C69** with C62: if `vroom convert in.csv -o out.parquet …` exits with 0 on a CSV text with header, the output file holds, for an independent reader, the columns
and values of the CSV text (the conditions are those of C62; the compressor `dec` undoes is the chosen one). -/
theorem C69_convert_file_partial (m : Machine) (w : ConvWorld) (hw : Spoken w) (data : List UInt8)
    (items : List ConvItem) (hv : ∀ it ∈ items, it.Valid)
    (hf : (items.filterMap ConvItem.file?).length = 1) (ho : items.filterMap ConvItem.output? ≠ []) (out : Option (List UInt8))
    (h : VroomConverts m w data (asc "convert" :: items.flatMap ConvItem.args) 0 out)
    (fo : FileOpts) (hfo' : Follows m (convSettings items).common (lastOf items ConvItem.compression? .zstd) fo)
    (hh : fo.infer.hasHeader = true) (hM : ReadSane fo.infer.marks)
    (dec : Int → List UInt8 → Option (List UInt8)) (hcodec : CodecOk fo.env dec) (hlz : fo.env.compression ≠ .lz4)
    (hdr : WRow) (rows : List WRow) (hfile : data = renderFile fo.infer.marks (hdr :: rows)) (hr : rows ≠ [])
    (hne : hdr.fields ≠ []) (hhwf : ∀ f ∈ hdr.fields, f.WF fo.infer.marks) (hwf : ∀ r ∈ rows, r.WF fo.infer.marks)
    (hfoot : Parquet.footerBound (data.length / 2 ^ 20 + 1) (hdr.fields.map (·.columnName)) < 2 ^ 32)
    (hL : ∀ r ∈ rows, (r.render fo.infer.marks).length ≤ 2 ^ 25)
    (hT : 2 ^ 20 ≤ (renderFile fo.infer.marks rows).length →
      TargetsOutside fo.read data ((hdr.render fo.infer.marks).length + 1)
        (calculateChunkSize (renderFile fo.infer.marks rows).length hdr.fields.length fo.nThreads))
    (types : List DataType) (htypes : types = openInfer fo.infer data hdr.fields.length fo.sampleRows)
    (table : List (List (Option (List UInt8))))
    (htable : table = tableOf fo.infer.quote (commaPieces fo.infer.nullValues) hdr.fields.length rows)
    (hmin : ¬ HasMinimum types table)
    (hN : ∀ j t, types[j]? = some t → t = .na ∨ t = .unknown → ∀ v, some v ∈ table.getD j [] → v.length ≤ 4096) :
    ∃ bytes, out = some bytes ∧ Parquet.Holds dec fo.lanes fo.floatBits bytes (hdr.fields.map (·.columnName)) types table (rows.filter (fun r => !r.blank)).length := by
  have hfo := (follows_iff _ _ _ _).1 hfo'
  obtain ⟨r, h1, h2, -⟩ := C69_exit_zero m w data items hv hf ho out h fo hfo'
  exact C62_convert_file_partial fo hh hM (.inl (by rw [hfo]; rfl)) dec hcodec hlz w hw data r out h1 h2 hdr rows hfile hr hne hhwf hwf hfoot hL hT
    types htypes table htable hmin hN

/-! ### A file that cannot be opened -/

theorem hasSub_iff (n s : List UInt8) : hasSub n s = true ↔ n <:+: s := by
  induction s with
  | nil =>
    simp only [hasSub, List.isEmpty_iff, List.infix_nil]
  | cons c r ih =>
    simp only [hasSub, Bool.or_eq_true, List.isPrefixOf_iff_prefix, ih, List.infix_cons_iff]

theorem emptyFile_part (path : List UInt8) (pre : List UInt8) (h : (69 : UInt8) ∉ pre) :
    emptyFileText <:+: pre ++ path ↔ emptyFileText <:+: path := by
  induction pre with
  | nil => rfl
  | cons c r ih =>
    have hc : c ≠ 69 := fun hx => h (by simp [hx])
    rw [List.cons_append, List.infix_cons_iff, ih (fun hm => h (List.mem_cons_of_mem _ hm))]
    constructor
    · rintro (hp | hp)
      · obtain ⟨t, ht⟩ := hp
        simp only [emptyFileText, List.cons_append, List.cons.injEq] at ht
        exact absurd ht.1.symm hc
      · exact hp
    · exact .inr

/-- **C64** A file that cannot be opened: exit code 1 and no output - provided its path does not contain the words "Empty file". -/
theorem C64_unreadable_partial (c : CliCmd) (L : Libc) (o : FileOpts) (path : List UInt8) (h : ¬ asc "Empty file" <:+: path) :
    c.run L o (.unreadable (asc "Failed to open file: " ++ path)) = some (.exit 1 []) := by
  have he : emptyFileText = asc "Empty file" := by decide +kernel
  unfold CliCmd.run CliCmd.onOpenError
  dsimp only
  rw [if_neg]
  rw [hasSub_iff, emptyFile_part path _ (by decide +kernel), he]
  exact h

/-- **C64 refuted** for a path that contains them: the missing file is counted as empty, with exit code 0. -/
theorem C64_missing_empty_file_refuted (L : Libc) (o : FileOpts) :
    CliCmd.count.run L o (.unreadable (asc "Failed to open file: " ++ asc "Empty files/a.csv")) = some (.exit 0 (asc "0\n")) := by
  unfold CliCmd.run CliCmd.onOpenError
  dsimp only
  rw [if_pos (by decide +kernel)]
  have : asc "0\n" = [48, LF] := by decide +kernel
  rw [this]
  rfl

end Vroom
