import Verif.Props.AnyInput
import Verif.Props.ConvertFile
import Verif.Props.Python
/-
C83: converting arbitrary bytes, not only texts that a CSV writer produced.
-/
namespace Vroom
open Parquet Spec

/-- The limits of this proof on the size of row groups: either the file has at most 2^31/17 bytes (120 MiB), or no chunk the reader
cuts is longer than 36 MiB and no text in a column without inferred type longer than 4 KiB. -/
def Spec.Moderate (o : FileOpts) (file : List UInt8) (types : List DataType) (table : List (List (Option (List UInt8)))) : Prop :=
  17 * file.length + 64 < 2 ^ 31 ∨
  ((∀ st rs, openData o.infer o.sampleRows (ReaderState.new o.mode o.maxErrors) file = (none, st) → 2 ^ 20 ≤ file.length - st.dataStart →
      chunkRanges o.infer.cpu o.infer.quote file st.dataStart (calculateChunkSize (file.length - st.dataStart) st.schema.length o.nThreads) = some rs →
      ∀ r ∈ rs, r.2 - r.1 ≤ 4194304 + 2 ^ 25 + 1) ∧
   ∀ (j : Nat) t, types[j]? = some t → t = .na ∨ t = .unknown → ∀ v, some v ∈ table.getD j [] → v.length ≤ 4096)

theorem sum_getD_le {α : Type} (f : α → Nat) (g : List α → α) (ls : List (List α)) (hg : ∀ l ∈ ls, f (g l) ≤ (l.map f).sum) :
    (ls.map (fun l => f (g l))).sum ≤ (ls.map (fun l => (l.map f).sum)).sum := by
  induction ls with
  | nil => simp
  | cons l t ih =>
    have h1 := hg l (by simp)
    have h2 := ih (fun x hx => hg x (List.mem_cons_of_mem _ hx))
    simp only [List.map_cons, List.sum_cons]
    omega

theorem textBytes_flatten (ls : List (List Cell)) : textBytes ls.flatten = (ls.map textBytes).sum := by
  induction ls with
  | nil => rfl
  | cons l t ih =>
    rw [List.flatten_cons, List.map_cons, List.sum_cons, ← ih]
    simp [textBytes]

theorem open_nullable (cfg : InferCfg) (sampleRows : Nat) (mode : ErrMode) (mx : Nat) (st' : ReaderState) (file : List UInt8)
    (h : openData cfg sampleRows (ReaderState.new mode mx) file = (none, st')) : ∀ c ∈ st'.schema, c.nullable = true := by
  unfold openData at h
  dsimp only at h
  split_ifs at h with h0 h1 h2
  · cases h
  · cases h
  all_goals
    cases h
    apply assignTypes_nullable
    intro c hc
    simp only [ReaderState.new, List.nil_append, List.mem_map] at hc
    obtain ⟨n, -, rfl⟩ := hc
    rfl

theorem tiles_bound : ∀ (rs : List (Nat × Nat)) (start size : Nat), Spec.Tiles start size rs → ∀ r ∈ rs, r.2 - r.1 ≤ size := by
  intro rs
  induction rs with
  | nil => intro _ _ _ r hr; cases hr
  | cons x xs ih =>
    rintro start size ⟨h1, h2, h3, h4⟩ r hr
    rcases List.mem_cons.1 hr with rfl | hr
    · omega
    · exact ih _ _ h4 r hr

/-- Everything the conversion of an opened file computes, with an output that holds the table read. -/
theorem any_table (o : FileOpts) (hdict : o.env.enableDictionary = false ∨ o.env.compression = .none)
    (dec : Int → List UInt8 → Option (List UInt8)) (hcodec : CodecOk o.env dec) (hlz : o.env.compression ≠ .lz4)
    (file : List UInt8) (st : ReaderState) (hopen : openData o.infer o.sampleRows (ReaderState.new o.mode o.maxErrors) file = (none, st))
    (res : ReadResult) (hread : readAll' o.read st.schema.length o.nThreads file st.dataStart = some res)
    (hmin : ¬ HasMinimum (st.schema.map (·.type)) (textTable st.schema.length res))
    (hmod : Moderate o file (st.schema.map (·.type)) (textTable st.schema.length res))
    (hfoot : footerBound (file.length / 2 ^ 20 + 1) (st.schema.map (·.name)) < 2 ^ 32) :
    ∃ chunks groups p, (o.conv st file).typed res.chunks = some chunks ∧ rowGroupsOf (o.conv st file).target st.schema chunks = some groups ∧
      groups.foldlM (PWriter.write o.env) ({ schema := st.schema } : PWriter).openFile = some p ∧
      Holds dec o.lanes o.floatBits p.close.file (st.schema.map (·.name)) (st.schema.map (·.type)) (textTable st.schema.length res) res.totalRows := by
  obtain ⟨hne, hs⟩ := C82_open_columns _ _ _ _ _ hopen
  have hnull := open_nullable _ _ _ _ _ _ hopen
  obtain ⟨c1, c2⟩ := C50_chunk_size_bounds (file.length - st.dataStart) st.schema.length o.nThreads
  have hc : 0 < (o.conv st file).chunkSize := Nat.lt_of_lt_of_le (by decide) c1
  have h1 : readAll (o.conv st file).read (o.conv st file).schema.length (o.conv st file).threshold (o.conv st file).chunkSize file st.dataStart = some res := hread
  obtain ⟨res', g1, g2⟩ := C08_read_rectangular (o.conv st file).read (o.conv st file).schema.length (o.conv st file).threshold _ hc file st.dataStart hs
  rw [h1, Option.some.injEq] at g1
  subst g1
  obtain ⟨res', k1, k2⟩ := C60_no_amplification (o.conv st file).read (o.conv st file).schema.length (o.conv st file).threshold _ hc file st.dataStart hs
  rw [h1, Option.some.injEq] at k1
  subst k1
  obtain ⟨res', r1, -, r2⟩ := C60_read_from_text (o.conv st file).read (o.conv st file).schema.length (o.conv st file).threshold _ hc file st.dataStart hs
  rw [h1, Option.some.injEq] at r1
  subst r1
  rw [List.length_drop] at r2
  have hlen' : ∀ c ∈ res.chunks, c.length = (o.conv st file).schema.length := fun c hc => (g2.1 c hc).1
  have htext : ∀ j cs, (o.conv st file).schema[j]? = some cs → ∀ v, Cell.text v ∈ (res.chunks.map (fun c => c.getD j [])).flatten →
      some v ∈ (textTable st.schema.length res).getD j [] := by
    intro j cs hj v hv
    have hjl : j < st.schema.length := (List.getElem?_eq_some_iff.1 hj).1
    rw [textTable_getD _ _ _ hjl]
    exact List.mem_map.2 ⟨_, hv, rfl⟩
  have hget : ∀ (j : Nat) (c : ColSchema), (o.conv st file).schema[j]? = some c → (st.schema.map (·.type))[j]? = some c.type := by
    intro j c hj
    rw [List.getElem?_map, show st.schema[j]? = some c from hj]; rfl
  have hcount : (o.conv st file).chunkSize * res.chunks.length ≤ (file.length - st.dataStart) + (o.conv st file).chunkSize := by
    refine (readAll_sizes _ _ _ _ hc file st.dataStart hs (file.length + 1024 * 1024) (by show 1024 * 1024 ≤ _; omega) ?_ res h1).1
    intro _ rs hrs r hr
    obtain ⟨rs', q1, q2⟩ := C06_ranges_tile (o.conv st file).read.cpu (o.conv st file).read.quote file st.dataStart _ hs hc
    rw [hrs, Option.some.injEq] at q1
    subst q1
    have := tiles_bound _ _ _ q2 r hr
    omega
  have hcnt : res.chunks.length ≤ file.length / 2 ^ 20 + 1 := by
    have e : (o.conv st file).chunkSize = calculateChunkSize (file.length - st.dataStart) st.schema.length o.nThreads := rfl
    rw [e] at hcount
    generalize calculateChunkSize (file.length - st.dataStart) st.schema.length o.nThreads = cs at *
    have a3 : res.chunks.length ≤ (file.length - st.dataStart) / cs + 1 := by
      have hcs : 0 < cs := by omega
      rw [show (file.length - st.dataStart) / cs + 1 = (file.length - st.dataStart + cs) / cs by rw [Nat.add_div_right _ hcs]]
      rw [Nat.le_div_iff_mul_le hcs, Nat.mul_comm]
      omega
    have : (file.length - st.dataStart) / cs ≤ file.length / 2 ^ 20 := Nat.div_le_div (by omega) (by omega) (by omega)
    omega
  have hcolS : ∀ l, l <:+: res.chunks → ∀ j, j < st.schema.length →
      ((l.map (fun c => c.getD j [])).flatten).length ≤ file.length ∧ textBytes ((l.map (fun c => c.getD j [])).flatten) ≤ file.length := by
    intro l hl j hj
    obtain ⟨a, b, hab⟩ := hl
    constructor
    · have := g2.2 j hj
      have e : ((wholeCols st.schema.length res).getD j []) = (res.chunks.map (fun c => c.getD j [])).flatten := by
        simp [wholeCols, List.getD_eq_getElem?_getD, hj]
      rw [show (o.conv st file).schema.length = st.schema.length from rfl, e, ← hab] at this
      simp only [List.map_append, List.flatten_append, List.length_append] at this
      omega
    · rw [textBytes_flatten, List.map_map]
      have q1 : (l.map (textBytes ∘ fun c => c.getD j [])).sum ≤ (l.map (fun c => (c.map textBytes).sum)).sum := by
        refine sum_getD_le textBytes (fun c => c.getD j []) l ?_
        intro c hcm
        have hcl := hlen' c (by rw [← hab]; simp [hcm])
        have hjc : j < c.length := by rw [hcl]; exact hj
        apply sum_mem_le
        rw [List.getD_eq_getElem?_getD, List.getElem?_eq_getElem hjc]
        exact List.mem_map.2 ⟨_, List.getElem_mem hjc, rfl⟩
      rw [← hab] at k2
      simp only [List.map_append, List.sum_append] at k2
      omega
  have hsizes : (∀ st' rs, openData o.infer o.sampleRows (ReaderState.new o.mode o.maxErrors) file = (none, st') → 2 ^ 20 ≤ file.length - st'.dataStart →
      chunkRanges o.infer.cpu o.infer.quote file st'.dataStart (calculateChunkSize (file.length - st'.dataStart) st'.schema.length o.nThreads) = some rs →
      ∀ r ∈ rs, r.2 - r.1 ≤ 4194304 + 2 ^ 25 + 1) →
      ∀ c ∈ res.chunks, ∃ m, m ≤ 4194304 + 2 ^ 25 + 1 ∧ ∀ col ∈ c, col.length = m ∧ textBytes col ≤ 4194304 + 2 ^ 25 + 1 := by
    intro hB
    refine (readAll_sizes _ _ _ _ hc file st.dataStart hs _ (by show 1024 * 1024 ≤ _; omega) ?_ res h1).2
    intro ht rs hrs r hr
    exact hB st rs hopen ht hrs r hr
  obtain ⟨chunks, groups, p, t1, t2, t3, t4⟩ := written_table (o.conv st file) file st.dataStart hc hs hne hnull res h1
    (fun j cs hj v hv => not_minimum_defined _ _ hmin j cs.type (hget j cs hj) v (htext j cs hj v hv))
    (by
      intro c hcm col hcol
      rcases hmod with hsmall | ⟨hB, -⟩
      · have q1 := sum_mem_le _ _ (List.mem_map.2 ⟨c, hcm, rfl⟩ : (c.map textBytes).sum ∈ res.chunks.map (fun c => (c.map textBytes).sum))
        have q2 := sum_mem_le _ _ (List.mem_map.2 ⟨col, hcol, rfl⟩ : textBytes col ∈ c.map textBytes)
        omega
      · obtain ⟨m, q1, q2⟩ := hsizes hB c hcm
        have := (q2 col hcol).2
        omega)
    (by
      intro l hl hsm j cs hj hstr
      have hmem : ∀ c ∈ l, c ∈ res.chunks := fun c hc => hl.subset hc
      have hjl : j < st.schema.length := (List.getElem?_eq_some_iff.1 hj).1
      rcases hmod with hsmall | ⟨hB, hN⟩
      · have e := typed_column (o.conv st file) l (fun c hc => hlen' c (hmem c hc)) j cs hj
        have e' : tableColumn (l.map (o.conv st file).values) j = _ := e
        rw [e', List.length_map, valBytes_typed]
        obtain ⟨z1, z2⟩ := hcolS l hl j hjl
        split_ifs
        · rw [cellBytes_eq_textBytes]; omega
        · omega
      · refine slice_column_small (o.conv st file) l (4194304 + 2 ^ 25 + 1) 4096 (fun c hc => hlen' c (hmem c hc)) (fun c hc => hsizes hB c (hmem c hc)) ?_ _ rfl hsm j cs hj hstr ?_
        · rw [show (o.conv st file).target = 262144 from rfl]; omega
        · intro ht v hv
          refine hN j cs.type (hget j cs hj) ht v (htext j cs hj v ?_)
          obtain ⟨col, hcm, hvm⟩ := List.mem_flatten.1 hv
          obtain ⟨c, hc, rfl⟩ := List.mem_map.1 hcm
          exact List.mem_flatten.2 ⟨_, List.mem_map.2 ⟨c, hmem c hc, rfl⟩, hvm⟩)
    (by
      refine Nat.lt_of_le_of_lt ?_ hfoot
      unfold footerBound
      exact Nat.mul_le_mul_right _ (by omega))
    (fun _ _ _ _ _ _ p _ => pagesAgree_of_options o.env p.1 p.2 hdict) dec hcodec hlz
  refine ⟨chunks, groups, p, t1, t2, t3, ?_⟩
  have hpos : 0 < st.schema.length := List.length_pos_iff.2 hne
  have hr := g2.2 0 hpos
  have hr' : ((res.chunks.map (fun c => c.getD 0 [])).flatten).length = res.totalRows := by
    rw [← hr]
    simp [wholeCols, List.getD_eq_getElem?_getD, show 0 < (o.conv st file).schema.length from hpos]
  rw [← hr']
  exact t4

/-- **C83** Converting any file: if the conversion reports success, the output file holds exactly the table that opening and reading the
input delivers - its column names, its types, and in each column the values read, in order, converted by the rules of the type.  Nothing is
assumed about the bytes of the input except the limits of `Moderate` and `footerBound`, and that no integer column holds its type's minimum. -/
theorem C83_convert_partial (o : FileOpts) (hdict : o.env.enableDictionary = false ∨ o.env.compression = .none)
    (dec : Int → List UInt8 → Option (List UInt8)) (hcodec : CodecOk o.env dec) (hlz : o.env.compression ≠ .lz4)
    (w : ConvWorld) (hw : Spoken w) (file : List UInt8) (r : ConvResult) (out : Option (List UInt8))
    (h : ConvertedFile o w file r out) (hok : r.ok = true)
    {names types table rows} (hread : ReadFile o file names types table rows)
    (hmin : ¬ HasMinimum types table) (hmod : Moderate o file types table)
    (hfoot : footerBound (file.length / 2 ^ 20 + 1) names < 2 ^ 32) :
    ∃ bytes, out = some bytes ∧ Holds dec o.lanes o.floatBits bytes names types table rows ∧ r.cols = names.length := by
  obtain ⟨st, hopen, hconv⟩ := file_ok_opened hw h hok
  obtain ⟨st', res, e1, e2, rfl, rfl, rfl, rfl⟩ := hread.read
  rw [hopen, Prod.mk.injEq] at e1
  obtain ⟨-, rfl⟩ := e1
  obtain ⟨chunks, groups, p, t1, t2, t3, t4⟩ := any_table o hdict dec hcodec hlz file st hopen res e2 hmin hmod hfoot
  obtain ⟨-, -, -, -, res', chunks', groups', p', h1, h2, h3, h4, h5, -, h6⟩ := C52_ok_means_done_partial hconv hw hok
  have h1' : readAll' o.read st.schema.length o.nThreads file st.dataStart = some res' := h1
  rw [e2, Option.some.injEq] at h1'
  subst h1'
  rw [t1, Option.some.injEq] at h2
  subst h2
  have h3' : rowGroupsOf (o.conv st file).target st.schema chunks = some groups' := h3
  rw [t2, Option.some.injEq] at h3'
  subst h3'
  have h4' : groups.foldlM (PWriter.write o.env) ({ schema := st.schema } : PWriter).openFile = some p' := h4
  rw [t3, Option.some.injEq] at h4'
  subst h4'
  refine ⟨_, h5, t4, ?_⟩
  rw [h6, List.length_map]; rfl

/-- **C83** What `open` refuses is not converted: no success, no output file. -/
theorem C83_refused (o : FileOpts) (w : ConvWorld) (hw : Spoken w) (file : List UInt8) (e : OpenErr) (st : ReaderState)
    (hopen : openData o.infer o.sampleRows (ReaderState.new o.mode o.maxErrors) file = (some e, st))
    (r : ConvResult) (out : Option (List UInt8)) (h : ConvertedFile o w file r out) :
    r.ok = false ∧ out = none ∧ (w.openErr = none → r.error = e.msg) := by
  cases h with
  | unmapped m hm =>
    refine ⟨?_, rfl, fun hz => by rw [hm] at hz; cases hz⟩
    have : m ≠ [] := fun hz => hw.1 (by rw [hm, hz])
    simpa [ConvResult.ok] using this
  | @rejected e' st' _ h2 =>
    rw [hopen, Prod.mk.injEq, Option.some.injEq] at h2
    obtain ⟨rfl, -⟩ := h2
    refine ⟨?_, rfl, fun _ => rfl⟩
    cases e <;> decide +kernel
  | opened _ h2 _ => rw [hopen] at h2; cases h2

/-- Row groups handed over one after the other, none of which fails. -/
theorem pipe_ok {α : Type} (cap : Nat) (hcap : 0 < cap) (all : List α) : ∀ (todo : List α) (w : List α) (n k : Nat),
    PipeRun cap all n k ⟨⟨[], false⟩, .submit todo, .wantPop, w, false⟩ →
    ∃ n' k' s, PipeRun cap all n' k' s ∧ s.prod = .finished true ∧ s.written = w ++ todo := by
  intro todo
  induction todo with
  | nil =>
    intro w n k h
    have h1 := h.step (.finish _ _ _ _)
    have h2 := h1.step (.popNone _ _ _ _ rfl rfl)
    have h3 := h2.step (.join _ _ _)
    exact ⟨_, _, _, h3, rfl, by simp⟩
  | cons x t ih =>
    intro w n k h
    have h1 := h.step (.submit _ _ _ x t)
    have h2 := h1.step (.pushAccept _ _ _ _ x t (by simp [RgQueue.pushReady]; omega) rfl)
    have h3 := h2.step (.popSome _ _ _ _ x [])
    have h4 := h3.step (.writeOk _ _ _ _ x)
    obtain ⟨n', k', s, r1, r2, r3⟩ := ih _ _ _ h4
    exact ⟨n', k', s, r1, r2, by rw [r3]; simp⟩

/-- What is written group by group can be encoded ahead. -/
theorem write_encodes (env : WEnv) (schema : List ColSchema) : ∀ (gs : List (List ArrowColumn)) (q p : PWriter), q.schema = schema →
    gs.foldlM (PWriter.write env) q = some p → ∃ es, (gs.filter (fun g => !g.isEmpty)).mapM (encodeRowGroup env schema) = some es := by
  intro gs
  induction gs with
  | nil => intro q p _ _; exact ⟨[], rfl⟩
  | cons g gs ih =>
    intro q p hq h
    rw [List.foldlM_cons] at h
    cases hg : g.isEmpty with
    | true =>
      have hw : q.write env g = some q := by simp only [PWriter.write]; rw [if_pos hg]
      rw [hw] at h
      obtain ⟨es, he⟩ := ih q p hq h
      exact ⟨es, by rw [List.filter_cons, hg]; exact he⟩
    | false =>
      cases hx : encodeRowGroup env schema g with
      | none =>
        have hw : q.write env g = none := by
          simp only [PWriter.write, hq, hx]; rw [if_neg (by simp [hg])]; rfl
        rw [hw] at h; cases h
      | some e =>
        have hw : q.write env g = some (q.writeEncoded e) := by
          simp only [PWriter.write, hq, hx]; rw [if_neg (by simp [hg])]; rfl
        rw [hw] at h
        obtain ⟨es, he⟩ := ih (q.writeEncoded e) p (by rw [writeEncoded_eq]; exact hq) h
        refine ⟨e :: es, ?_⟩
        rw [List.filter_cons, hg]
        simp only [Bool.not_false, if_true, List.mapM_cons, hx, he]
        rfl

/-- **C83** Every file that can be opened can be converted: if nothing outside fails (the input can be mapped and read, the callback does
not cancel, the output can be created), a conversion with a successful result exists, so that `C83_convert_partial` is not about nothing; and if a
conversion fails nonetheless, a write failed - its message is that of the failing write, or the pipeline's. -/
theorem C83_succeeds_partial (o : FileOpts) (hdict : o.env.enableDictionary = false ∨ o.env.compression = .none)
    (dec : Int → List UInt8 → Option (List UInt8)) (hcodec : CodecOk o.env dec) (hlz : o.env.compression ≠ .lz4)
    (w : ConvWorld) (hreach : w.reachesWrite = true) (file : List UInt8)
    {names types table rows} (hread : ReadFile o file names types table rows)
    (hmin : ¬ HasMinimum types table) (hmod : Moderate o file types table)
    (hfoot : footerBound (file.length / 2 ^ 20 + 1) names < 2 ^ 32) :
    (∃ r out, ConvertedFile o w file r out ∧ r.ok = true) ∧
    ∀ r out, ConvertedFile o w file r out → r.ok = false → w.whats r.error ∨ r.error = msgPipeline ∨ r.error = msgClosed := by
  obtain ⟨st, res, e1, e2, rfl, rfl, rfl, rfl⟩ := hread.read
  obtain ⟨chunks, groups, p, t1, t2, t3, t4⟩ := any_table o hdict dec hcodec hlz file st e1 res e2 hmin hmod hfoot
  have hmsg : ∀ a b e, convertResult w a b e = ⟨e.getD [], a, b⟩ := by
    intro a b e
    have hr : w.openErr = none ∧ w.readErr = none ∧ w.progress50 ≠ some false ∧ w.writerOpenErr = none := by
      simpa [ConvWorld.reachesWrite, and_assoc] using hreach
    obtain ⟨k1, k2, k3, k4⟩ := hr
    simp only [convertResult, k1, k2, k4]
  have hopen0 : w.openErr = none := by
    have : w.openErr = none ∧ w.readErr = none ∧ w.progress50 ≠ some false ∧ w.writerOpenErr = none := by
      simpa [ConvWorld.reachesWrite, and_assoc] using hreach
    exact this.1
  constructor
  · have hphase : ∃ p', WritePhase o.env w.whats ({ ({} : PWriter).openFile with schema := st.schema }) chunks.length groups none p' := by
      by_cases hn : chunks.length ≤ 1
      · exact ⟨p, .direct hn t3⟩
      · obtain ⟨es, he⟩ := write_encodes o.env st.schema groups _ p rfl t3
        obtain ⟨n, k, s, r1, r2, -⟩ := pipe_ok 4 (by decide) es es [] 0 0 .start
        exact ⟨_, .finished (by omega) he r1 r2⟩
    obtain ⟨p', hp⟩ := hphase
    have hc := Converted.wrote (C := o.conv st file) (w := w) (file := file) (start := st.dataStart) hreach e2 t1 t2 hp
    refine ⟨_, _, .opened hopen0 e1 hc, ?_⟩
    rw [hmsg]
    rfl
  · intro r out h hbad
    cases h with
    | unmapped m hm => rw [hopen0] at hm; cases hm
    | rejected _ h2 => rw [e1] at h2; cases h2
    | @opened st' r out _ h2 hconv =>
      rw [e1, Prod.mk.injEq] at h2
      obtain ⟨-, rfl⟩ := h2
      cases hconv with
      | early a b he => rw [hreach] at he; cases he
      | @wrote res' chunks' groups' err p' _ _ _ _ h5 =>
        rw [hmsg] at hbad ⊢
        cases h5 with
        | direct => cases hbad
        | finished => cases hbad
        | finishErr what _ hwh _ _ _ => exact .inl hwh
        | submitErr msg _ _ _ _ hm => exact .inr hm

/-- **C83** `vroom convert` on any bytes: if it exits with 0, the output file holds the table that was read. -/
theorem C83_command_partial (m : Machine) (w : ConvWorld) (hw : Spoken w) (data : List UInt8)
    (items : List ConvItem) (hv : ∀ it ∈ items, it.Valid)
    (hf : (items.filterMap ConvItem.file?).length = 1) (ho : items.filterMap ConvItem.output? ≠ []) (out : Option (List UInt8))
    (h : VroomConverts m w data (asc "convert" :: items.flatMap ConvItem.args) 0 out)
    (fo : FileOpts) (hfo' : Follows m (convSettings items).common (lastOf items ConvItem.compression? .zstd) fo)
    (dec : Int → List UInt8 → Option (List UInt8)) (hcodec : CodecOk fo.env dec) (hlz : fo.env.compression ≠ .lz4)
    {names types table rows} (hread : ReadFile fo data names types table rows)
    (hmin : ¬ HasMinimum types table) (hmod : Moderate fo data types table)
    (hfoot : footerBound (data.length / 2 ^ 20 + 1) names < 2 ^ 32) :
    ∃ bytes, out = some bytes ∧ Holds dec fo.lanes fo.floatBits bytes names types table rows := by
  have hfo := (follows_iff _ _ _ _).1 hfo'
  obtain ⟨r, h1, h2, -⟩ := C69_exit_zero m w data items hv hf ho out h fo hfo'
  obtain ⟨bytes, e1, e2, -⟩ := C83_convert_partial fo (.inl (by rw [hfo]; rfl)) dec hcodec hlz w hw data r out h1 h2 hread hmin hmod hfoot
  exact ⟨bytes, e1, e2⟩

/-- **C83** The Python function `to_parquet` on any bytes: if it returns, the output file holds the table that was read. -/
theorem C83_python_partial (m : Machine) (w : ConvWorld) (hw : Spoken w) (data : List UInt8) (a : PyConvArgs)
    (codec : Compression) (hc : PyCodec a.compression codec) (mode : ErrMode) (hm : PyMode a.errorMode mode)
    (fo : FileOpts) (hfo : PyFollows m { errorMode := a.errorMode, maxErrors := a.maxErrors } mode codec fo)
    (out : Option (List UInt8)) (h : ToParquet m w data a (.value ()) out)
    (dec : Int → List UInt8 → Option (List UInt8)) (hcodec : CodecOk fo.env dec) (hlz : codec ≠ .lz4)
    {names types table rows} (hread : ReadFile fo data names types table rows)
    (hmin : ¬ HasMinimum types table) (hmod : Moderate fo data types table)
    (hfoot : footerBound (data.length / 2 ^ 20 + 1) names < 2 ^ 32) :
    ∃ bytes, out = some bytes ∧ Holds dec fo.lanes fo.floatBits bytes names types table rows := by
  obtain ⟨r, h1, h2⟩ := (C72_outcome_partial m w data a codec hc mode hm fo hfo _ _).1 h
  have hok : r.ok = true := by
    rcases h2 with ⟨hok, _⟩ | ⟨_, h2⟩
    · exact hok
    · cases h2
  obtain ⟨bytes, e1, e2, -⟩ := C83_convert_partial fo (.inl hfo.dictionary) dec hcodec (by rw [hfo.codec]; exact hlz) w hw data r out h1 hok hread hmin hmod hfoot
  exact ⟨bytes, e1, e2⟩

/-- The conditions are met by a malformed file (a quote inside a field, rows of different lengths, an unclosed quote at the end): it is converted. -/
example : ∃ r bytes names types table rows, ConvertedFile (anyMachine.fileOpts {} .zstd) { whats := fun _ => False } (asc "a,b,c\n1,x\"y\n2,\"z,5\n\n3,p,q,r\n4,\"") r (some bytes) ∧ r.ok = true ∧
    ReadFile (anyMachine.fileOpts {} .zstd) (asc "a,b,c\n1,x\"y\n2,\"z,5\n\n3,p,q,r\n4,\"") names types table rows ∧
    Holds (fun _ _ => none) 32 (fun _ => none) bytes names types table rows := by
  generalize hd : asc "a,b,c\n1,x\"y\n2,\"z,5\n\n3,p,q,r\n4,\"" = data
  have ho : (openData (anyMachine.fileOpts {} .zstd).infer 1000 (ReaderState.new .disabled 10000) data).1 = none := by rw [← hd]; decide +kernel
  have hnm : ((openData (anyMachine.fileOpts {} .zstd).infer 1000 (ReaderState.new .disabled 10000) data).2.schema.map (·.name)) = [asc "a", asc "b", asc "c"] := by
    rw [← hd]; decide +kernel
  have hl : data.length = 31 := by rw [← hd]; decide +kernel
  obtain ⟨table, rows, h, -⟩ := C82_read (anyMachine.fileOpts {} .zstd) data _ (Prod.ext ho rfl)
  have hmin := C82_no_minimum h (by rw [← hd]; decide +kernel)
  have hmod : ∀ types, Moderate (anyMachine.fileOpts {} .zstd) data types table := fun _ => .inl (by rw [hl]; decide)
  have hfoot : footerBound (data.length / 2 ^ 20 + 1) ((openData (anyMachine.fileOpts {} .zstd).infer 1000 (ReaderState.new .disabled 10000) data).2.schema.map (·.name)) < 2 ^ 32 := by
    rw [hnm, hl]; decide +kernel
  have hcodec : CodecOk (anyMachine.fileOpts {} .zstd).env (fun _ _ => none) := by
    intro raw _ hraw
    exact absurd hraw (Nat.lt_irrefl _)
  have hw : Spoken ({ whats := fun _ => False } : ConvWorld) := ⟨by simp, by simp, by simp, fun h => h⟩
  obtain ⟨⟨r, out, h1, h2⟩, -⟩ := C83_succeeds_partial (anyMachine.fileOpts {} .zstd) (.inl rfl) (fun _ _ => none) hcodec (by decide) { whats := fun _ => False } (by decide) data h hmin (hmod _) hfoot
  obtain ⟨bytes, rfl, g2, -⟩ := C83_convert_partial _ (.inl rfl) (fun _ _ => none) hcodec (by decide) _ hw data r out h1 h2 h hmin (hmod _) hfoot
  exact ⟨r, bytes, _, _, _, _, h1, h2, h, g2⟩

end Vroom
