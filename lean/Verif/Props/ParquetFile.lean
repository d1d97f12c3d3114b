import Verif.Props.ParquetPage
/-
Layout of the written file (C33), codecs (C35) and the round trip of whole files (C53).
-/
namespace Vroom
open Parquet Thrift

/-! ### The file grows by appending -/

theorem writeColumn_eq (p : PWriter) (c : EncodedColumn) :
    p.writeColumn c = (p.writeBytes (chunkBytes c), metaAt c p.offset) := by
  simp only [metaAt, PWriter.writeColumn, chunkBytes, dictBytes, PWriter.writeBytes]
  cases h1 : c.usesDictionary with
  | false => simp [Nat.add_assoc]
  | true =>
    cases h2 : c.dictHeader with
    | none => simp [Nat.add_assoc]
    | some h =>
      cases h3 : c.dictContent with
      | none => simp [Nat.add_assoc]
      | some b => simp [Nat.add_assoc]

/-- Metadata of the chunks of a row group written at a position. -/
def metasAt (off : Nat) : List EncodedColumn → List ColumnMetaData
  | [] => []
  | c :: cs => metaAt c off :: metasAt (off + (chunkBytes c).length) cs

theorem writeBytes_writeBytes (p : PWriter) (a b : List UInt8) : (p.writeBytes a).writeBytes b = p.writeBytes (a ++ b) := by
  simp [PWriter.writeBytes, Nat.add_assoc]

theorem writeColumns_eq (cs : List EncodedColumn) : ∀ p : PWriter,
    p.writeColumns cs = (p.writeBytes (cs.flatMap chunkBytes), metasAt p.offset cs) := by
  induction cs with
  | nil => intro p; simp [PWriter.writeColumns, PWriter.writeBytes, metasAt]
  | cons c cs ih =>
    intro p
    simp only [PWriter.writeColumns, writeColumn_eq, ih, metasAt, List.flatMap_cons, writeBytes_writeBytes]
    rfl

def groupBytes (g : EncodedRowGroup) : List UInt8 := g.columns.flatMap chunkBytes

def rowGroupAt (off : Nat) (g : EncodedRowGroup) : RowGroup :=
  { columns := (metasAt off g.columns).map (fun m => { metaData := some m }),
    totalByteSize := (metasAt off g.columns).foldl (fun a m => a + m.totalUncompressed) 0,
    numRows := g.numRows, fileOffset := some (Int64.ofNat off),
    totalCompressed := some ((metasAt off g.columns).foldl (fun a m => a + m.totalCompressed) 0) }

theorem writeEncoded_eq (p : PWriter) (g : EncodedRowGroup) :
    p.writeEncoded g = { p.writeBytes (groupBytes g) with
      totalRows := p.totalRows + g.numRows, rowGroups := p.rowGroups ++ [rowGroupAt p.offset g] } := by
  simp only [PWriter.writeEncoded, writeColumns_eq, groupBytes, rowGroupAt, PWriter.writeBytes]

def rowGroupsAt (off : Nat) : List EncodedRowGroup → List RowGroup
  | [] => []
  | g :: gs => rowGroupAt off g :: rowGroupsAt (off + (groupBytes g).length) gs

theorem foldl_writeEncoded (gs : List EncodedRowGroup) : ∀ p : PWriter,
    gs.foldl PWriter.writeEncoded p = { p.writeBytes (gs.flatMap groupBytes) with
      totalRows := gs.foldl (fun a g => a + g.numRows) p.totalRows, rowGroups := p.rowGroups ++ rowGroupsAt p.offset gs } := by
  induction gs with
  | nil => intro p; simp [PWriter.writeBytes, rowGroupsAt]
  | cons g gs ih =>
    intro p
    rw [List.foldl_cons, ih, writeEncoded_eq]
    simp only [PWriter.writeBytes, rowGroupsAt, List.flatMap_cons, List.foldl_cons, List.append_assoc, List.length_append,
      List.singleton_append, Nat.add_assoc]

/-! ### C33 -/

theorem tiled_append {file : List UInt8} {s m e : Nat} {a b} (h : Tiled file s a m) (h' : Tiled file m b e) :
    Tiled file s (a ++ b) e := by
  induction h with
  | nil s => exact h'
  | cons h1 h2 h3 h4 h5 _ ih => exact .cons h1 h2 h3 h4 h5 (ih h')

theorem metaAt_total (c : EncodedColumn) (off : Nat) (h : (chunkBytes c).length < 2 ^ 63) :
    (metaAt c off).totalCompressed.toInt = ((chunkBytes c).length : Int) := by
  simp only [chunkBytes, dictBytes] at h ⊢
  simp only [metaAt, PWriter.writeColumn]
  cases h1 : c.usesDictionary with
  | false => simp only [h1] at h ⊢; rw [Int64.zero_add, List.nil_append, List.length_append]
             exact Int64.toInt_ofNat_of_lt (by simpa using h)
  | true =>
    cases h2 : c.dictHeader with
    | none => simp only [h1, h2] at h ⊢; rw [Int64.zero_add, List.nil_append, List.length_append]
              exact Int64.toInt_ofNat_of_lt (by simpa using h)
    | some x =>
      cases h3 : c.dictContent with
      | none => simp only [h1, h2, h3] at h ⊢; rw [Int64.zero_add, List.nil_append, List.length_append]
                exact Int64.toInt_ofNat_of_lt (by simpa using h)
      | some y =>
        simp only [h1, h2, h3] at h ⊢
        rw [← Int64.ofNat_add]
        simp only [List.length_append] at h ⊢
        exact Int64.toInt_ofNat_of_lt h

theorem metaAt_dataOff (c : EncodedColumn) (off : Nat) (h : off + (chunkBytes c).length < 2 ^ 63) :
    (metaAt c off).dataPageOffset.toInt = ((off + (dictBytes c).length : Nat) : Int) := by
  simp only [chunkBytes, List.length_append] at h
  have : (metaAt c off).dataPageOffset = Int64.ofNat (off + (dictBytes c).length) := by
    simp only [metaAt, PWriter.writeColumn, dictBytes, PWriter.writeBytes]
    cases h1 : c.usesDictionary <;> cases h2 : c.dictHeader <;> cases h3 : c.dictContent <;> simp [Nat.add_assoc]
  rw [this]
  exact Int64.toInt_ofNat_of_lt (by omega)

theorem encoded_dictComplete {env : WEnv} {cs : ColSchema} {col : ArrowColumn} {e : EncodedColumn}
    (h : encodeColumnArrow env cs col = some e) : DictComplete e := by
  simp only [encodeColumnArrow] at h
  cases hv : encodeValues env col with
  | none => simp [hv] at h
  | some v =>
    rw [hv] at h
    simp only [Option.some.injEq] at h
    subst h
    cases hd : v.dict <;> simp [DictComplete]

theorem metaAt_dictOff (c : EncodedColumn) (off : Nat) (h : off < 2 ^ 63) (hd : DictComplete c) :
    (metaAt c off).dictPageOffset.map Int64.toInt = (if c.usesDictionary then some (off : Int) else none) := by
  simp only [metaAt, PWriter.writeColumn]
  cases h1 : c.usesDictionary with
  | false => simp
  | true =>
    obtain ⟨a, b⟩ := hd h1
    obtain ⟨x, hx⟩ := Option.isSome_iff_exists.1 a
    obtain ⟨y, hy⟩ := Option.isSome_iff_exists.1 b
    simp only [hx, hy]
    rw [if_pos trivial, if_pos trivial, Option.map_some]
    exact congrArg some <| Int64.toInt_ofNat_of_lt h

theorem drop_take_prefix {α : Type} (l a b : List α) (s : Nat) (h : l.drop s = a ++ b) : (l.drop s).take a.length = a := by
  rw [h, List.take_left' rfl]

theorem tiled_columns (file : List UInt8) (hl : file.length < 2 ^ 63) (cs : List EncodedColumn) (hd : ∀ c ∈ cs, DictComplete c) :
    ∀ (s : Nat) (tail : List UInt8), s ≤ file.length → file.drop s = cs.flatMap chunkBytes ++ tail →
      Tiled file s ((metasAt s cs).zip cs) (s + (cs.flatMap chunkBytes).length) := by
  induction cs with
  | nil => intro s tail _ _; exact .nil s
  | cons c cs ih =>
    intro s tail hs hf
    have hlen : file.length - s = (chunkBytes c).length + (cs.flatMap chunkBytes).length + tail.length := by
      have := congrArg List.length hf
      simpa [Nat.add_assoc] using this
    have hnext : file.drop (s + (chunkBytes c).length) = cs.flatMap chunkBytes ++ tail := by
      rw [← List.drop_drop, hf, List.flatMap_cons, List.append_assoc, List.drop_left' rfl]
    have hdata : file.drop (s + (dictBytes c).length) = (c.header ++ c.content) ++ (cs.flatMap chunkBytes ++ tail) := by
      rw [← List.drop_drop, hf, List.flatMap_cons, chunkBytes, List.append_assoc, List.append_assoc, List.drop_left' rfl]
    have := ih (fun c hc => hd c (List.mem_cons_of_mem _ hc)) (s + (chunkBytes c).length) tail (by omega) hnext
    rw [Nat.add_assoc] at this
    simp only [metasAt, List.zip_cons_cons, List.flatMap_cons, List.length_append]
    refine .cons (metaAt_total c s (by omega)) (drop_take_prefix _ _ (cs.flatMap chunkBytes ++ tail) _ ?_)
      (metaAt_dictOff c s (by omega) (hd c (by simp))) (metaAt_dataOff c s (by omega)) (drop_take_prefix _ _ _ _ hdata) this
    rw [hf, List.flatMap_cons, List.append_assoc]

theorem recorded_at (off : Nat) (g : EncodedRowGroup) :
    (rowGroupAt off g).columns.filterMap (·.metaData) = metasAt off g.columns := by
  simp only [rowGroupAt]
  induction metasAt off g.columns with
  | nil => rfl
  | cons m ms ih => simp [List.filterMap_cons, ih]

theorem metasAt_length (cs : List EncodedColumn) : ∀ off, (metasAt off cs).length = cs.length := by
  induction cs with
  | nil => intro; rfl
  | cons c cs ih => intro off; simp [metasAt, ih]

theorem tiled_groups (file : List UInt8) (hl : file.length < 2 ^ 63) (gs : List EncodedRowGroup)
    (hd : ∀ g ∈ gs, ∀ c ∈ g.columns, DictComplete c) :
    ∀ (s : Nat) (tail : List UInt8), s ≤ file.length → file.drop s = gs.flatMap groupBytes ++ tail →
      Tiled file s ((recorded (rowGroupsAt s gs)).zip (gs.flatMap (·.columns))) (s + (gs.flatMap groupBytes).length) := by
  induction gs with
  | nil => intro s tail _ _; exact .nil s
  | cons g gs ih =>
    intro s tail hs hf
    have hlen : file.length - s = (groupBytes g).length + (gs.flatMap groupBytes).length + tail.length := by
      have := congrArg List.length hf
      simpa [Nat.add_assoc] using this
    have hnext : file.drop (s + (groupBytes g).length) = gs.flatMap groupBytes ++ tail := by
      rw [← List.drop_drop, hf, List.flatMap_cons, List.append_assoc, List.drop_left' rfl]
    have h2 := ih (fun g hg => hd g (List.mem_cons_of_mem _ hg)) (s + (groupBytes g).length) tail (by omega) hnext
    have h1 := tiled_columns file hl g.columns (hd g (by simp)) s (gs.flatMap groupBytes ++ tail) hs
      (by rw [hf, List.flatMap_cons, List.append_assoc]; rfl)
    have := tiled_append h1 h2
    rw [Nat.add_assoc] at this
    simp only [rowGroupsAt, recorded, List.flatMap_cons, recorded_at, List.length_append]
    rw [List.zip_append (by rw [metasAt_length])]
    exact this

theorem rowGroupsAt_length (gs : List EncodedRowGroup) : ∀ off, (rowGroupsAt off gs).length = gs.length := by
  induction gs with
  | nil => intro; rfl
  | cons g gs ih => intro off; simp [rowGroupsAt, ih]

theorem rowGroupsAt_rows (gs : List EncodedRowGroup) : ∀ off, (rowGroupsAt off gs).map (·.numRows) = gs.map (·.numRows) := by
  induction gs with
  | nil => intro; rfl
  | cons g gs ih => intro off; simp [rowGroupsAt, ih]; rfl

theorem rowGroupsAt_get (gs : List EncodedRowGroup) : ∀ off k (h : k < (rowGroupsAt off gs).length) (h' : k < gs.length),
    ∃ o, (rowGroupsAt off gs)[k] = rowGroupAt o gs[k] := by
  induction gs with
  | nil => intro off k h; simp at *
  | cons g gs ih =>
    intro off k h h'
    cases k with
    | zero => exact ⟨off, rfl⟩
    | succ k =>
      simp only [rowGroupsAt, List.getElem_cons_succ] at h ⊢
      exact ih _ k (by simpa using h) (by simpa using h')

/-- **C33** Whatever encoded row groups are written between `open` and `close` of a fresh writer, the file
is: the magic, the column chunks, the footer, its length in four bytes, the magic; the recorded chunk
extents tile the bytes from 4 up to the footer, in order, each holding exactly the bytes of its chunk;
and the recorded row groups have the recorded numbers of rows. -/
theorem C33_layout (schema : List ColSchema) (gs : List EncodedRowGroup) (hd : ∀ g ∈ gs, ∀ c ∈ g.columns, DictComplete c) :
    let p := gs.foldl PWriter.writeEncoded ({ schema := schema } : PWriter).openFile
    let footer := (p.metadata.write {}).buf
    let file := p.close.file
    file = [80, 65, 82, 49] ++ gs.flatMap (fun g => g.columns.flatMap chunkBytes) ++ footer
        ++ le4 (UInt32.ofNat footer.length) ++ [80, 65, 82, 49] ∧
    p.metadata.rowGroups.length = gs.length ∧ p.metadata.rowGroups.map (·.numRows) = gs.map (·.numRows) ∧
    (∀ k (h : k < p.metadata.rowGroups.length) (h' : k < gs.length),
      p.metadata.rowGroups[k].columns.length = gs[k].columns.length ∧ ∀ c ∈ p.metadata.rowGroups[k].columns, c.metaData.isSome) ∧
    (file.length < 2 ^ 63 →
      Tiled file 4 ((recorded p.metadata.rowGroups).zip (gs.flatMap (·.columns))) (file.length - footer.length - 8)) := by
  intro p footer file
  have hp : p = { ({ schema := schema } : PWriter).openFile.writeBytes (gs.flatMap groupBytes) with
      totalRows := gs.foldl (fun a g => a + g.numRows) 0, rowGroups := rowGroupsAt 4 gs } := by
    show gs.foldl _ _ = _
    rw [foldl_writeEncoded]
    rfl
  have hfile : file = [80, 65, 82, 49] ++ gs.flatMap groupBytes ++ footer ++ le4 (UInt32.ofNat footer.length) ++ [80, 65, 82, 49] := by
    have ho : p.isOpen = true := by rw [hp]; rfl
    have hpf : p.file = [80, 65, 82, 49] ++ gs.flatMap groupBytes := by rw [hp]; rfl
    show p.close.file = _
    simp only [PWriter.close]
    rw [if_pos ho]
    simp only [PWriter.writeBytes, hpf]
    rfl
  have hrg : p.metadata.rowGroups = rowGroupsAt 4 gs := by rw [hp]; rfl
  refine ⟨hfile, ?_, ?_, ?_, ?_⟩
  · rw [hrg, rowGroupsAt_length]
  · rw [hrg, rowGroupsAt_rows]
  · rw [hrg]
    intro k h h'
    obtain ⟨o, ho⟩ := rowGroupsAt_get gs 4 k h h'
    rw [ho]
    simp [rowGroupAt, metasAt_length]
  · intro hl
    have h12 : footer.length + 8 ≤ file.length := by rw [hfile]; simp [le4]; omega
    have h4 : (4 : Nat) ≤ file.length := by omega
    have := tiled_groups file hl gs hd 4 (footer ++ le4 (UInt32.ofNat footer.length) ++ [80, 65, 82, 49]) h4
      (by rw [hfile]; simp)
    rw [hrg]
    convert this using 1
    have := congrArg List.length hfile
    simp only [List.length_append, List.length_cons, List.length_nil] at this
    have h5 : (le4 (UInt32.ofNat footer.length)).length = 4 := by simp [le4]
    omega

/-! ### C53: the round trip of a whole file -/

/-- What a reader knows of a schema column. -/
def schemaLeaf (c : ColSchema) : List UInt8 × Int × Bool := (c.name, (toParquetType c.type).toInt, c.nullable)

inductive EncOk (dec : Int → List UInt8 → Option (List UInt8)) (n : Nat) :
    List ColSchema → List EncodedColumn → List (List (Option Val)) → Prop
  | nil : EncOk dec n [] [] []
  | cons {cs e rows css es rowss} : e.name = cs.name → e.dataType = stored cs.type → rows.length = n → DictComplete e → e.statistics = none →
      (∀ (file : List UInt8) (off : Nat) (tail : List UInt8), file.drop off = chunkBytes e ++ tail →
        off + (chunkBytes e).length < 2 ^ 63 →
        readChunk dec file cs.nullable (columnMetaData (metaAt e off)) = some rows) →
      EncOk dec n css es rowss → EncOk dec n (cs :: css) (e :: es) (rows :: rowss)

theorem colsOk_encode (env : WEnv) (dec : Int → List UInt8 → Option (List UInt8)) (hc : CodecOk env dec)
    (hlz : env.compression ≠ .lz4) {n : Nat} (hn : n < 2 ^ 31) {css : List ColSchema} {cols : List ArrowColumn}
    {rowss : List (List (Option Val))} (h : ColsOk env n css cols rowss) :
    ∃ es, (css.zip cols).mapM (fun p => encodeColumnArrow env p.1 p.2) = some es ∧ EncOk dec n css es rowss := by
  induction h with
  | nil => exact ⟨[], rfl, .nil⟩
  | @cons cs col rows css cols rowss h1 _ ih =>
    obtain ⟨es, he, hok⟩ := ih
    obtain ⟨e, e1, e2, e3, e4, e5⟩ := chunk_reads env dec hc hlz cs h1.hist (by rw [h1.size]; exact hn) h1.nulls h1.small h1.agree
    refine ⟨e :: es, ?_, .cons e2 (by rw [e3, h1.type]) h1.size (encoded_dictComplete e1) e4 e5 hok⟩
    rw [List.zip_cons_cons, List.mapM_cons]
    simp only [e1, he]
    rfl

theorem field_chunk_3 (m : ColumnMetaData) : field (columnChunk { metaData := some m }) 3 = some (columnMetaData m) := rfl

theorem readColumns_ok (dec : Int → List UInt8 → Option (List UInt8)) (file : List UInt8) (hfl : file.length < 2 ^ 63) {n : Nat}
    {css : List ColSchema} {es : List EncodedColumn} {rowss : List (List (Option Val))} (h : EncOk dec n css es rowss) :
    ∀ (off : Nat) (tail : List UInt8), off ≤ file.length → file.drop off = es.flatMap chunkBytes ++ tail →
    ((css.map schemaLeaf).zip (((metasAt off es).map (fun m => columnChunk { metaData := some m })))).mapM
      (fun (lc : (List UInt8 × Int × Bool) × TVal) => do
        let md ← field lc.2 3
        if int md 1 ≠ some lc.1.2.1 then none
        let path ← (field md 3).bind asList
        if path.map asBin ≠ [some lc.1.1] then none
        let rows ← readChunk dec file lc.1.2.2 md
        if rows.length ≠ n then none
        return rows) = some rowss := by
  induction h with
  | nil => intro off tail _ _; rfl
  | @cons cs e rows css es rowss h1 h2 h3 _ _ h4 _ ih =>
    intro off tail hoff hf
    have hlen : file.length - off = (chunkBytes e).length + (es.flatMap chunkBytes).length + tail.length := by
      have := congrArg List.length hf
      simpa [Nat.add_assoc] using this
    have hf1 : file.drop off = chunkBytes e ++ (es.flatMap chunkBytes ++ tail) := by
      rw [hf, List.flatMap_cons, List.append_assoc]
    have hnext : file.drop (off + (chunkBytes e).length) = es.flatMap chunkBytes ++ tail := by
      rw [← List.drop_drop, hf1, List.drop_left' rfl]
    have ih' := ih (off + (chunkBytes e).length) tail (by omega) hnext
    have hr := h4 file off _ hf1 (by omega)
    simp only [metasAt, List.map_cons, List.zip_cons_cons, List.mapM_cons]
    rw [ih']
    have k1 : int (columnMetaData (metaAt e off)) 1 = some (toParquetType e.dataType).toInt := rfl
    have k3 : field (columnMetaData (metaAt e off)) 3 = some (.list 8 [.bin e.name]) := rfl
    have hst : toParquetType (stored cs.type) = toParquetType cs.type := by cases cs.type <;> rfl
    simp only [field_chunk_3, schemaLeaf, Option.bind_eq_bind, Option.bind_some, k1, k3, asList, h1, h2, hst, hr, h3]
    simp [asBin]

theorem readGroup_ok (dec : Int → List UInt8 → Option (List UInt8)) (file : List UInt8) (hfl : file.length < 2 ^ 63) {n : Nat}
    (hn : n < 2 ^ 31) {css : List ColSchema} {g : EncodedRowGroup} {rowss : List (List (Option Val))}
    (h : EncOk dec n css g.columns rowss) (hg : g.numRows = Int64.ofNat n)
    (off : Nat) (tail : List UInt8) (hoff : off ≤ file.length) (hf : file.drop off = groupBytes g ++ tail) :
    readGroup dec file (css.map schemaLeaf) (rowGroup (rowGroupAt off g)) = some ⟨n, rowss⟩ := by
  have hl : css.length = g.columns.length := by
    clear hf hg
    generalize g.columns = es at h
    induction h with
    | nil => rfl
    | cons _ _ _ _ _ _ _ ih => simp [ih]
  have k3 : nat (rowGroup (rowGroupAt off g)) 3 = some n := nat_of_int (by
    show some (g.numRows).toInt = _
    rw [hg, Int64.toInt_ofNat_of_lt (by omega)])
  have k1 : field (rowGroup (rowGroupAt off g)) 1
      = some (.list 12 ((metasAt off g.columns).map (fun m => columnChunk { metaData := some m }))) := by
    show some (TVal.list 12 _) = _
    simp only [rowGroupAt, List.map_map]
    rfl
  have := readColumns_ok dec file hfl h off tail hoff hf
  simp only [readGroup, k3, k1, Option.bind_eq_bind, Option.bind_some, asList]
  rw [if_neg (by simp [metasAt_length, hl])]
  simp only [Option.bind_eq_bind] at this
  simp only [Option.pure_def] at this ⊢
  rw [this]
  rfl

inductive GroupsOk (dec : Int → List UInt8 → Option (List UInt8)) (schema : List ColSchema) :
    List EncodedRowGroup → List TableGroup → Prop
  | nil : GroupsOk dec schema [] []
  | cons {g t gs ts} : t.numRows < 2 ^ 31 → EncOk dec t.numRows schema g.columns t.cells → g.numRows = Int64.ofNat t.numRows →
      GroupsOk dec schema gs ts → GroupsOk dec schema (g :: gs) (t :: ts)

theorem encOk_length {dec : Int → List UInt8 → Option (List UInt8)} {n : Nat} {css es rowss} (h : EncOk dec n css es rowss) :
    css.length = es.length := by
  induction h with
  | nil => rfl
  | cons _ _ _ _ _ _ _ ih => simp [ih]

theorem colsOk_length {env : WEnv} {n : Nat} {css cols rowss} (h : ColsOk env n css cols rowss) : css.length = cols.length := by
  induction h with
  | nil => rfl
  | cons _ _ ih => simp [ih]

theorem write_ok (env : WEnv) (dec : Int → List UInt8 → Option (List UInt8)) (hc : CodecOk env dec)
    (hlz : env.compression ≠ .lz4) {schema : List ColSchema} (hne : schema ≠ []) (t : TableGroup) (hn : t.numRows < 2 ^ 31)
    (h : ColsOk env t.numRows schema t.cols t.cells) :
    ∃ g, (∀ p : PWriter, p.schema = schema → p.write env t.cols = some (p.writeEncoded g)) ∧
      EncOk dec t.numRows schema g.columns t.cells ∧ g.numRows = Int64.ofNat t.numRows := by
  obtain ⟨es, he, hok⟩ := colsOk_encode env dec hc hlz hn h
  have hl := colsOk_length h
  have hcols : t.cols ≠ [] := by
    intro hz; rw [hz] at hl; exact hne (List.length_eq_zero_iff.1 hl)
  refine ⟨⟨es, match t.cols with | [] => 0 | c :: _ => Int64.ofNat c.size⟩, ?_, hok, ?_⟩
  · intro p hp
    simp only [PWriter.write, encodeRowGroup, hp]
    rw [if_neg (by simpa using hcols), if_neg (by omega), he]
    rfl
  · dsimp only
    cases hct : t.cols with
    | nil => exact absurd hct hcols
    | cons c cs =>
      dsimp only
      rw [hct] at h
      generalize hcells : t.cells = cells at h
      cases h with
      | cons h1 _ => rw [(colHist_basic h1.hist).2, h1.size]

theorem writeAll_ok (env : WEnv) (dec : Int → List UInt8 → Option (List UInt8)) (hc : CodecOk env dec)
    (hlz : env.compression ≠ .lz4) {schema : List ColSchema} (hne : schema ≠ []) (ts : List TableGroup)
    (h : ∀ t ∈ ts, t.numRows < 2 ^ 31 ∧ ColsOk env t.numRows schema t.cols t.cells) :
    ∃ gs, (∀ p : PWriter, p.schema = schema → writeAll env p (ts.map (·.cols)) = some (gs.foldl PWriter.writeEncoded p)) ∧
      GroupsOk dec schema gs ts := by
  induction ts with
  | nil => exact ⟨[], fun _ _ => rfl, .nil⟩
  | cons t ts ih =>
    obtain ⟨gs, hg, hok⟩ := ih (fun t ht => h t (List.mem_cons_of_mem _ ht))
    obtain ⟨hn, hco⟩ := h t (by simp)
    obtain ⟨g, h1, h2, h3⟩ := write_ok env dec hc hlz hne t hn hco
    refine ⟨g :: gs, ?_, .cons hn h2 h3 hok⟩
    intro p hp
    simp only [List.map_cons, writeAll, h1 p hp, Option.bind_some, List.foldl_cons]
    apply hg
    rw [writeEncoded_eq]; exact hp

theorem readGroups_ok (dec : Int → List UInt8 → Option (List UInt8)) (file : List UInt8) (hfl : file.length < 2 ^ 63)
    {schema : List ColSchema} {gs : List EncodedRowGroup} {ts : List TableGroup} (h : GroupsOk dec schema gs ts) :
    ∀ (off : Nat) (tail : List UInt8), off ≤ file.length → file.drop off = gs.flatMap groupBytes ++ tail →
    ((rowGroupsAt off gs).map rowGroup).mapM (readGroup dec file (schema.map schemaLeaf))
      = some (ts.map (fun t => ⟨t.numRows, t.cells⟩)) := by
  induction h with
  | nil => intro off tail _ _; rfl
  | @cons g t gs ts h1 h2 h3 _ ih =>
    intro off tail hoff hf
    have hlen : file.length - off = (groupBytes g).length + (gs.flatMap groupBytes).length + tail.length := by
      have := congrArg List.length hf
      simpa [Nat.add_assoc] using this
    have hf1 : file.drop off = groupBytes g ++ (gs.flatMap groupBytes ++ tail) := by
      rw [hf, List.flatMap_cons, List.append_assoc]
    have hnext : file.drop (off + (groupBytes g).length) = gs.flatMap groupBytes ++ tail := by
      rw [← List.drop_drop, hf1, List.drop_left' rfl]
    have hr := readGroup_ok dec file hfl h1 h2 h3 off _ hoff hf1
    simp only [rowGroupsAt, List.map_cons, List.mapM_cons]
    rw [ih _ tail (by omega) hnext, hr]
    rfl

theorem leaves_ok (schema : List ColSchema) :
    ((PWriter.schemaElements schema).tail.map schemaElement).mapM leaf = some (schema.map schemaLeaf) := by
  simp only [PWriter.schemaElements, List.tail_cons]
  induction schema with
  | nil => rfl
  | cons c cs ih =>
    simp only [List.map_cons, List.mapM_cons]
    rw [ih]
    have : leaf (schemaElement ⟨some (toParquetType c.type), none, some (if c.nullable = true then 1 else 0), c.name, none,
        if c.type = .string then some 0 else none⟩) = some (schemaLeaf c) := by
      cases hn : c.nullable <;> simp [leaf, schemaElement, field, int, fld, asBin, asInt, i32, schemaLeaf, hn, List.lookup]
    rw [this]
    rfl

theorem metasAt_ok {dec : Int → List UInt8 → Option (List UInt8)} {n : Nat} {css : List ColSchema} {es : List EncodedColumn} {rowss}
    (h : EncOk dec n css es rowss) (hnm : ∀ c ∈ css, c.name.length < 2 ^ 64) : ∀ off, ∀ m ∈ metasAt off es, m.Ok := by
  induction h with
  | nil => intro off m hm; simp [metasAt] at hm
  | @cons cs e rows css es rowss h1 h2 h3 hd hst h4 _ ih =>
    intro off m hm
    simp only [metasAt, List.mem_cons] at hm
    rcases hm with rfl | hm
    · refine ⟨?_, by simp [metaAt, PWriter.writeColumn], ?_, ?_⟩
      · simp only [metaAt, PWriter.writeColumn]; split <;> simp
      · intro p hp
        simp only [metaAt, PWriter.writeColumn, List.mem_singleton] at hp
        rw [hp, h1]; exact hnm cs (by simp)
      · intro s hs
        simp only [metaAt, PWriter.writeColumn, hst] at hs
        cases hs
    · exact ih (fun c hc => hnm c (List.mem_cons_of_mem _ hc)) _ m hm

theorem rowGroupsAt_ok {dec : Int → List UInt8 → Option (List UInt8)} {schema : List ColSchema} {gs : List EncodedRowGroup}
    {ts : List TableGroup} (h : GroupsOk dec schema gs ts) (hs : schema.length < 2 ^ 31)
    (hnm : ∀ c ∈ schema, c.name.length < 2 ^ 64) : ∀ off, ∀ g ∈ rowGroupsAt off gs, g.Ok := by
  induction h with
  | nil => intro off m hm; simp [rowGroupsAt] at hm
  | @cons g t gs ts h1 h2 h3 _ ih =>
    intro off r hr
    simp only [rowGroupsAt, List.mem_cons] at hr
    rcases hr with rfl | hr
    · refine ⟨?_, ?_⟩
      · simp only [rowGroupAt, List.length_map, metasAt_length, ← encOk_length h2]; exact hs
      · intro c hc
        simp only [rowGroupAt, List.mem_map] at hc
        obtain ⟨m, hm, rfl⟩ := hc
        refine ⟨by intro s hs; simp at hs, ?_⟩
        intro m' hm'
        simp only [Option.some.injEq] at hm'
        subst hm'
        exact metasAt_ok h2 hnm off m hm
    · exact ih _ r hr

theorem groups_total {dec : Int → List UInt8 → Option (List UInt8)} {schema : List ColSchema} {gs : List EncodedRowGroup}
    {ts : List TableGroup} (h : GroupsOk dec schema gs ts) : ∀ a : Nat,
    gs.foldl (fun a g => a + g.numRows) (Int64.ofNat a) = Int64.ofNat (a + (ts.map (·.numRows)).sum) := by
  induction h with
  | nil => intro a; simp
  | @cons g t gs ts h1 h2 h3 _ ih =>
    intro a
    rw [List.foldl_cons, h3, ← Int64.ofNat_add, ih, List.map_cons, List.sum_cons, Nat.add_assoc]

theorem groupsOk_length {dec : Int → List UInt8 → Option (List UInt8)} {schema : List ColSchema} {gs : List EncodedRowGroup}
    {ts : List TableGroup} (h : GroupsOk dec schema gs ts) : gs.length = ts.length := by
  induction h with
  | nil => rfl
  | cons _ _ _ _ ih => simp [ih]

theorem metadata_parses {dec : Int → List UInt8 → Option (List UInt8)} {schema : List ColSchema} {gs : List EncodedRowGroup}
    {ts : List TableGroup} (h : GroupsOk dec schema gs ts) (hs : schema.length + 1 < 2 ^ 31) (hts : ts.length < 2 ^ 31)
    (hnm : ∀ c ∈ schema, c.name.length < 2 ^ 64) (p : PWriter) (hsch : p.schema = schema) (hrg : p.rowGroups = rowGroupsAt 4 gs) :
    parse (p.metadata.write {}).buf = some (fileMetaData p.metadata, []) := by
  have hok : p.metadata.Ok := by
    refine ⟨?_, ?_, ?_, ?_, ?_, ?_, ?_⟩
    · simp only [PWriter.metadata, PWriter.schemaElements, hsch, List.length_cons, List.length_map]; exact hs
    · intro e he
      simp only [PWriter.metadata, PWriter.schemaElements, hsch, List.mem_cons, List.mem_map] at he
      rcases he with rfl | ⟨c, hc, rfl⟩
      · show "schema".toUTF8.toList.length < _
        decide +kernel
      · exact hnm c hc
    · simp only [PWriter.metadata, hrg, rowGroupsAt_length, groupsOk_length h]; exact hts
    · simp only [PWriter.metadata, hrg]; exact rowGroupsAt_ok h (by omega) hnm 4
    · intro kvs hk; simp [PWriter.metadata] at hk
    · intro b hb
      simp only [PWriter.metadata, Option.some.injEq] at hb
      subst hb
      decide +kernel
    · intro k hk
      simp only [PWriter.metadata, Option.some.injEq, hsch] at hk
      omega
  obtain ⟨bs, e, hp⟩ := C32_file_metadata p.metadata hok {} []
  rw [List.append_nil] at hp
  rw [e]; exact hp

theorem drop_eq_suffix {α : Type} {l a b : List α} (h : l = a ++ b) {n : Nat} (hn : n = a.length) : l.drop n = b := by
  rw [h, hn, List.drop_left' rfl]

theorem sum_lt_of_forall (ts : List TableGroup) (h : ∀ t ∈ ts, t.numRows < 2 ^ 31) : (ts.map (·.numRows)).sum ≤ ts.length * 2 ^ 31 := by
  induction ts with
  | nil => simp
  | cons t ts ih =>
    have := ih (fun t ht => h t (List.mem_cons_of_mem _ ht))
    have := h t (by simp)
    simp only [List.map_cons, List.sum_cons, List.length_cons]
    omega

/-- **C53** A table written with one `write` call per row group and closed, read by an independent
Parquet reader, gives back the schema and every row group with every cell, nulls included: for every
schema, every history of appends and merges in the builders, every row group sequence, every
compressor.  Sizes: at most 2^31 - 2 columns and 2^31 - 1 row groups and rows per group, pages below
2 GiB, footer below 4 GiB; `LZ4` and chunks whose two pages disagree about compression are excluded
(see C35). -/
theorem C53_file_roundtrip (env : WEnv) (dec : Int → List UInt8 → Option (List UInt8)) (hc : CodecOk env dec)
    (hlz : env.compression ≠ .lz4) (schema : List ColSchema) (hne : schema ≠ []) (hs : schema.length + 1 < 2 ^ 31)
    (hnm : ∀ c ∈ schema, c.name.length < 2 ^ 64) (ts : List TableGroup) (hts : ts.length < 2 ^ 31)
    (h : ∀ t ∈ ts, t.numRows < 2 ^ 31 ∧ ColsOk env t.numRows schema t.cols t.cells) :
    ∃ p, writeAll env ({ schema := schema } : PWriter).openFile (ts.map (·.cols)) = some p ∧
      ((p.metadata.write {}).buf.length < 2 ^ 32 → p.close.file.length < 2 ^ 63 →
        readFile dec p.close.file = some (schema.map (fun c => (c.name, (toParquetType c.type).toInt, c.nullable)),
          ts.map (fun t => ⟨t.numRows, t.cells⟩))) := by
  obtain ⟨gs, hw, hok⟩ := writeAll_ok env dec hc hlz hne ts h
  refine ⟨_, hw _ rfl, ?_⟩
  intro hfoot hflen
  have hp : gs.foldl PWriter.writeEncoded ({ schema := schema } : PWriter).openFile
      = { ({ schema := schema } : PWriter).openFile.writeBytes (gs.flatMap groupBytes) with
          totalRows := gs.foldl (fun a g => a + g.numRows) 0, rowGroups := rowGroupsAt 4 gs } := by
    rw [foldl_writeEncoded]; rfl
  generalize hpp : gs.foldl PWriter.writeEncoded ({ schema := schema } : PWriter).openFile = p at *
  have hparse := metadata_parses hok hs hts hnm p (by rw [hp]; rfl) (by rw [hp])
  have hfile : p.close.file = [80, 65, 82, 49] ++ (gs.flatMap groupBytes ++ ((p.metadata.write {}).buf
      ++ (le4 (UInt32.ofNat (p.metadata.write {}).buf.length) ++ [80, 65, 82, 49]))) := by
    have ho : p.isOpen = true := by rw [hp]; rfl
    have hpf : p.file = [80, 65, 82, 49] ++ gs.flatMap groupBytes := by rw [hp]; rfl
    simp only [PWriter.close]
    rw [if_pos ho]
    simp only [PWriter.writeBytes, hpf, PWriter.magic, List.append_assoc]
  have htot : p.totalRows = Int64.ofNat ((ts.map (·.numRows)).sum) := by
    rw [hp]
    have := groups_total hok 0
    rw [Nat.zero_add] at this
    exact this
  generalize hfb : (p.metadata.write {}).buf = footer at *
  generalize hff : p.close.file = file at *
  have h4 : (le4 (UInt32.ofNat footer.length)).length = 4 := rfl
  have hlen : file.length = 4 + ((gs.flatMap groupBytes).length + (footer.length + (4 + 4))) := by
    rw [hfile]; simp only [List.length_append, List.length_cons, List.length_nil, h4]
  have hd1 : file.drop (file.length - 4) = [80, 65, 82, 49] := by
    have e : file = ([80, 65, 82, 49] ++ (gs.flatMap groupBytes ++ (footer ++ le4 (UInt32.ofNat footer.length)))) ++ [80, 65, 82, 49] := by
      rw [hfile]; simp
    exact drop_eq_suffix e (by simp only [List.length_append, List.length_cons, List.length_nil, h4]; omega)
  have hd2 : (file.drop (file.length - 8)).take 4 = le4 (UInt32.ofNat footer.length) := by
    have e : file = ([80, 65, 82, 49] ++ (gs.flatMap groupBytes ++ footer)) ++ (le4 (UInt32.ofNat footer.length) ++ [80, 65, 82, 49]) := by
      rw [hfile]; simp
    rw [drop_eq_suffix e (by simp only [List.length_append, List.length_cons, List.length_nil, h4]; omega), List.take_left' h4]
  have hd3 : (file.drop (file.length - 8 - footer.length)).take footer.length = footer := by
    have e : file = ([80, 65, 82, 49] ++ gs.flatMap groupBytes) ++ (footer ++ (le4 (UInt32.ofNat footer.length) ++ [80, 65, 82, 49])) := by
      rw [hfile]; simp
    rw [drop_eq_suffix e (by simp only [List.length_append, List.length_cons, List.length_nil, h4]; omega), List.take_left' rfl]
  have hle : leNat (le4 (UInt32.ofNat footer.length)) = footer.length := by
    rw [leNat_le4, UInt32.toNat_ofNat_of_lt' (by simpa using hfoot)]
  have ht4 : file.take 4 = [80, 65, 82, 49] := by rw [hfile]; rfl
  have hgr := readGroups_ok dec file hflen hok 4 (footer ++ (le4 (UInt32.ofNat footer.length) ++ [80, 65, 82, 49])) (by omega)
    (by rw [hfile]; rfl)
  have k2 : field (fileMetaData p.metadata) 2 = some (.list 12 ((PWriter.schemaElements schema).map schemaElement)) := by
    rw [hp]; rfl
  have k4 : field (fileMetaData p.metadata) 4 = some (.list 12 ((rowGroupsAt 4 gs).map rowGroup)) := by rw [hp]; rfl
  have hsum : (ts.map (·.numRows)).sum < 2 ^ 63 := by
    have := sum_lt_of_forall ts (fun t ht => (h t ht).1)
    omega
  have k3 : nat (fileMetaData p.metadata) 3 = some (ts.map (·.numRows)).sum := nat_of_int (by
    show some p.totalRows.toInt = _
    rw [htot, Int64.toInt_ofNat_of_lt (by omega)])
  simp only [readFile]
  rw [if_neg (by rw [ht4, hd1]; simp; omega), hd2, hle, if_neg (by omega), hd3, hparse]
  simp only [Option.bind_eq_bind, Option.bind_some, k2, k4, k3, asList]
  rw [if_neg (by simp)]
  have k5 : nat (schemaElement ⟨none, none, none, "schema".toUTF8.toList, some (Int32.ofNat schema.length), none⟩) 5 = some schema.length :=
    nat_of_int (by
      show some (Int32.ofNat schema.length).toInt = _
      rw [Int32.toInt_ofNat_of_lt (by omega)])
  have hlv := leaves_ok schema
  simp only [PWriter.schemaElements, List.tail_cons] at hlv
  simp only [PWriter.schemaElements, List.map_cons]
  rw [k5, if_neg (by simp), hlv]
  simp only [Option.bind_some]
  rw [hgr]
  simp only [Option.bind_some]
  rw [if_neg (by simp [Function.comp_def])]
  rfl

/-! ### C35 -/

theorem encodeValues_noDict (env : WEnv) (col : ArrowColumn) (h : env.enableDictionary = false) (v : ValuesEnc)
    (hv : encodeValues env col = some v) : v.dict = none := by
  cases col <;> simp only [encodeValues, h] at hv
  all_goals try simp only [Bool.false_eq_true, false_and, if_false] at hv
  all_goals
    rw [Option.map_eq_some_iff] at hv
    obtain ⟨_, _, rfl⟩ := hv
    rfl

/-- With the default options (no dictionary), and without compression, the two decisions always agree. -/
theorem pagesAgree_of_options (env : WEnv) (cs : ColSchema) (col : ArrowColumn)
    (h : env.enableDictionary = false ∨ env.compression = .none) : PagesAgree env cs col := by
  rcases h with h | h
  · intro v hv hd
    exact absurd (encodeValues_noDict env col h v hv) hd
  · intro v hv hd
    simp [compressPage, h]

/-- **C35** (LZ4 and disagreeing page decisions excluded, see the two refutations below)  Each page of an
encoded column chunk decodes with the codec recorded for the chunk, to exactly the recorded uncompressed
size: a reader positioned at the page gets the page's uncompressed bytes. -/
theorem C35_codec_partial (env : WEnv) (dec : Int → List UInt8 → Option (List UInt8)) (hc : CodecOk env dec)
    (hlz : env.compression ≠ .lz4) (cs : ColSchema) {col : ArrowColumn} {rows : List (Option Val)} (h : ColHist col rows)
    (hlen : rows.length < 2 ^ 31) (hsm : PagesSmall env cs col) (hag : PagesAgree env cs col) :
    ∃ e, encodeColumnArrow env cs col = some e ∧
      (∀ tail, ∃ page, readPage dec e.codec.toInt (e.header ++ e.content ++ tail) 0 = some page ∧
        page.body = rawDataPage env cs col ∧ page.size = e.header.length + e.content.length) ∧
      (∀ dh dc, e.usesDictionary = true → e.dictHeader = some dh → e.dictContent = some dc →
        ∀ tail, ∃ page, readPage dec e.codec.toInt (dh ++ dc ++ tail) 0 = some page ∧
          page.body = rawDictPage col ∧ page.size = dh.length + dc.length) := by
  obtain ⟨v, dict, hev, hdok, _, _⟩ := encodeValues_ok env h hlen
  have hraw : rawDataPage env cs col
      = (if cs.nullable then encodeDefLevelsArrow col.nulls 1 col.nulls.nullCountFast else []) ++ v.bytes := by
    simp [rawDataPage, hev]
  obtain ⟨s1, s2, s3, s4⟩ := compressPage_spec env dec hc _ hsm.1
  generalize hcp : compressPage env (rawDataPage env cs col) = cp at s1 s2 s3 s4
  have hcodec : ∀ (k : Bool) (content raw : List UInt8), (k = false → content = raw) →
      (k = true → env.compression ≠ .none ∧ dec (producedFormat env.compression) content = some raw) →
      Reads dec (if k then toParquetCodec env.compression else 0).toInt content raw := by
    intro k content raw h1 h2
    cases k with
    | false => left; exact ⟨rfl, h1 rfl⟩
    | true =>
      obtain ⟨a, b⟩ := h2 rfl
      right
      rw [if_pos rfl, toParquetCodec_format _ hlz]
      exact ⟨producedFormat_ne _ a, b⟩
  obtain ⟨dp, hdp⟩ : ∃ dp : DataPageHeader, dp = ⟨Int32.ofNat col.size, v.encoding, 3, 3, none⟩ := ⟨_, rfl⟩
  obtain ⟨hdr, hhdr⟩ : ∃ hdr : PageHeader, hdr = ⟨0, cp.1, cp.2.1, none, some dp, none⟩ := ⟨_, rfl⟩
  have hok : hdr.Ok := by subst hhdr hdp; intro d hd; simp at hd; subst hd; intro s hs; simp at hs
  obtain ⟨e, he⟩ : ∃ e : EncodedColumn, e =
      { header := (hdr.write {}).buf, content := cp.2.2.1, numValues := Int64.ofNat col.size,
        nullCount := Int64.ofNat col.nulls.nullCountFast, uncompressed := cp.1.toInt64, compressed := cp.2.1.toInt64,
        codec := if cp.2.2.2 then toParquetCodec env.compression else 0,
        dataType := col.type, name := cs.name, isNullable := cs.nullable,
        dictHeader := v.dict.map (·.1), dictContent := v.dict.map (·.2.1), usesDictionary := v.dict.isSome,
        dictUncompressed := (v.dict.map (·.2.2)).getD 0 } := ⟨_, rfl⟩
  have henc : encodeColumnArrow env cs col = some e := by
    simp only [encodeColumnArrow, hev]
    rw [← hraw, hcp, he, hhdr, hdp]
  have e1 : e.header = (hdr.write {}).buf := by rw [he]
  have e2 : e.content = cp.2.2.1 := by rw [he]
  have e4 : e.codec = if cp.2.2.2 then toParquetCodec env.compression else 0 := by rw [he]
  have e6 : e.dictHeader = v.dict.map (·.1) := by rw [he]
  have e7 : e.dictContent = v.dict.map (·.2.1) := by rw [he]
  clear he
  have h5 : hdr.uncompressed = cp.1 := by rw [hhdr]
  have h6 : hdr.compressed = cp.2.1 := by rw [hhdr]
  clear hhdr hdp
  refine ⟨e, henc, ?_, ?_⟩
  · intro tail
    refine ⟨_, readPage_ok dec e.codec.toInt _ 0 hdr e.content (rawDataPage env cs col) tail hok
      (by rw [e1, List.drop_zero, List.append_assoc]) (by rw [h5]; exact s1) (by rw [h6, e2]; exact s2)
      (by rw [e4, e2]; exact hcodec _ _ _ s3 s4), rfl, by rw [e1]⟩
  · intro dh dc _ hdh hdc tail
    rw [e6] at hdh
    rw [e7] at hdc
    cases hvd : v.dict with
    | none => rw [hvd] at hdh; simp at hdh
    | some d =>
      obtain ⟨dh', dc', du⟩ := d
      rw [hvd] at hdh hdc
      simp only [Option.map_some, Option.some.injEq] at hdh hdc
      subst hdh hdc
      cases dict with
      | none => simp [DictOk, hvd] at hdok
      | some vals =>
      simp only [DictOk, hvd] at hdok
      obtain ⟨_, q2, _, q4, _⟩ := hdok
      obtain ⟨d1, d2, d3, d4⟩ := compressPage_spec env dec hc _ hsm.2
      have hagree := hag v hev (by simp [hvd])
      rw [hcp] at hagree
      generalize hcd : compressPage env (rawDictPage col) = cd at d1 d2 d3 d4 hagree q2 q4
      obtain ⟨dhdr, hdhdr⟩ : ∃ dhdr : PageHeader, dhdr = ⟨2, cd.1, cd.2.1, none, none, some ⟨Int32.ofNat vals.length, 0, none⟩⟩ :=
        ⟨_, rfl⟩
      have hdok2 : dhdr.Ok := by rw [hdhdr]; intro d hd; simp at hd
      refine ⟨_, readPage_ok dec e.codec.toInt _ 0 dhdr dc' (rawDictPage col) tail hdok2
        (by rw [q4, hdhdr, List.drop_zero, List.append_assoc]) (by rw [hdhdr]; exact d1) (by rw [hdhdr, q2]; exact d2)
        (by rw [e4, q2, ← hagree]; exact hcodec _ _ _ d3 d4), rfl, by rw [q4, hdhdr]⟩

/-! Refutations of the full C35. -/

instance decLeaves : DecidableEq (List (List UInt8 × Int × Bool)) := inferInstance
instance decGroups : DecidableEq (List Group) := inferInstance
instance decTable : DecidableEq (List (List UInt8 × Int × Bool) × List Group) := inferInstance
instance decRead : DecidableEq (Option (List (List UInt8 × Int × Bool) × List Group)) := inferInstance

/-- A column of four equal strings of 20 bytes. -/
def fourStrings : StrColumn := [1, 2, 3, 4].foldl (fun c (_ : Nat) => c.append (List.replicate 20 97)) {}

/-- A compressor that shrinks the dictionary page of `fourStrings` and nothing else. -/
def dictOnlyEnv : WEnv where
  compression := .zstd
  enableDictionary := true
  compress := fun _ raw => if raw = rawDictPage (.string fourStrings) then [42] else raw
  ratioLt := fun _ => true

def dictOnlyDec : Int → List UInt8 → Option (List UInt8) := fun k bs =>
  if k = 6 ∧ bs = [42] then some (rawDictPage (.string fourStrings)) else none

/-- **C35 refuted (1)** A conforming compressor that shrinks the dictionary page but not the data page:
the chunk is recorded as uncompressed although its dictionary page is compressed, and the file cannot be
read. -/
theorem C35_dictionary_codec_refuted :
    CodecOk dictOnlyEnv dictOnlyDec ∧
    ∃ e, encodeColumnArrow dictOnlyEnv { name := [120], type := .string } (.string fourStrings) = some e ∧
      e.codec = 0 ∧ e.dictContent = some [42] ∧ e.content = rawDataPage dictOnlyEnv { name := [120], type := .string } (.string fourStrings) ∧
      ((writeAll dictOnlyEnv ({ schema := [{ name := [120], type := .string }] } : PWriter).openFile [[.string fourStrings]]).map
        (fun p => readFile dictOnlyDec p.close.file)) = some none := by
  refine ⟨?_, ?_⟩
  · intro raw _ hr
    simp only [dictOnlyEnv] at hr ⊢
    by_cases h : raw = rawDictPage (.string fourStrings)
    · rw [if_pos h]
      refine ⟨by simp, ?_⟩
      simp only [dictOnlyDec, producedFormat]
      rw [if_pos (by decide), h]
    · rw [if_neg h] at hr; omega
  · refine ⟨(encodeColumnArrow dictOnlyEnv { name := [120], type := .string } (.string fourStrings)).get (by decide +kernel), ?_, ?_, ?_, ?_, ?_⟩
    · rw [Option.some_get]
    · decide +kernel
    · decide +kernel
    · decide +kernel
    · decide +kernel

/-- **C35 refuted (2)** With LZ4, a page kept compressed is always recorded under a codec number that is
not the one of the produced format. -/
theorem C35_lz4_refuted (env : WEnv) (hlz : env.compression = .lz4) (cs : ColSchema) (col : ArrowColumn) (e : EncodedColumn)
    (he : encodeColumnArrow env cs col = some e) (hk : (env.compress .lz4 (rawDataPage env cs col)).length < (rawDataPage env cs col).length) :
    e.codec.toInt = 5 ∧ producedFormat env.compression = 7 := by
  refine ⟨?_, by rw [hlz]; rfl⟩
  simp only [encodeColumnArrow] at he
  cases hv : encodeValues env col with
  | none => simp [hv] at he
  | some v =>
    have hraw : rawDataPage env cs col
        = (if cs.nullable then encodeDefLevelsArrow col.nulls 1 col.nulls.nullCountFast else []) ++ v.bytes := by
      simp [rawDataPage, hv]
    rw [hv] at he
    simp only [Option.some.injEq] at he
    subst he
    rw [← hraw]
    simp only [compressPage, hlz]
    rw [if_pos (show Compression.lz4 ≠ Compression.none by decide), if_pos hk]
    rfl

/-! Non-vacuity: a table with an integer and a string column, nulls included, in two row groups. -/

def demoEnv : WEnv := { compression := .none, enableDictionary := true, compress := fun _ b => b, ratioLt := fun _ => true }
def demoInt : NumColumn UInt32 := ((({} : NumColumn UInt32).append 5).appendNull 0).append 7
def demoStr : StrColumn := ((({} : StrColumn).append [104, 105]).append [104, 105]).appendNull
def demoSchema : List ColSchema := [{ name := [97], type := .int32 }, { name := [98], type := .string }]
def demoGroup : TableGroup :=
  { cols := [.int32 demoInt, .string demoStr], numRows := 3,
    cells := [[some (.num 5), none, some (.num 7)], [some (.bytes [104, 105]), some (.bytes [104, 105]), none]] }

theorem demo_ok : ColsOk demoEnv demoGroup.numRows demoSchema demoGroup.cols demoGroup.cells := by
  refine .cons ⟨?_, rfl, rfl, .inl rfl, ?_, pagesAgree_of_options _ _ _ (.inr rfl)⟩
    (.cons ⟨?_, rfl, rfl, .inl rfl, ?_, pagesAgree_of_options _ _ _ (.inr rfl)⟩ .nil)
  · exact .int32 (NumHist.append (dflt := 0) 7 (.appendNull (.append 5 .new)))
  · exact ⟨by decide +kernel, by decide +kernel⟩
  · exact .string (.appendNull (.append [104, 105] (.append [104, 105] .new))) (by decide +kernel)
  · exact ⟨by decide +kernel, by decide +kernel⟩

/-- The hypotheses of C53 are met and the conclusion can be observed on the concrete file. -/
example : ∃ p, writeAll demoEnv ({ schema := demoSchema } : PWriter).openFile [demoGroup.cols, demoGroup.cols] = some p ∧
    readFile (fun _ _ => none) p.close.file = some ([([97], 1, true), ([98], 6, true)],
      [⟨3, demoGroup.cells⟩, ⟨3, demoGroup.cells⟩]) := by
  obtain ⟨p, hp, hr⟩ := C53_file_roundtrip demoEnv (fun _ _ => none) (by intro raw _ h; simp [demoEnv] at h) (by decide) demoSchema
    (by decide) (by decide) (by decide) [demoGroup, demoGroup] (by decide)
    (by intro t ht; simp at ht; subst ht; exact ⟨by decide, demo_ok⟩)
  refine ⟨p, hp, hr ?_ ?_⟩
  all_goals
    have h2 : (writeAll demoEnv ({ schema := demoSchema } : PWriter).openFile ([demoGroup, demoGroup].map (·.cols))).map
      (fun p => decide ((p.metadata.write {}).buf.length < 2 ^ 32 ∧ p.close.file.length < 2 ^ 63)) = some true := by decide +kernel
    rw [hp] at h2
    simp only [Option.map_some, Option.some.injEq, decide_eq_true_eq] at h2
  · exact h2.1
  · exact h2.2

/-- The hypothesis of C33 is met by what the encoder produces, with and without a dictionary page. -/
example : ∃ g, encodeRowGroup demoEnv demoSchema demoGroup.cols = some g ∧ g.columns.map (·.usesDictionary) = [false, true] ∧
    ∀ c ∈ g.columns, DictComplete c := by
  refine ⟨(encodeRowGroup demoEnv demoSchema demoGroup.cols).get (by decide +kernel), by rw [Option.some_get], by decide +kernel, ?_⟩
  have h : ((encodeRowGroup demoEnv demoSchema demoGroup.cols).get (by decide +kernel)).columns.all
      (fun c => !c.usesDictionary || (c.dictHeader.isSome && c.dictContent.isSome)) = true := by decide +kernel
  intro c hc hu
  have := List.all_eq_true.1 h c hc
  simpa [hu] using this

/-! ### Findings next to C53 -/

/-- **C54 refuted** A writer reused for a second file (`open`, `write`, `close`, then `open` again) keeps
the position counter, the row groups and the row total of the first file: the second file, here an empty
table, announces row groups that are not in it. -/
theorem C54_reopen_refuted :
    ((writeAll demoEnv ({ schema := demoSchema } : PWriter).openFile [demoGroup.cols]).map
      (fun p => (readFile (fun _ _ => none) p.close.file, readFile (fun _ _ => none) p.close.openFile.close.file,
        p.close.openFile.metadata.numRows)))
      = some (some ([([97], 1, true), ([98], 6, true)], [⟨3, demoGroup.cells⟩]), none, 3) := by
  decide +kernel

/-- **C54** A first use of a writer is unaffected: opening a fresh writer starts at position 4 with no row
group. -/
theorem C54_first_open_partial (schema : List ColSchema) :
    ({ schema := schema } : PWriter).openFile = { file := [80, 65, 82, 49], offset := 4, schema := schema, isOpen := true } := rfl

/-- **C55** What the schema in the file determines: two columns get the same schema element exactly when
they have the same name, the same nullability, the same physical type and agree on being strings. -/
theorem C55_schema_partial (a b : ColSchema) :
    PWriter.schemaElements [a] = PWriter.schemaElements [b] ↔
      a.name = b.name ∧ a.nullable = b.nullable ∧ toParquetType a.type = toParquetType b.type ∧
        (a.type = .string ↔ b.type = .string) := by
  obtain ⟨an, at', au⟩ := a
  obtain ⟨bn, bt, bu⟩ := b
  simp only [PWriter.schemaElements, List.map_cons, List.map_nil, List.cons.injEq, and_true,
    SchemaElement.mk.injEq, Option.some.injEq, List.length_cons, List.length_nil]
  constructor
  · rintro ⟨-, h1, -, h2, h3, -, h4⟩
    refine ⟨h3, ?_, h1, ?_⟩
    · cases au <;> cases bu <;> simp_all
    · by_cases x : at' = .string <;> by_cases y : bt = .string <;> simp_all
  · rintro ⟨rfl, rfl, h, h'⟩
    simp [h, h']

/-- **C55 refuted** Dates and timestamps are written as plain integers: the schema of a DATE column is
that of an INT32 column, of a TIMESTAMP column that of an INT64 column. -/
theorem C55_logical_types_refuted (name : List UInt8) (nullable : Bool) :
    PWriter.schemaElements [⟨name, .date, nullable⟩] = PWriter.schemaElements [⟨name, .int32, nullable⟩] ∧
    PWriter.schemaElements [⟨name, .timestamp, nullable⟩] = PWriter.schemaElements [⟨name, .int64, nullable⟩] := ⟨rfl, rfl⟩

end Vroom
