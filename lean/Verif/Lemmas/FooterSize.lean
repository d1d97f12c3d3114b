import Verif.Props.ParquetFile
import Mathlib.Tactic.Ring
/-
Sizes of what the writer serialises: the metadata at the end of the file, page headers, column chunks, and hence the whole file.
-/
namespace Vroom
open Parquet

namespace TW

theorem put_len (w : TW) (bs : List UInt8) : (w.put bs).buf.length = w.buf.length + bs.length := by simp [put]

theorem writeVarint_le (v : UInt64) : (writeVarint v).length ≤ 10 := by
  have := v.toNat_lt
  exact (C26_varint_size v 10 (by decide)).2 (by omega)

theorem varint_len (w : TW) (v : UInt64) : (w.varint v).buf.length ≤ w.buf.length + 10 := by
  have := writeVarint_le v
  simp only [varint, put_len]; omega

theorem signedVarint_len (w : TW) (v : Int64) : (w.signedVarint v).buf.length ≤ w.buf.length + 10 := by
  have := writeVarint_le (zigzagEncode v)
  simp only [signedVarint, put_len, writeSignedVarint]; omega

theorem structBegin_len (w : TW) : w.structBegin.buf.length = w.buf.length := rfl

theorem structEnd_len (w : TW) : w.structEnd.buf.length = w.buf.length + 1 := by
  have : w.structEnd.buf = w.fieldStop.buf := by
    simp only [structEnd]
    split <;> rfl
  rw [this, fieldStop, put_len]; rfl

theorem fieldBegin_len (w : TW) (id : Int16) (ty : UInt8) : (w.fieldBegin id ty).buf.length ≤ w.buf.length + 11 := by
  simp only [fieldBegin]
  split
  · rw [put_len]; simp
  · have := signedVarint_len (w.put [ty]) id.toInt64
    rw [put_len] at this
    simp only [List.length_singleton] at this
    omega

theorem i32_len (w : TW) (v : Int32) : (w.i32 v).buf.length ≤ w.buf.length + 10 := signedVarint_len _ _
theorem i64_len (w : TW) (v : Int64) : (w.i64 v).buf.length ≤ w.buf.length + 10 := signedVarint_len _ _

theorem bin_len (w : TW) (bs : List UInt8) : (w.bin bs).buf.length ≤ w.buf.length + 10 + bs.length := by
  have := varint_len w (UInt64.ofNat bs.length)
  simp only [bin, put_len]; omega

theorem listBegin_len (w : TW) (ty : UInt8) (n : Nat) : (w.listBegin ty n).buf.length ≤ w.buf.length + 11 := by
  simp only [listBegin]
  split
  · rw [put_len]; simp
  · have := varint_len (w.put [0xF0 ||| ty]) (Int32.ofNat n).toInt64.toUInt64
    rw [put_len] at this
    simp only [List.length_singleton] at this
    omega

theorem fi32 (w : TW) (id : Int16) (v : Int32) : ((w.fieldBegin id tI32).i32 v).buf.length ≤ w.buf.length + 21 := by
  have h1 := fieldBegin_len w id tI32
  have h2 := i32_len (w.fieldBegin id tI32) v
  omega

theorem fi64 (w : TW) (id : Int16) (v : Int64) : ((w.fieldBegin id tI64).i64 v).buf.length ≤ w.buf.length + 21 := by
  have h1 := fieldBegin_len w id tI64
  have h2 := i64_len (w.fieldBegin id tI64) v
  omega

theorem fbin (w : TW) (id : Int16) (v : List UInt8) : ((w.fieldBegin id tBinary).bin v).buf.length ≤ w.buf.length + 21 + v.length := by
  have h1 := fieldBegin_len w id tBinary
  have h2 := bin_len (w.fieldBegin id tBinary) v
  omega

theorem flist (w : TW) (id : Int16) (ty : UInt8) (n : Nat) : ((w.fieldBegin id tList).listBegin ty n).buf.length ≤ w.buf.length + 22 := by
  have h1 := fieldBegin_len w id tList
  have h2 := listBegin_len (w.fieldBegin id tList) ty n
  omega

theorem opt_len {α : Type} (w : TW) (x : Option α) (f : TW → α → TW) (k : Nat) (h : ∀ a, x = some a → (f w a).buf.length ≤ w.buf.length + k) :
    (w.opt x f).buf.length ≤ w.buf.length + k := by
  cases x with
  | none => simp only [opt]; omega
  | some a => exact h a rfl

theorem foldl_len {α : Type} (f : TW → α → TW) (k : α → Nat) : ∀ (l : List α) (w : TW), (∀ a ∈ l, ∀ w, (f w a).buf.length ≤ w.buf.length + k a) →
    (l.foldl f w).buf.length ≤ w.buf.length + (l.map k).sum := by
  intro l
  induction l with
  | nil => intro w _; simp
  | cons a as ih =>
    intro w h
    have h1 := h a (by simp) w
    have h2 := ih (f w a) (fun b hb => h b (List.mem_cons_of_mem _ hb))
    rw [List.foldl_cons, List.map_cons, List.sum_cons]
    omega

end TW
open TW

theorem dataPageHeader_len (h : DataPageHeader) (hs : h.statistics = none) (w : TW) : (h.write w).buf.length ≤ w.buf.length + 85 := by
  simp only [DataPageHeader.write, hs, TW.opt, structEnd_len]
  have e0 := structBegin_len w
  generalize w.structBegin = w1 at *
  have e1 := fi32 w1 1 h.numValues
  generalize (w1.fieldBegin 1 tI32).i32 h.numValues = w2 at *
  have e2 := fi32 w2 2 h.encoding
  generalize (w2.fieldBegin 2 tI32).i32 h.encoding = w3 at *
  have e3 := fi32 w3 3 h.defEncoding
  generalize (w3.fieldBegin 3 tI32).i32 h.defEncoding = w4 at *
  have e4 := fi32 w4 4 h.repEncoding
  omega

theorem dictPageHeader_len (h : DictPageHeader) (w : TW) : (h.write w).buf.length ≤ w.buf.length + 54 := by
  simp only [DictPageHeader.write, structEnd_len]
  have e0 := structBegin_len w
  generalize w.structBegin = w1 at *
  have e1 := fi32 w1 1 h.numValues
  generalize (w1.fieldBegin 1 tI32).i32 h.numValues = w2 at *
  have e2 := fi32 w2 2 h.encoding
  generalize (w2.fieldBegin 2 tI32).i32 h.encoding = w3 at *
  have e3 := opt_len w3 h.isSorted (fun w b => w.fieldBegin 3 (if b then tTrue else tFalse)) 11 (fun a _ => fieldBegin_len _ _ _)
  omega

theorem pageHeader_len (h : PageHeader) (hs : ∀ d, h.dataPage = some d → d.statistics = none) : (h.write {}).buf.length ≤ 300 := by
  simp only [PageHeader.write, structEnd_len]
  have e0 := structBegin_len ({} : TW)
  rw [show ({} : TW).buf.length = 0 from rfl] at e0
  generalize ({} : TW).structBegin = w1 at *
  have e1 := fi32 w1 1 h.type
  generalize (w1.fieldBegin 1 tI32).i32 h.type = w2 at *
  have e2 := fi32 w2 2 h.uncompressed
  generalize (w2.fieldBegin 2 tI32).i32 h.uncompressed = w3 at *
  have e3 := fi32 w3 3 h.compressed
  generalize (w3.fieldBegin 3 tI32).i32 h.compressed = w4 at *
  have e4 := opt_len w4 h.crc (fun w v => (w.fieldBegin 4 tI32).i32 v) 21 (fun a _ => fi32 _ _ _)
  generalize w4.opt h.crc (fun w v => (w.fieldBegin 4 tI32).i32 v) = w5 at *
  have e5 := opt_len w5 h.dataPage (fun w d => d.write (w.fieldBegin 5 tStruct)) 96 (fun a ha => by
    have := fieldBegin_len w5 5 tStruct
    have := dataPageHeader_len a (hs a ha) (w5.fieldBegin 5 tStruct)
    show (a.write (w5.fieldBegin 5 tStruct)).buf.length ≤ _
    omega)
  generalize w5.opt h.dataPage (fun w d => d.write (w.fieldBegin 5 tStruct)) = w6 at *
  have e6 := opt_len w6 h.dictPage (fun w d => d.write (w.fieldBegin 7 tStruct)) 65 (fun a ha => by
    have := fieldBegin_len w6 7 tStruct
    have := dictPageHeader_len a (w6.fieldBegin 7 tStruct)
    show (a.write (w6.fieldBegin 7 tStruct)).buf.length ≤ _
    omega)
  omega

theorem columnMetaData_len (m : ColumnMetaData) (name : List UInt8) (henc : m.encodings.length ≤ 3) (hpath : m.path = [name]) (hst : m.statistics = none) (w : TW) :
    (m.write w).buf.length ≤ w.buf.length + 232 + name.length := by
  simp only [ColumnMetaData.write, structEnd_len, hpath, hst, TW.opt, List.foldl_cons, List.foldl_nil, List.length_singleton]
  have e0 := structBegin_len w
  generalize w.structBegin = w1 at *
  have e1 := fi32 w1 1 m.type
  generalize (w1.fieldBegin 1 tI32).i32 m.type = w2 at *
  have e2 := flist w2 2 tI32 m.encodings.length
  generalize (w2.fieldBegin 2 tList).listBegin tI32 m.encodings.length = w3 at *
  have e3 := foldl_len (fun w e => w.i32 e) (fun _ => 10) m.encodings w3 (fun a _ w => i32_len w a)
  have e3' : (m.encodings.map (fun _ => 10)).sum ≤ 30 := by
    rw [List.map_const', List.sum_replicate_nat]; omega
  generalize m.encodings.foldl (fun w e => w.i32 e) w3 = w4 at *
  have e4 := flist w4 3 tBinary 1
  generalize (w4.fieldBegin 3 tList).listBegin tBinary 1 = w5 at *
  have e5 := bin_len w5 name
  generalize w5.bin name = w6 at *
  have e6 := fi32 w6 4 m.codec
  generalize (w6.fieldBegin 4 tI32).i32 m.codec = w7 at *
  have e7 := fi64 w7 5 m.numValues
  generalize (w7.fieldBegin 5 tI64).i64 m.numValues = w8 at *
  have e8 := fi64 w8 6 m.totalUncompressed
  generalize (w8.fieldBegin 6 tI64).i64 m.totalUncompressed = w9 at *
  have e9 := fi64 w9 7 m.totalCompressed
  generalize (w9.fieldBegin 7 tI64).i64 m.totalCompressed = w10 at *
  have e10 := fi64 w10 9 m.dataPageOffset
  generalize (w10.fieldBegin 9 tI64).i64 m.dataPageOffset = w11 at *
  have e11 := opt_len w11 m.dictPageOffset (fun w v => (w.fieldBegin 11 tI64).i64 v) 21 (fun a _ => fi64 _ _ _)
  simp only [TW.opt] at e11
  omega

theorem columnChunk_len (m : ColumnMetaData) (name : List UInt8) (henc : m.encodings.length ≤ 3) (hpath : m.path = [name]) (hst : m.statistics = none) (w : TW) :
    ((ColumnChunk.write { metaData := some m }) w).buf.length ≤ w.buf.length + (265 + name.length) := by
  simp only [ColumnChunk.write, structEnd_len, TW.opt]
  have e0 := structBegin_len w
  generalize w.structBegin = w1 at *
  have e1 := fi64 w1 2 0
  generalize (w1.fieldBegin 2 tI64).i64 0 = w2 at *
  have e2 := fieldBegin_len w2 3 tStruct
  have e3 := columnMetaData_len m name henc hpath hst (w2.fieldBegin 3 tStruct)
  omega

theorem metaAt_shape (e : EncodedColumn) (off : Nat) (hst : e.statistics = none) :
    (metaAt e off).encodings.length ≤ 3 ∧ (metaAt e off).path = [e.name] ∧ (metaAt e off).statistics = none := by
  refine ⟨?_, rfl, by simp [metaAt, PWriter.writeColumn, hst]⟩
  simp only [metaAt, PWriter.writeColumn]
  split <;> simp

/-- Bytes of the column names. -/
def Spec.nameBytes (schema : List ColSchema) : Nat := (schema.map (fun c => c.name.length)).sum

theorem rowGroup_len {dec : Int → List UInt8 → Option (List UInt8)} {n : Nat} {css : List ColSchema} {g : EncodedRowGroup} {rowss}
    (h : EncOk dec n css g.columns rowss) (off : Nat) (w : TW) :
    ((rowGroupAt off g).write w).buf.length ≤ w.buf.length + (107 + 265 * css.length + Spec.nameBytes css) := by
  have hcols : ∀ {css : List ColSchema} {es : List EncodedColumn} {rowss}, EncOk dec n css es rowss → ∀ (off : Nat) (w : TW),
      ((((metasAt off es).map (fun m => ({ metaData := some m } : ColumnChunk)))).foldl (fun w c => c.write w) w).buf.length
        ≤ w.buf.length + 265 * css.length + Spec.nameBytes css := by
    intro css es rowss h
    induction h with
    | nil => intro off w; simp [metasAt, Spec.nameBytes]
    | @cons cs e rows css es rowss h1 h2 h3 hd hst h4 _ ih =>
      intro off w
      obtain ⟨a1, a2, a3⟩ := metaAt_shape e off hst
      simp only [metasAt, List.map_cons, List.foldl_cons]
      have b1 := columnChunk_len (metaAt e off) e.name a1 a2 a3 w
      have b2 := ih (off + (chunkBytes e).length) (ColumnChunk.write { metaData := some (metaAt e off) } w)
      simp only [Spec.nameBytes, List.map_cons, List.sum_cons, List.length_cons] at b2 ⊢
      rw [h1] at b1
      omega
  simp only [RowGroup.write, structEnd_len, rowGroupAt, TW.opt]
  have e0 := structBegin_len w
  generalize w.structBegin = w1 at *
  have e1 := flist w1 1 tStruct ((metasAt off g.columns).map (fun m => ({ metaData := some m } : ColumnChunk))).length
  generalize (w1.fieldBegin 1 tList).listBegin tStruct ((metasAt off g.columns).map (fun m => ({ metaData := some m } : ColumnChunk))).length = w2 at *
  have e2 := hcols h off w2
  generalize ((metasAt off g.columns).map (fun m => ({ metaData := some m } : ColumnChunk))).foldl (fun w c => c.write w) w2 = w3 at *
  have e3 := fi64 w3 2 ((metasAt off g.columns).foldl (fun a m => a + m.totalUncompressed) 0)
  generalize (w3.fieldBegin 2 tI64).i64 ((metasAt off g.columns).foldl (fun a m => a + m.totalUncompressed) 0) = w4 at *
  have e4 := fi64 w4 3 g.numRows
  generalize (w4.fieldBegin 3 tI64).i64 g.numRows = w5 at *
  have e5 := fi64 w5 5 (Int64.ofNat off)
  generalize (w5.fieldBegin 5 tI64).i64 (Int64.ofNat off) = w6 at *
  have e6 := fi64 w6 6 ((metasAt off g.columns).foldl (fun a m => a + m.totalCompressed) 0)
  omega

theorem schemaElement_len (e : SchemaElement) (w : TW) : (e.write w).buf.length ≤ w.buf.length + (127 + e.name.length) := by
  simp only [SchemaElement.write, structEnd_len]
  have e0 := structBegin_len w
  generalize w.structBegin = w1 at *
  have e1 := opt_len w1 e.type (fun w v => (w.fieldBegin 1 tI32).i32 v) 21 (fun a _ => fi32 _ _ _)
  generalize w1.opt e.type (fun w v => (w.fieldBegin 1 tI32).i32 v) = w2 at *
  have e2 := opt_len w2 e.typeLength (fun w v => (w.fieldBegin 2 tI32).i32 v) 21 (fun a _ => fi32 _ _ _)
  generalize w2.opt e.typeLength (fun w v => (w.fieldBegin 2 tI32).i32 v) = w3 at *
  have e3 := opt_len w3 e.repetition (fun w v => (w.fieldBegin 3 tI32).i32 v) 21 (fun a _ => fi32 _ _ _)
  generalize w3.opt e.repetition (fun w v => (w.fieldBegin 3 tI32).i32 v) = w4 at *
  have e4 := fbin w4 4 e.name
  generalize (w4.fieldBegin 4 tBinary).bin e.name = w5 at *
  have e5 := opt_len w5 e.numChildren (fun w v => (w.fieldBegin 5 tI32).i32 v) 21 (fun a _ => fi32 _ _ _)
  generalize w5.opt e.numChildren (fun w v => (w.fieldBegin 5 tI32).i32 v) = w6 at *
  have e6 := opt_len w6 e.convertedType (fun w v => (w.fieldBegin 6 tI32).i32 v) 21 (fun a _ => fi32 _ _ _)
  omega

theorem columnOrder_len (w : TW) : (columnOrderWrite w).buf.length ≤ w.buf.length + 13 := by
  simp only [columnOrderWrite, typeDefinedOrderWrite, structEnd_len, structBegin_len]
  have := fieldBegin_len w.structBegin 1 tStruct
  rw [structBegin_len] at this
  omega

theorem rowGroups_len {dec : Int → List UInt8 → Option (List UInt8)} {schema : List ColSchema} {gs : List EncodedRowGroup}
    {ts : List TableGroup} (h : GroupsOk dec schema gs ts) : ∀ (off : Nat) (w : TW),
    ((rowGroupsAt off gs).foldl (fun w g => g.write w) w).buf.length ≤ w.buf.length + gs.length * (107 + 265 * schema.length + Spec.nameBytes schema) := by
  induction h with
  | nil => intro off w; simp [rowGroupsAt]
  | @cons g t gs ts h1 h2 h3 _ ih =>
    intro off w
    have a := rowGroup_len h2 off w
    have b := ih (off + (groupBytes g).length) ((rowGroupAt off g).write w)
    simp only [rowGroupsAt, List.foldl_cons, List.length_cons]
    rw [Nat.add_mul, Nat.one_mul]
    omega

/-- The metadata of a file with `gs` row groups. -/
theorem metadata_len {dec : Int → List UInt8 → Option (List UInt8)} {schema : List ColSchema} {gs : List EncodedRowGroup}
    {ts : List TableGroup} (h : GroupsOk dec schema gs ts) (p : PWriter) (hsch : p.schema = schema) (hrg : p.rowGroups = rowGroupsAt 4 gs) :
    (p.metadata.write {}).buf.length ≤ (gs.length + 1) * (400 + 265 * schema.length + Spec.nameBytes schema) := by
  simp only [FileMetaData.write, PWriter.metadata, hsch, hrg, structEnd_len, TW.opt]
  have e0 := structBegin_len ({} : TW)
  rw [show ({} : TW).buf.length = 0 from rfl] at e0
  generalize ({} : TW).structBegin = w1 at *
  have e1 := fi32 w1 1 1
  generalize (w1.fieldBegin 1 tI32).i32 1 = w2 at *
  have e2 := flist w2 2 tStruct (PWriter.schemaElements schema).length
  generalize (w2.fieldBegin 2 tList).listBegin tStruct (PWriter.schemaElements schema).length = w3 at *
  have e3 := foldl_len (fun w (e : SchemaElement) => e.write w) (fun e => 127 + e.name.length) (PWriter.schemaElements schema) w3 (fun e _ w => schemaElement_len e w)
  have e3' : ((PWriter.schemaElements schema).map (fun e => 127 + e.name.length)).sum = 133 + 127 * schema.length + Spec.nameBytes schema := by
    have : ∀ l : List ColSchema, ((l.map (fun c => 127 + c.name.length)).sum) = 127 * l.length + (l.map (fun c => c.name.length)).sum := by
      intro l
      induction l with
      | nil => rfl
      | cons c cs ih => simp only [List.map_cons, List.sum_cons, List.length_cons, ih]; omega
    simp only [PWriter.schemaElements, List.map_cons, List.sum_cons, List.map_map, Function.comp_def, this, Spec.nameBytes]
    have : ("schema".toUTF8.toList).length = 6 := by decide +kernel
    omega
  generalize (PWriter.schemaElements schema).foldl (fun w e => e.write w) w3 = w4 at *
  have e4 := fi64 w4 3 p.totalRows
  generalize (w4.fieldBegin 3 tI64).i64 p.totalRows = w5 at *
  have e5 := flist w5 4 tStruct (rowGroupsAt 4 gs).length
  generalize (w5.fieldBegin 4 tList).listBegin tStruct (rowGroupsAt 4 gs).length = w6 at *
  have e6 := rowGroups_len h 4 w6
  generalize (rowGroupsAt 4 gs).foldl (fun w g => g.write w) w6 = w7 at *
  have e7 := fbin w7 6 "vroom (C++ CSV to Parquet converter)".toUTF8.toList
  have e7' : ("vroom (C++ CSV to Parquet converter)".toUTF8.toList).length = 36 := by decide +kernel
  rw [e7'] at e7
  generalize (w7.fieldBegin 6 tBinary).bin "vroom (C++ CSV to Parquet converter)".toUTF8.toList = w8 at *
  have e8 := flist w8 7 tStruct schema.length
  generalize (w8.fieldBegin 7 tList).listBegin tStruct schema.length = w9 at *
  have e9 := foldl_len (fun w (_ : Unit) => columnOrderWrite w) (fun _ => 13) (List.replicate schema.length ()) w9 (fun _ _ w => columnOrder_len w)
  have e9' : ((List.replicate schema.length ()).map (fun _ => 13)).sum = 13 * schema.length := by
    rw [List.map_const', List.sum_replicate_nat, List.length_replicate, Nat.mul_comm]
  have e10 : gs.length * (107 + 265 * schema.length + Spec.nameBytes schema) ≤ gs.length * (400 + 265 * schema.length + Spec.nameBytes schema) :=
    Nat.mul_le_mul_left _ (by omega)
  rw [Nat.add_mul, Nat.one_mul]
  generalize gs.length * (107 + 265 * schema.length + Spec.nameBytes schema) = y at *
  generalize gs.length * (400 + 265 * schema.length + Spec.nameBytes schema) = z at *
  omega

theorem compressPage_len (env : WEnv) (raw : List UInt8) : (compressPage env raw).2.2.1.length ≤ raw.length := by
  unfold compressPage
  split
  · dsimp only
    split
    · dsimp only
      split
      · exact Nat.le_refl _
      · omega
    · exact Nat.le_refl _
  · exact Nat.le_refl _

theorem dict_len (env : WEnv) (col : ArrowColumn) (v : ValuesEnc) (hv : encodeValues env col = some v) (h c : List UInt8) (u : Int64)
    (hd : v.dict = some (h, c, u)) : h.length ≤ 300 ∧ c.length ≤ (rawDictPage col).length := by
  have plain : ∀ o : Option (List UInt8), o.map (fun bs => ({ bytes := bs, encoding := 0, dict := none } : ValuesEnc)) = some v → False := by
    intro o ho
    rw [Option.map_eq_some_iff] at ho
    obtain ⟨_, _, rfl⟩ := ho
    cases hd
  cases col with
  | string c' =>
    simp only [encodeValues] at hv
    split at hv
    · simp only [encodeDictColumn] at hv
      cases he : encodeStrings (createDictionary c'.rows).1 with
      | none => rw [he] at hv; cases hv
      | some raw =>
        rw [he] at hv
        simp only [Option.some.injEq] at hv
        subst hv
        simp only [Option.some.injEq, Prod.mk.injEq] at hd
        obtain ⟨rfl, rfl, -⟩ := hd
        refine ⟨pageHeader_len _ (fun d hd => by cases hd), ?_⟩
        have : rawDictPage (.string c') = raw := by simp [rawDictPage, he]
        rw [this]
        exact compressPage_len env raw
    · exact (plain _ hv).elim
  | _ => exact (plain _ hv).elim

/-- A column chunk in the file. -/
theorem chunk_len (env : WEnv) (cs : ColSchema) (col : ArrowColumn) (e : EncodedColumn) (he : encodeColumnArrow env cs col = some e) (hsm : PagesSmall env cs col) :
    (chunkBytes e).length ≤ 2 ^ 33 := by
  simp only [encodeColumnArrow] at he
  cases hv : encodeValues env col with
  | none => rw [hv] at he; cases he
  | some v =>
    rw [hv] at he
    simp only [Option.some.injEq] at he
    have hraw : (if cs.nullable then encodeDefLevelsArrow col.nulls 1 col.nulls.nullCountFast else []) ++ v.bytes = rawDataPage env cs col := by
      simp [rawDataPage, hv]
    rw [hraw] at he
    have h1 : e.header.length ≤ 300 := by
      rw [← he]
      exact pageHeader_len _ (fun d hd => by simp at hd; rw [← hd])
    have h2 : e.content.length < 2 ^ 31 := by
      rw [← he]
      exact Nat.lt_of_le_of_lt (compressPage_len env _) hsm.1
    have h3 : (dictBytes e).length ≤ 300 + 2 ^ 31 := by
      unfold dictBytes
      split
      · rename_i h c hu e1 e2
        rw [← he] at e1 e2
        dsimp only at e1 e2
        cases hd : v.dict with
        | none => rw [hd] at e1; cases e1
        | some d =>
          rw [hd, Option.map_some, Option.some.injEq] at e1 e2
          obtain ⟨d1, d2, d3⟩ := d
          have := dict_len env col v hv d1 d2 d3 hd
          have := hsm.2
          dsimp only at e1 e2
          subst e1 e2
          rw [List.length_append]
          omega
      · simp
    simp only [chunkBytes, List.length_append]
    omega

theorem encodeColumns_len (env : WEnv) {n : Nat} {css : List ColSchema} {cols : List ArrowColumn} {rowss : List (List (Option Val))} (h : ColsOk env n css cols rowss) :
    ∀ es, (css.zip cols).mapM (fun p => encodeColumnArrow env p.1 p.2) = some es → (es.flatMap chunkBytes).length ≤ css.length * 2 ^ 33 := by
  induction h with
  | nil => intro es he; simp at he; subst he; simp
  | @cons cs col rows css cols rowss h1 _ ih =>
    intro es he
    rw [List.zip_cons_cons, List.mapM_cons] at he
    cases hx : encodeColumnArrow env cs col with
    | none => rw [hx] at he; cases he
    | some e =>
      rw [hx] at he
      cases hy : (css.zip cols).mapM (fun p => encodeColumnArrow env p.1 p.2) with
      | none => rw [hy] at he; cases he
      | some es' =>
        rw [hy] at he
        cases he
        have a := ih es' hy
        have b := chunk_len env cs col e hx h1.small
        rw [List.flatMap_cons, List.length_append, List.length_cons, Nat.add_mul, Nat.one_mul]
        omega

theorem writeAll_len (env : WEnv) {schema : List ColSchema} : ∀ (ts : List TableGroup), (∀ t ∈ ts, ColsOk env t.numRows schema t.cols t.cells) → ∀ (p q : PWriter),
    p.schema = schema → writeAll env p (ts.map (·.cols)) = some q → q.file.length ≤ p.file.length + ts.length * (schema.length * 2 ^ 33) ∧ q.isOpen = p.isOpen := by
  intro ts
  induction ts with
  | nil => intro _ p q _ h; simp only [List.map_nil, writeAll, Option.some.injEq] at h; subst h; exact ⟨by simp, rfl⟩
  | cons t ts ih =>
    intro h p q hp hw
    simp only [List.map_cons, writeAll] at hw
    cases hx : p.write env t.cols with
    | none => rw [hx] at hw; cases hw
    | some p' =>
      rw [hx] at hw
      simp only [Option.bind_some] at hw
      have key : p'.file.length ≤ p.file.length + schema.length * 2 ^ 33 ∧ p'.isOpen = p.isOpen ∧ p'.schema = p.schema := by
        unfold PWriter.write at hx
        split at hx
        · cases hx; exact ⟨by omega, rfl, rfl⟩
        · rw [Option.map_eq_some_iff] at hx
          obtain ⟨g, hg, rfl⟩ := hx
          rw [hp] at hg
          rw [writeEncoded_eq]
          refine ⟨?_, rfl, rfl⟩
          show (p.file ++ groupBytes g).length ≤ _
          rw [List.length_append]
          unfold encodeRowGroup at hg
          split at hg
          · cases hg
          · split at hg
            · cases hg
            · rename_i es hes
              cases hg
              have := encodeColumns_len env (h t (by simp)) es hes
              show p.file.length + (es.flatMap chunkBytes).length ≤ _
              omega
      have := ih (fun t ht => h t (List.mem_cons_of_mem _ ht)) p' q (by rw [key.2.2, hp]) hw
      rw [List.length_cons, Nat.add_mul, Nat.one_mul]
      exact ⟨by omega, by rw [this.2, key.2.1]⟩

/-- **C53** The same with a bound on the input instead of bounds on the footer and on the file written: so many row groups and columns, and so many bytes of column names. -/
theorem C53_file_roundtrip_sized (env : WEnv) (dec : Int → List UInt8 → Option (List UInt8)) (hc : CodecOk env dec)
    (hlz : env.compression ≠ .lz4) (schema : List ColSchema) (hne : schema ≠ []) (ts : List TableGroup)
    (hfoot : (ts.length + 1) * (400 + 265 * schema.length + Spec.nameBytes schema) < 2 ^ 32)
    (h : ∀ t ∈ ts, t.numRows < 2 ^ 31 ∧ ColsOk env t.numRows schema t.cols t.cells) :
    ∃ p, writeAll env ({ schema := schema } : PWriter).openFile (ts.map (·.cols)) = some p ∧
      readFile dec p.close.file = some (schema.map (fun c => (c.name, (toParquetType c.type).toInt, c.nullable)),
        ts.map (fun t => ⟨t.numRows, t.cells⟩)) := by
  have hpos : 0 < schema.length := List.length_pos_iff.2 hne
  have hX : 1 * (400 + 265 * schema.length + Spec.nameBytes schema) ≤ (ts.length + 1) * (400 + 265 * schema.length + Spec.nameBytes schema) :=
    Nat.mul_le_mul_right _ (by omega)
  have hY : (ts.length + 1) * 400 ≤ (ts.length + 1) * (400 + 265 * schema.length + Spec.nameBytes schema) := Nat.mul_le_mul_left _ (by omega)
  have hZ : (ts.length + 1) * (265 * schema.length) ≤ (ts.length + 1) * (400 + 265 * schema.length + Spec.nameBytes schema) := Nat.mul_le_mul_left _ (by omega)
  have hn : schema.length + 1 < 2 ^ 31 := by omega
  have hts : ts.length < 2 ^ 31 := by omega
  have hnm : ∀ c ∈ schema, c.name.length < 2 ^ 64 := by
    intro c hcm
    have : c.name.length ≤ Spec.nameBytes schema := by
      unfold Spec.nameBytes
      have key : ∀ l : List ColSchema, c ∈ l → c.name.length ≤ (l.map (fun c => c.name.length)).sum := by
        intro l
        induction l with
        | nil => intro h; simp at h
        | cons a as ih =>
          intro hm
          rw [List.map_cons, List.sum_cons]
          rcases List.mem_cons.1 hm with rfl | hm
          · omega
          · have := ih hm; omega
      exact key _ hcm
    omega
  obtain ⟨p, h1, h2⟩ := C53_file_roundtrip env dec hc hlz schema hne hn hnm ts hts h
  refine ⟨p, h1, ?_⟩
  obtain ⟨gs, hw, hok⟩ := writeAll_ok env dec hc hlz hne ts h
  have hp := hw ({ schema := schema } : PWriter).openFile rfl
  rw [h1, Option.some.injEq, foldl_writeEncoded] at hp
  have hm := metadata_len hok p (by rw [hp]; rfl) (by rw [hp]; rfl)
  rw [groupsOk_length hok] at hm
  obtain ⟨hl, ho⟩ := writeAll_len env ts (fun t ht => (h t ht).2) _ p rfl h1
  have hfl : p.close.file.length ≤ p.file.length + (p.metadata.write {}).buf.length + 8 := by
    have ho' : p.isOpen = true := by rw [ho]; rfl
    simp only [PWriter.close]
    rw [if_pos ho']
    simp only [PWriter.writeBytes, List.length_append]
    have h4 : (le4 (UInt32.ofNat (p.metadata.write {}).buf.length)).length = 4 := rfl
    have h5 : PWriter.magic.length = 4 := rfl
    omega
  refine h2 (by omega) ?_
  have h4 : ({ schema := schema } : PWriter).openFile.file.length = 4 := rfl
  rw [h4] at hl
  have hprod : ts.length * (schema.length * 2 ^ 33) ≤ 2 ^ 24 * 2 ^ 33 := by
    rw [← Nat.mul_assoc]
    apply Nat.mul_le_mul_right
    have : (ts.length + 1) * (265 * schema.length) = 265 * (ts.length * schema.length) + 265 * schema.length := by ring
    omega
  generalize ts.length * (schema.length * 2 ^ 33) = y at *
  omega

/-- The footer bound is generous: a million row groups of a column with a short name are within it. -/
example : (1000000 + 1) * (400 + 265 * 1 + Spec.nameBytes [{ name := [97], type := .int32 }]) < 2 ^ 32 := by decide +kernel

end Vroom
