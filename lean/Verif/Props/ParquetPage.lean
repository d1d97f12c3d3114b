import Verif.Spec.ParquetTable
import Verif.Props.Dictionary
import Verif.Props.Thrift
/-
Pages of a Parquet file decode to the column's cells (C35, C53).
-/
namespace Vroom
open Parquet Thrift

theorem totalBytes_eq (xs : List (Option (List UInt8))) : totalBytes xs = strBytes xs := by
  simp [totalBytes, strBytes, Function.comp_def]

/-- What the values part of a page must satisfy. -/
def ValuesOk (ptype : Int) (v : ValuesEnc) (vals : List Val) (dict : Option (List Val)) : Prop :=
  pageValues ptype v.encoding.toInt dict vals.length v.bytes = some vals

theorem filterMap_map_map {α β : Type} (f : α → β) (xs : List (Option α)) :
    (xs.map (·.map f)).filterMap id = (xs.filterMap id).map f := by
  induction xs with
  | nil => rfl
  | cons x t ih =>
    cases x with
    | none => exact ih
    | some a => show f a :: _ = f a :: _; rw [← ih]

theorem map_isSome_map {α β : Type} (f : α → β) (xs : List (Option α)) :
    (xs.map (·.map f)).map Option.isSome = xs.map Option.isSome := by
  induction xs with
  | nil => rfl
  | cons x t ih => cases x <;> simp [ih]

/-- Column facts used below. -/
theorem colHist_basic {col : ArrowColumn} {rows : List (Option Val)} (h : ColHist col rows) :
    BitmapHist col.nulls (rows.map Option.isSome) ∧ col.size = rows.length := by
  cases h with
  | int32 h | int64 h | float64 h | date h | timestamp h | bool h =>
    obtain ⟨a, b⟩ := num_hist_spec h
    rw [map_isSome_map]
    exact ⟨a, by simp [ArrowColumn.size, NumColumn.size, b]⟩
  | string h hb =>
    obtain ⟨a, _⟩ := str_hist_spec h
    rw [map_isSome_map]
    rw [totalBytes_eq] at hb
    exact ⟨a, by simp only [ArrowColumn.size, List.length_map]; exact (C24_string h hb).1⟩

theorem spread_rows (rows : List (Option Val)) :
    spread (rows.map (fun o => if o.isSome then 1 else 0)) (rows.filterMap id) = some rows := by
  induction rows with
  | nil => rfl
  | cons o t ih =>
    cases o with
    | none => show (spread _ _).map _ = _; rw [show List.filterMap id (none :: t) = t.filterMap id from rfl, ih]; rfl
    | some a => show (spread _ _).map _ = _; rw [ih]; rfl

theorem count_levels (rows : List (Option Val)) :
    (rows.map (fun o => if o.isSome then 1 else 0)).count 1 = (rows.filterMap id).length := by
  induction rows with
  | nil => rfl
  | cons o t ih => cases o <;> simp [ih]

/-- Plain values. -/
theorem fixed32_ok {d : UInt32} {c : NumColumn UInt32} {xs : List (Option UInt32)} (h : NumHist UInt32 d c xs) :
    ∃ bs, encodeFixedArrow 4 le4 c.values c.nulls = some bs ∧
      (plainFixed 4 (xs.filterMap id).length bs).map (fun p => p.1.map Val.num)
        = some ((xs.filterMap id).map (fun v => Val.num v.toNat)) := by
  obtain ⟨bs, e, _, hd⟩ := C27_int32 h
  refine ⟨bs, e, ?_⟩
  have := hd []
  rw [List.append_nil] at this
  rw [this]; simp

theorem fixed64_ok {d : UInt64} {c : NumColumn UInt64} {xs : List (Option UInt64)} (h : NumHist UInt64 d c xs) :
    ∃ bs, encodeFixedArrow 8 le8 c.values c.nulls = some bs ∧
      (plainFixed 8 (xs.filterMap id).length bs).map (fun p => p.1.map Val.num)
        = some ((xs.filterMap id).map (fun v => Val.num v.toNat)) := by
  obtain ⟨bs, e, _, hd⟩ := C27_int64 h
  refine ⟨bs, e, ?_⟩
  have := hd []
  rw [List.append_nil] at this
  rw [this]; simp

theorem strings_len (xs : List (Option (List UInt8))) (hb : strBytes xs < 2 ^ 32) :
    ∀ s, some s ∈ xs → s.length < 2 ^ 32 := by
  intro s hs
  have := strBytes_mem hs
  omega

/-- The dictionary page a column has, as the pair of its decoded values and its raw bytes. -/
def DictOk (env : WEnv) (raw : List UInt8) (v : ValuesEnc) (dict : Option (List Val)) : Prop :=
  match v.dict, dict with
  | none, none => True
  | some (h, c, u), some vals =>
      plainValues 6 vals.length raw = some vals ∧
      c = (compressPage env raw).2.2.1 ∧ u = (compressPage env raw).1.toInt64 ∧
      h = ((⟨2, (compressPage env raw).1, (compressPage env raw).2.1, none, none,
        some ⟨Int32.ofNat vals.length, 0, none⟩⟩ : PageHeader).write {}).buf ∧
      vals.length < 2 ^ 31
  | _, _ => False

theorem mapM_getElem_map {α β : Type} (f : α → β) (d : List α) (is : List Nat) :
    is.mapM (fun i => (d.map f)[i]?) = (is.mapM (fun i => d[i]?)).map (List.map f) := by
  induction is with
  | nil => simp
  | cons i t ih =>
    rw [List.mapM_cons, List.mapM_cons, ih, List.getElem?_map]
    cases d[i]? with
    | none => rfl
    | some a => cases t.mapM (fun i => d[i]?) <;> rfl

theorem dictData_map {α β : Type} (f : α → β) (d : List α) (n : Nat) (bs : List UInt8) :
    dictData (d.map f) n bs = (dictData d n bs).map (List.map f) := by
  simp only [dictData]
  by_cases h : n = 0
  · simp [h]
  · rw [if_neg h, if_neg h]
    cases bs with
    | nil => rfl
    | cons w body =>
      dsimp only
      by_cases h2 : 32 < w.toNat
      · rw [if_pos h2, if_pos h2]; rfl
      · rw [if_neg h2, if_neg h2]
        cases hybrid w.toNat n body with
        | none => rfl
        | some is => exact mapM_getElem_map f d is

theorem encodeValues_ok (env : WEnv) {col : ArrowColumn} {rows : List (Option Val)} (h : ColHist col rows)
    (hlen : rows.length < 2 ^ 31) :
    ∃ v dict, encodeValues env col = some v ∧ DictOk env (rawDictPage col) v dict ∧ (dict ≠ none → col.type = .string) ∧
      ValuesOk (toParquetType col.type).toInt v (rows.filterMap id) dict := by
  have t1 : Int32.toInt 1 = 1 := by decide
  have t2 : Int32.toInt 2 = 2 := by decide
  have t5 : Int32.toInt 5 = 5 := by decide
  have t6 : Int32.toInt 6 = 6 := by decide
  have t0 : Int32.toInt 0 = 0 := by decide
  have t8 : Int32.toInt 8 = 8 := by decide
  cases h with
  | int32 h | date h =>
    obtain ⟨bs, e, hd⟩ := fixed32_ok h
    refine ⟨⟨bs, 0, none⟩, none, by simp [encodeValues, e], trivial, by simp, ?_⟩
    simp only [ValuesOk, pageValues, plainValues, toParquetType, ArrowColumn.type, t1, t0, filterMap_map_map, List.length_map]
    simpa using hd
  | int64 h | timestamp h =>
    obtain ⟨bs, e, hd⟩ := fixed64_ok h
    refine ⟨⟨bs, 0, none⟩, none, by simp [encodeValues, e], trivial, by simp, ?_⟩
    simp only [ValuesOk, pageValues, plainValues, toParquetType, ArrowColumn.type, t2, t0, filterMap_map_map, List.length_map]
    simpa using hd
  | float64 h =>
    obtain ⟨bs, e, hd⟩ := fixed64_ok h
    refine ⟨⟨bs, 0, none⟩, none, by simp [encodeValues, e], trivial, by simp, ?_⟩
    simp only [ValuesOk, pageValues, plainValues, toParquetType, ArrowColumn.type, t5, t0, filterMap_map_map, List.length_map]
    simpa using hd
  | bool h =>
    obtain ⟨bs, e, hl, hd⟩ := C27_bool h
    refine ⟨⟨bs, 0, none⟩, none, by simp [encodeValues, e], trivial, by simp, ?_⟩
    simp only [ValuesOk, pageValues, plainValues, toParquetType, ArrowColumn.type, t0, filterMap_map_map, List.length_map]
    rw [if_pos trivial, if_pos trivial, if_neg (by omega), hd]
    simp
  | @string c xs h hb =>
    rw [totalBytes_eq] at hb
    rw [List.length_map] at hlen
    by_cases hdic : env.enableDictionary = true ∧ c.values.size > 0 ∧ shouldUseDictionary (cardinality c.rows) (env.ratioLt c) = true
    · obtain ⟨dict, page, hdict, hpage, hnd, hmem, hplain, hdata⟩ := C30_dictionary_roundtrip h hb hlen
      have hcard := (C30_analysis c.rows (env.ratioLt c)).2 hdic.2.2
      have hplain' := hplain []
      rw [List.append_nil] at hplain'
      have henc : encodeValues env (.string c) = some
          { bytes := encodeDictionaryIndices (createDictionary c.rows).2 c.nulls (dictBitWidth dict.length), encoding := 8,
            dict := some (((⟨2, (compressPage env page).1, (compressPage env page).2.1, none, none,
              some ⟨Int32.ofNat dict.length, 0, none⟩⟩ : PageHeader).write {}).buf, (compressPage env page).2.2.1,
              (compressPage env page).1.toInt64) } := by
        simp only [encodeValues]
        rw [if_pos hdic]
        simp only [encodeDictColumn]
        rw [← hdict, hpage]
      refine ⟨_, some (dict.map .bytes), henc, ?_, fun _ => rfl, ?_⟩
      have hraw : rawDictPage (.string c) = page := by simp only [rawDictPage]; rw [← hdict, hpage]; rfl
      rw [hraw]
      refine ⟨?_, rfl, rfl, ?_, ?_⟩
      · simp only [plainValues, List.length_map]
        rw [hplain']; simp
      · rw [List.length_map]
      · rw [List.length_map, hdict]; omega
      · simp only [ValuesOk, pageValues, t8, filterMap_map_map, List.length_map]
        rw [if_neg (by decide), if_pos trivial, Option.bind_some, dictData_map, hdata]; rfl
    · obtain ⟨bs, e, hd⟩ := C27_byte_arrays h hb
      have hd' := hd []
      rw [List.append_nil] at hd'
      refine ⟨⟨bs, 0, none⟩, none, by simp only [encodeValues]; rw [if_neg hdic, e]; rfl, trivial, by simp, ?_⟩
      simp only [ValuesOk, pageValues, plainValues, toParquetType, ArrowColumn.type, t6, t0, filterMap_map_map, List.length_map]
      rw [hd']; simp

/-! ### Pages -/

/-- The chunk codec `codec` reads the stored bytes of a page. -/
def Reads (dec : Int → List UInt8 → Option (List UInt8)) (codec : Int) (content raw : List UInt8) : Prop :=
  (codec = 0 ∧ content = raw) ∨ (codec ≠ 0 ∧ dec codec content = some raw)

theorem pageHeader_write (h : PageHeader) (hok : h.Ok) (rest : List UInt8) :
    parse ((h.write {}).buf ++ rest) = some (pageHeader h, rest) := by
  obtain ⟨bs, e, hp⟩ := C32_page_header h hok {} rest
  rw [e]; exact hp

theorem nat_of_int {v : TVal} {id : Int16} {n : Nat} (h : int v id = some (n : Int)) : nat v id = some n := by
  simp [nat, h]

theorem readPage_ok (dec : Int → List UInt8 → Option (List UInt8)) (codec : Int) (file : List UInt8) (off : Nat)
    (h : PageHeader) (content raw tail : List UInt8) (hok : h.Ok)
    (hf : file.drop off = (h.write {}).buf ++ (content ++ tail))
    (hu : h.uncompressed.toInt = raw.length) (hc : h.compressed.toInt = content.length)
    (hr : Reads dec codec content raw) :
    readPage dec codec file off = some ⟨pageHeader h, raw, (h.write {}).buf.length + content.length⟩ := by
  have e3 : nat (pageHeader h) 3 = some content.length := nat_of_int (by rw [← hc]; rfl)
  have e2 : nat (pageHeader h) 2 = some raw.length := nat_of_int (by rw [← hu]; rfl)
  simp only [readPage]
  rw [hf, pageHeader_write h hok]
  simp only [Option.bind_eq_bind, Option.bind_some, e3, e2, Option.pure_def]
  rw [if_neg (by simp)]
  rcases hr with ⟨rfl, rfl⟩ | ⟨hne, hd⟩
  · simp
  · rw [if_neg hne, List.take_left' rfl, hd]
    simp

theorem compressPage_spec (env : WEnv) (dec : Int → List UInt8 → Option (List UInt8)) (hc : CodecOk env dec) (raw : List UInt8)
    (hraw : raw.length < 2 ^ 31) :
    (compressPage env raw).1.toInt = raw.length ∧
    (compressPage env raw).2.1.toInt = (compressPage env raw).2.2.1.length ∧
    ((compressPage env raw).2.2.2 = false → (compressPage env raw).2.2.1 = raw) ∧
    ((compressPage env raw).2.2.2 = true → env.compression ≠ .none ∧
      dec (producedFormat env.compression) (compressPage env raw).2.2.1 = some raw) := by
  have hi : (Int32.ofNat raw.length).toInt = raw.length := Int32.toInt_ofNat_of_lt (by omega)
  rw [compressPage]
  by_cases h : env.compression ≠ .none
  · rw [if_pos h]
    by_cases hl : (env.compress env.compression raw).length < raw.length
    · obtain ⟨hne, hd⟩ := hc raw hraw hl
      have hi' : (Int32.ofNat (env.compress env.compression raw).length).toInt = (env.compress env.compression raw).length :=
        Int32.toInt_ofNat_of_lt (by omega)
      dsimp only
      rw [if_pos hl]
      dsimp only
      rw [if_neg (by simpa using hne)]
      exact ⟨hi, hi', by simp, fun _ => ⟨h, hd⟩⟩
    · dsimp only
      rw [if_neg hl]
      exact ⟨hi, hi, fun _ => rfl, by simp⟩
  · rw [if_neg h]
    exact ⟨hi, hi, fun _ => rfl, by simp⟩

/-- Recorded codec number when a page was kept compressed. -/
theorem toParquetCodec_format (c : Compression) (h : c ≠ .lz4) : (toParquetCodec c).toInt = producedFormat c := by
  cases c <;> first | decide | exact absurd rfl h

theorem producedFormat_ne (c : Compression) (h : c ≠ .none) : producedFormat c ≠ 0 := by
  cases c <;> first | decide | exact absurd rfl h

/-! ### Column chunks -/

theorem field_meta_11 (m : ColumnMetaData) : field (columnMetaData m) 11 = m.dictPageOffset.map i64 := by
  simp only [columnMetaData, field]
  cases m.dictPageOffset with
  | none => cases m.statistics <;> rfl
  | some o => rfl

theorem readChunk_plain (dec : Int → List UInt8 → Option (List UInt8)) (file : List UInt8) (optional : Bool)
    (m : ColumnMetaData) (n total off : Nat) (enc : Int) (page : Page) (ph : TVal)
    (hd : m.dictPageOffset = none) (h5 : m.numValues.toInt = n) (h7 : m.totalCompressed.toInt = total)
    (h9 : m.dataPageOffset.toInt = off) (hp : readPage dec m.codec.toInt file off = some page)
    (ht : int page.header 1 = some 0) (hph : field page.header 5 = some ph) (hn : int ph 1 = some (n : Int))
    (he : int ph 2 = some enc) (hl : int ph 3 = some 3) (hsz : page.size = total) :
    readChunk dec file optional (columnMetaData m) = pageRows optional m.type.toInt enc none n page.body := by
  have e1 : int (columnMetaData m) 1 = some m.type.toInt := rfl
  have e4 : int (columnMetaData m) 4 = some m.codec.toInt := rfl
  have e5 : nat (columnMetaData m) 5 = some n := nat_of_int (by rw [← h5]; rfl)
  have e7 : nat (columnMetaData m) 7 = some total := nat_of_int (by rw [← h7]; rfl)
  have e9 : nat (columnMetaData m) 9 = some off := nat_of_int (by rw [← h9]; rfl)
  have e11 : field (columnMetaData m) 11 = none := by rw [field_meta_11, hd]; rfl
  have hn' : nat ph 1 = some n := nat_of_int hn
  simp only [readChunk, e1, e4, e5, e7, e9, e11, Option.bind_eq_bind, Option.bind_some, hp, ht, hph, hn', he, hl, hsz]
  simp

theorem readChunk_dict (dec : Int → List UInt8 → Option (List UInt8)) (file : List UInt8) (optional : Bool)
    (m : ColumnMetaData) (n total off doff k : Nat) (enc : Int) (page dpage : Page) (ph dph : TVal) (vals : List Val)
    (hd : m.dictPageOffset.map Int64.toInt = some (doff : Int)) (h5 : m.numValues.toInt = n) (h7 : m.totalCompressed.toInt = total)
    (h9 : m.dataPageOffset.toInt = off) (hp : readPage dec m.codec.toInt file off = some page)
    (hdp : readPage dec m.codec.toInt file doff = some dpage)
    (hdt : int dpage.header 1 = some 2) (hdph : field dpage.header 7 = some dph) (hdn : int dph 1 = some (k : Int))
    (hde : int dph 2 = some 0) (hdv : plainValues m.type.toInt k dpage.body = some vals) (hdsz : doff + dpage.size = off)
    (ht : int page.header 1 = some 0) (hph : field page.header 5 = some ph) (hn : int ph 1 = some (n : Int))
    (he : int ph 2 = some enc) (hl : int ph 3 = some 3) (hsz : dpage.size + page.size = total) :
    readChunk dec file optional (columnMetaData m) = pageRows optional m.type.toInt enc (some vals) n page.body := by
  have e1 : int (columnMetaData m) 1 = some m.type.toInt := rfl
  have e4 : int (columnMetaData m) 4 = some m.codec.toInt := rfl
  have e5 : nat (columnMetaData m) 5 = some n := nat_of_int (by rw [← h5]; rfl)
  have e7 : nat (columnMetaData m) 7 = some total := nat_of_int (by rw [← h7]; rfl)
  have e9 : nat (columnMetaData m) 9 = some off := nat_of_int (by rw [← h9]; rfl)
  have e11 : field (columnMetaData m) 11 = some (.i64 doff) := by
    rw [field_meta_11]
    cases hm : m.dictPageOffset with
    | none => rw [hm] at hd; simp at hd
    | some o => rw [hm] at hd; simp at hd; simp [i64, hd]
  have hn' : nat ph 1 = some n := nat_of_int hn
  have hdn' : nat dph 1 = some k := nat_of_int hdn
  simp only [readChunk, e1, e4, e5, e7, e9, e11, Option.bind_eq_bind, Option.bind_some, hp, ht, hph, hn', he, hl, asInt,
    Int.toNat_natCast, hdp, hdt, hdph, hdn', hde, hdv, hdsz]
  rw [← hdsz] at *
  simp
  omega

/-- Metadata recorded for a chunk written at a given position. -/
def metaAt (e : EncodedColumn) (off : Nat) : ColumnMetaData := (PWriter.writeColumn { offset := off } e).2

theorem pageRows_ok (cs : ColSchema) {col : ArrowColumn} {rows : List (Option Val)} (h : ColHist col rows)
    (hlen : rows.length < 2 ^ 31) (hnull : cs.nullable = true ∨ none ∉ rows) (ptype : Int) (v : ValuesEnc) (dict : Option (List Val))
    (hv : ValuesOk ptype v (rows.filterMap id) dict) :
    pageRows cs.nullable ptype v.encoding.toInt dict rows.length
      ((if cs.nullable then encodeDefLevelsArrow col.nulls 1 col.nulls.nullCountFast else []) ++ v.bytes) = some rows := by
  obtain ⟨hb, hs⟩ := colHist_basic h
  simp only [pageRows]
  by_cases h0 : rows.length = 0
  · rw [if_pos h0, List.length_eq_zero_iff.1 h0]
  · rw [if_neg h0]
    by_cases hn : cs.nullable = true
    · rw [if_pos hn, if_pos hn]
      have hd := C28_def_levels hb (by simpa using h0) (by simpa using hlen) 1 (by decide) v.bytes
      have hw : bitsRequired (1 : UInt8).toUInt32 = 1 := by decide +kernel
      rw [hw, List.length_map, List.map_map] at hd
      rw [hd]
      simp only [Option.bind_eq_bind, Option.bind_some]
      have hm : (fun v : Bool => if v = true then UInt8.toNat 1 else 0) ∘ Option.isSome
          = fun (o : Option Val) => if o.isSome then 1 else 0 := by funext o; rfl
      rw [hm, count_levels, hv, Option.bind_some, spread_rows]
    · have hnn : none ∉ rows := by tauto
      rw [if_neg hn, if_neg hn, List.nil_append]
      have hall : (rows.filterMap id).map some = rows := by
        clear h hb hs hlen hv h0 hnull
        induction rows with
        | nil => rfl
        | cons o t ih =>
          cases o with
          | none => simp at hnn
          | some a =>
            show some a :: _ = _
            rw [ih (by simp at hnn; exact hnn)]
      have hl : (rows.filterMap id).length = rows.length := by
        conv_rhs => rw [← hall]
        simp
      rw [ValuesOk, hl] at hv
      rw [hv, Option.map_some, hall]

theorem field_page_5 (h : PageHeader) : field (pageHeader h) 5 = h.dataPage.map dataPageHeader := by
  simp only [pageHeader, field]
  cases h.crc <;> cases h.dataPage <;> cases h.dictPage <;> rfl

theorem field_page_7 (h : PageHeader) : field (pageHeader h) 7 = h.dictPage.map dictPageHeader := by
  simp only [pageHeader, field]
  cases h.crc <;> cases h.dataPage <;> cases h.dictPage <;> rfl

/-- A chunk without dictionary page. -/
theorem chunk_reads_plain (dec : Int → List UInt8 → Option (List UInt8)) (e : EncodedColumn) (h : PageHeader) (dp : DataPageHeader)
    (optional : Bool) (n : Nat) (raw : List UInt8) (hok : h.Ok) (hh : e.header = (h.write {}).buf) (hud : e.usesDictionary = false)
    (ht : h.type = 0) (hdp : h.dataPage = some dp) (hde : dp.defEncoding = 3) (hdn : dp.numValues.toInt = n)
    (hn : e.numValues.toInt = n) (hu : h.uncompressed.toInt = raw.length) (hc : h.compressed.toInt = e.content.length)
    (hr : Reads dec e.codec.toInt e.content raw) (file : List UInt8) (off : Nat) (tail : List UInt8)
    (hf : file.drop off = chunkBytes e ++ tail) (hoff : off + (chunkBytes e).length < 2 ^ 63) :
    readChunk dec file optional (columnMetaData (metaAt e off))
      = pageRows optional (toParquetType e.dataType).toInt dp.encoding.toInt none n raw := by
  have hcb : chunkBytes e = e.header ++ e.content := by simp [chunkBytes, dictBytes, hud]
  rw [hcb] at hf hoff
  have hpage := readPage_ok dec e.codec.toInt file off h e.content raw tail hok
    (by rw [hf, hh, List.append_assoc]) hu hc hr
  have m1 : (metaAt e off).dictPageOffset = none := by simp [metaAt, PWriter.writeColumn, hud]
  have m2 : (metaAt e off).totalCompressed.toInt = ((e.header.length + e.content.length : Nat) : Int) := by
    simp only [metaAt, PWriter.writeColumn, hud, Int64.zero_add]
    rw [Int64.toInt_ofNat_of_lt (by simp at hoff; omega)]
  have m3 : (metaAt e off).dataPageOffset.toInt = (off : Int) := by
    simp only [metaAt, PWriter.writeColumn, hud]
    rw [Int64.toInt_ofNat_of_lt (by omega)]
  have m4 : (metaAt e off).codec = e.codec := by simp [metaAt, PWriter.writeColumn]
  have m5 : (metaAt e off).numValues = e.numValues := by simp [metaAt, PWriter.writeColumn]
  have m6 : (metaAt e off).type = toParquetType e.dataType := by simp [metaAt, PWriter.writeColumn]
  have := readChunk_plain dec file optional (metaAt e off) n (e.header.length + e.content.length) off dp.encoding.toInt
      _ (dataPageHeader dp) m1 (by rw [m5, hn]) m2 m3 (by rw [m4]; exact hpage)
      (by show some h.type.toInt = _; rw [ht]; rfl) (by rw [field_page_5, hdp]; rfl) (by rw [← hdn]; rfl) rfl
      (by show some dp.defEncoding.toInt = _; rw [hde]; rfl) (by rw [hh])
  rw [m6] at this
  exact this

/-- A chunk with a dictionary page. -/
theorem chunk_reads_dict (dec : Int → List UInt8 → Option (List UInt8)) (e : EncodedColumn) (h : PageHeader) (dp : DataPageHeader)
    (optional : Bool) (n : Nat) (raw : List UInt8) (hok : h.Ok) (hh : e.header = (h.write {}).buf) (hud : e.usesDictionary = true)
    (ht : h.type = 0) (hdp : h.dataPage = some dp) (hde : dp.defEncoding = 3) (hdn : dp.numValues.toInt = n)
    (hn : e.numValues.toInt = n) (hu : h.uncompressed.toInt = raw.length) (hc : h.compressed.toInt = e.content.length)
    (hr : Reads dec e.codec.toInt e.content raw)
    (dh : PageHeader) (ddp : DictPageHeader) (dhb dcb draw : List UInt8) (vals : List Val) (hdok : dh.Ok)
    (hdh : e.dictHeader = some dhb) (hdc : e.dictContent = some dcb) (hdhb : dhb = (dh.write {}).buf) (hdt : dh.type = 2)
    (hddp : dh.dictPage = some ddp) (hdenc : ddp.encoding = 0) (hddn : ddp.numValues.toInt = vals.length)
    (hdu : dh.uncompressed.toInt = draw.length) (hdcc : dh.compressed.toInt = dcb.length)
    (hdr : Reads dec e.codec.toInt dcb draw) (hdv : plainValues (toParquetType e.dataType).toInt vals.length draw = some vals)
    (file : List UInt8) (off : Nat) (tail : List UInt8)
    (hf : file.drop off = chunkBytes e ++ tail) (hoff : off + (chunkBytes e).length < 2 ^ 63) :
    readChunk dec file optional (columnMetaData (metaAt e off))
      = pageRows optional (toParquetType e.dataType).toInt dp.encoding.toInt (some vals) n raw := by
  have hcb : chunkBytes e = dhb ++ dcb ++ (e.header ++ e.content) := by simp [chunkBytes, dictBytes, hud, hdh, hdc]
  rw [hcb] at hf hoff
  have hf2 : file.drop (off + (dhb ++ dcb).length) = (e.header ++ e.content) ++ tail := by
    rw [← List.drop_drop, hf, List.append_assoc, List.drop_left' rfl]
  have hdpage := readPage_ok dec e.codec.toInt file off dh dcb draw (e.header ++ e.content ++ tail) hdok
    (by rw [hf, ← hdhb]; simp) hdu hdcc hdr
  have hpage := readPage_ok dec e.codec.toInt file (off + (dhb ++ dcb).length) h e.content raw tail hok
    (by rw [hf2, hh, List.append_assoc]) hu hc hr
  have hl : off + (dhb.length + dcb.length) + (e.header.length + e.content.length) < 2 ^ 63 := by
    simp only [List.length_append] at hoff; omega
  have m1 : (metaAt e off).dictPageOffset.map Int64.toInt = some (off : Int) := by
    simp only [metaAt, PWriter.writeColumn, hud, hdh, hdc]
    rw [if_pos trivial, Option.map_some, Int64.toInt_ofNat_of_lt (by omega)]
  have m2 : (metaAt e off).totalCompressed.toInt
      = ((dhb.length + dcb.length + (e.header.length + e.content.length) : Nat) : Int) := by
    simp only [metaAt, PWriter.writeColumn, hud, hdh, hdc]
    rw [← Int64.ofNat_add, Int64.toInt_ofNat_of_lt (by omega)]
  have m3 : (metaAt e off).dataPageOffset.toInt = ((off + (dhb ++ dcb).length : Nat) : Int) := by
    simp only [metaAt, PWriter.writeColumn, hud, hdh, hdc, PWriter.writeBytes]
    rw [Int64.toInt_ofNat_of_lt (by omega), List.length_append]; omega
  have m4 : (metaAt e off).codec = e.codec := by simp [metaAt, PWriter.writeColumn]
  have m5 : (metaAt e off).numValues = e.numValues := by simp [metaAt, PWriter.writeColumn]
  have m6 : (metaAt e off).type = toParquetType e.dataType := by simp [metaAt, PWriter.writeColumn]
  have := readChunk_dict dec file optional (metaAt e off) n (dhb.length + dcb.length + (e.header.length + e.content.length))
      (off + (dhb ++ dcb).length) off vals.length dp.encoding.toInt _ _ (dataPageHeader dp) (dictPageHeader ddp) vals
      m1 (by rw [m5, hn]) m2 m3 (by rw [m4]; exact hpage) (by rw [m4]; exact hdpage)
      (by show some dh.type.toInt = _; rw [hdt]; rfl) (by rw [field_page_7, hddp]; rfl) (by rw [← hddn]; rfl)
      (by show some ddp.encoding.toInt = _; rw [hdenc]; rfl) (by rw [m6]; exact hdv) (by rw [← hdhb, List.length_append])
      (by show some h.type.toInt = _; rw [ht]; rfl) (by rw [field_page_5, hdp]; rfl) (by rw [← hdn]; rfl) rfl
      (by show some dp.defEncoding.toInt = _; rw [hde]; rfl) (by rw [← hdhb, ← hh])
  rw [m6] at this
  exact this

/-- A written chunk reads back: wherever the chunk's bytes are in the file, the reader guided by the
recorded metadata gets the cells. -/
theorem chunk_reads (env : WEnv) (dec : Int → List UInt8 → Option (List UInt8)) (hc : CodecOk env dec)
    (hlz : env.compression ≠ .lz4) (cs : ColSchema) {col : ArrowColumn} {rows : List (Option Val)} (h : ColHist col rows)
    (hlen : rows.length < 2 ^ 31) (hnull : cs.nullable = true ∨ none ∉ rows) (hsm : PagesSmall env cs col)
    (hag : PagesAgree env cs col) :
    ∃ e, encodeColumnArrow env cs col = some e ∧ e.name = cs.name ∧ e.dataType = col.type ∧ e.statistics = none ∧
      ∀ (file : List UInt8) (off : Nat) (tail : List UInt8), file.drop off = chunkBytes e ++ tail →
        off + (chunkBytes e).length < 2 ^ 63 →
        readChunk dec file cs.nullable (columnMetaData (metaAt e off)) = some rows := by
  obtain ⟨v, dict, hev, hdok, hdstr, hvok⟩ := encodeValues_ok env h hlen
  obtain ⟨hb, hsz⟩ := colHist_basic h
  have hraw : rawDataPage env cs col
      = (if cs.nullable then encodeDefLevelsArrow col.nulls 1 col.nulls.nullCountFast else []) ++ v.bytes := by
    simp [rawDataPage, hev]
  have hrows := pageRows_ok cs h hlen hnull _ v dict hvok
  rw [← hraw] at hrows
  obtain ⟨s1, s2, s3, s4⟩ := compressPage_spec env dec hc _ hsm.1
  generalize hcp : compressPage env (rawDataPage env cs col) = cp at s1 s2 s3 s4
  have hcodec : ∀ (k : Bool) (content raw : List UInt8), (k = false → content = raw) →
      (k = true → env.compression ≠ .none ∧ dec (producedFormat env.compression) content = some raw) →
      Reads dec (if k then toParquetCodec env.compression else 0).toInt content raw := by
    intro k content raw h1 h2
    cases k with
    | false => left; exact ⟨rfl, h1 rfl⟩
    | true =>
      obtain ⟨a, b⟩ := h2 rfl
      right
      rw [if_pos rfl, toParquetCodec_format _ hlz]
      exact ⟨producedFormat_ne _ a, b⟩
  have hnv : (Int32.ofNat col.size).toInt = rows.length := by rw [hsz]; exact Int32.toInt_ofNat_of_lt (by omega)
  have hnv64 : (Int64.ofNat col.size).toInt = rows.length := by rw [hsz]; exact Int64.toInt_ofNat_of_lt (by omega)
  obtain ⟨dp, hdp⟩ : ∃ dp : DataPageHeader, dp = ⟨Int32.ofNat col.size, v.encoding, 3, 3, none⟩ := ⟨_, rfl⟩
  obtain ⟨hdr, hhdr⟩ : ∃ hdr : PageHeader, hdr = ⟨0, cp.1, cp.2.1, none, some dp, none⟩ := ⟨_, rfl⟩
  have hok : hdr.Ok := by subst hhdr hdp; intro d hd; simp at hd; subst hd; intro s hs; simp at hs
  obtain ⟨e, he⟩ : ∃ e : EncodedColumn, e =
      { header := (hdr.write {}).buf, content := cp.2.2.1, numValues := Int64.ofNat col.size,
        nullCount := Int64.ofNat col.nulls.nullCountFast, uncompressed := cp.1.toInt64, compressed := cp.2.1.toInt64,
        codec := if cp.2.2.2 then toParquetCodec env.compression else 0,
        dataType := col.type, name := cs.name, isNullable := cs.nullable,
        dictHeader := v.dict.map (·.1), dictContent := v.dict.map (·.2.1), usesDictionary := v.dict.isSome,
        dictUncompressed := (v.dict.map (·.2.2)).getD 0 } := ⟨_, rfl⟩
  have henc : encodeColumnArrow env cs col = some e := by
    simp only [encodeColumnArrow, hev]
    rw [← hraw, hcp, he, hhdr, hdp]
  refine ⟨e, henc, by rw [he], by rw [he], by rw [he], ?_⟩
  have e1 : e.header = (hdr.write {}).buf := by rw [he]
  have e2 : e.content = cp.2.2.1 := by rw [he]
  have e3 : e.numValues = Int64.ofNat col.size := by rw [he]
  have e4 : e.codec = if cp.2.2.2 then toParquetCodec env.compression else 0 := by rw [he]
  have e5 : e.dataType = col.type := by rw [he]
  have e6 : e.dictHeader = v.dict.map (·.1) := by rw [he]
  have e7 : e.dictContent = v.dict.map (·.2.1) := by rw [he]
  have e8 : e.usesDictionary = v.dict.isSome := by rw [he]
  clear he henc
  have h1 : hdr.type = 0 := by rw [hhdr]
  have h2 : hdr.dataPage = some dp := by rw [hhdr]
  have h3 : dp.defEncoding = 3 := by rw [hdp]
  have h4 : dp.numValues.toInt = rows.length := by rw [hdp]; exact hnv
  have h5 : hdr.uncompressed = cp.1 := by rw [hhdr]
  have h6 : hdr.compressed = cp.2.1 := by rw [hhdr]
  have h7 : dp.encoding = v.encoding := by rw [hdp]
  clear hhdr hdp
  intro file off tail hf hoff
  cases hvd : v.dict with
  | none =>
    have hdict : dict = none := by
      cases dict with
      | none => rfl
      | some d => simp [DictOk, hvd] at hdok
    subst hdict
    rw [chunk_reads_plain dec e hdr dp cs.nullable rows.length (rawDataPage env cs col) hok e1 (by rw [e8, hvd]; rfl) h1 h2 h3 h4
      (by rw [e3]; exact hnv64) (by rw [h5]; exact s1) (by rw [h6, e2]; exact s2)
      (by rw [e4, e2]; exact hcodec _ _ _ s3 s4) file off tail hf hoff, e5, h7]
    exact hrows
  | some d =>
    obtain ⟨dh, dc, du⟩ := d
    cases dict with
    | none => simp [DictOk, hvd] at hdok
    | some vals =>
    simp only [DictOk, hvd] at hdok
    obtain ⟨q1, q2, q3, q4, q5⟩ := hdok
    have hst := hdstr (by simp)
    obtain ⟨d1, d2, d3, d4⟩ := compressPage_spec env dec hc _ hsm.2
    have hagree := hag v hev (by simp [hvd])
    rw [hcp] at hagree
    generalize hcd : compressPage env (rawDictPage col) = cd at d1 d2 d3 d4 hagree q2 q3 q4
    obtain ⟨dhdr, hdhdr⟩ : ∃ dhdr : PageHeader, dhdr = ⟨2, cd.1, cd.2.1, none, none, some ⟨Int32.ofNat vals.length, 0, none⟩⟩ :=
      ⟨_, rfl⟩
    have hdok2 : dhdr.Ok := by rw [hdhdr]; intro d hd; simp at hd
    rw [chunk_reads_dict dec e hdr dp cs.nullable rows.length (rawDataPage env cs col) hok e1 (by rw [e8, hvd]; rfl) h1 h2 h3 h4
      (by rw [e3]; exact hnv64) (by rw [h5]; exact s1) (by rw [h6, e2]; exact s2)
      (by rw [e4, e2]; exact hcodec _ _ _ s3 s4) dhdr ⟨Int32.ofNat vals.length, 0, none⟩ dh dc (rawDictPage col) vals hdok2
      (by rw [e6, hvd]; rfl) (by rw [e7, hvd]; rfl) (by rw [q4, hdhdr]) (by rw [hdhdr]) (by rw [hdhdr]) rfl
      (Int32.toInt_ofNat_of_lt (by omega)) (by rw [hdhdr]; exact d1) (by rw [hdhdr, q2]; exact d2)
      (by rw [e4, q2, ← hagree]; exact hcodec _ _ _ d3 d4) (by rw [e5, hst]; exact q1) file off tail hf hoff, e5, h7]
    exact hrows

end Vroom
