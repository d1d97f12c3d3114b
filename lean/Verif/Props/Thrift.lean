import Verif.Spec.Thrift
import Verif.Props.Encoding
import Mathlib.Tactic.IntervalCases
import Mathlib.Tactic.Tauto
/-
C32: the emitted Thrift metadata parses back.
-/
namespace Vroom
open Parquet Thrift

/-- Type identifier of a value. -/
def tcode : TVal → UInt8
  | .bool b => if b then 1 else 2
  | .i32 _ => 5
  | .i64 _ => 6
  | .bin _ => 8
  | .list .. => 9
  | .struct _ => 12

/-- Bytes of a field header after field `last`. -/
def fieldHdr (last id : Int16) (ty : UInt8) : List UInt8 := (TW.fieldBegin { last := last } id ty).buf

/-- Bytes of a list header. -/
def listHdr (elem : UInt8) (n : Nat) : List UInt8 := (TW.listBegin {} elem n).buf

mutual
/-- `bs` is what the writer emits for the value. -/
inductive EncVal : TVal → List UInt8 → Prop
  | bool (b : Bool) : EncVal (.bool b) []
  | i32 (v : Int32) : EncVal (.i32 v.toInt) (writeSignedVarint v.toInt64)
  | i64 (v : Int64) : EncVal (.i64 v.toInt) (writeSignedVarint v)
  | bin (bs : List UInt8) (h : bs.length < 2 ^ 64) : EncVal (.bin bs) (writeVarint (UInt64.ofNat bs.length) ++ bs)
  | list (elem : UInt8) (vs : List TVal) (bs : List UInt8) (he : elem < 16) (hl : vs.length < 2 ^ 31)
      (h : EncElems elem vs bs) : EncVal (.list elem.toNat vs) (listHdr elem vs.length ++ bs)
  | struct (fs : List (Int16 × TVal)) (bs : List UInt8) (l : Int16) (h : EncF 0 fs bs l) : EncVal (.struct fs) (bs ++ [0])
inductive EncElems : UInt8 → List TVal → List UInt8 → Prop
  | nil (e : UInt8) : EncElems e [] []
  | cons (v : TVal) (vs : List TVal) (bs bs' : List UInt8) (hne : bs ≠ []) (h : EncVal v bs)
      (h' : EncElems (tcode v) vs bs') : EncElems (tcode v) (v :: vs) (bs ++ bs')
inductive EncF : Int16 → List (Int16 × TVal) → List UInt8 → Int16 → Prop
  | nil (l : Int16) : EncF l [] [] l
  | cons (l id : Int16) (v : TVal) (fs : List (Int16 × TVal)) (bs bs' : List UInt8) (l' : Int16) (h : EncVal v bs)
      (h' : EncF id fs bs' l') : EncF l ((id, v) :: fs) (fieldHdr l id (tcode v) ++ (bs ++ bs')) l'
end

theorem tcode_range (v : TVal) : 0 < (tcode v).toNat ∧ (tcode v).toNat < 16 := by
  cases v <;> simp [tcode]
  split <;> simp

theorem signedVarint_read (v : Int64) (rest : List UInt8) :
    ∃ m, readVarint (writeSignedVarint v ++ rest) = some (m, rest) ∧ unzigzag m = v.toInt :=
  ⟨_, C26_varint_roundtrip _ _, C26_zigzag_roundtrip v⟩

theorem nibbles (k t : Fin 16) : ((UInt8.ofNat k.val <<< 4) ||| UInt8.ofNat t.val).toNat = 16 * k.val + t.val := by
  revert k t; decide +kernel

theorem nibbles' (k : Nat) (ty : UInt8) (hk : k < 16) (ht : ty.toNat < 16) :
    ((UInt8.ofNat k <<< 4) ||| ty).toNat = 16 * k + ty.toNat := by
  have := nibbles ⟨k, hk⟩ ⟨ty.toNat, ht⟩
  simpa using this

theorem int16_small (d : Int16) (h : 0 < d ∧ d ≤ 15) : ∃ k : Nat, 0 < k ∧ k < 16 ∧ d = Int16.ofNat k := by
  have h1 := Int16.lt_iff_toInt_lt.1 h.1
  have h2 := Int16.le_iff_toInt_le.1 h.2
  have e0 : (0 : Int16).toInt = 0 := by decide
  have e15 : (15 : Int16).toInt = 15 := by decide
  rw [e0] at h1; rw [e15] at h2
  refine ⟨d.toInt.toNat, by omega, by omega, ?_⟩
  apply Int16.toInt_inj.1
  rw [Int16.toInt_ofNat_of_lt (by omega)]
  omega

theorem int16_byte (k : Nat) (hk : k < 16) : (Int16.ofNat k).toUInt16.toUInt8 = UInt8.ofNat k := by
  interval_cases k <;> decide

/-- Reading back a field header. -/
theorem fieldHdr_read (last id : Int16) (ty : UInt8) (h0 : 0 < ty.toNat) (h16 : ty.toNat < 16) :
    ∃ h t, fieldHdr last id ty = h :: t ∧ h ≠ 0 ∧ h.toNat % 16 = ty.toNat ∧
      ∀ rest, (if h.toNat / 16 = 0 then (readVarint (t ++ rest)).map (fun p => (Int16.ofInt (unzigzag p.1), p.2))
                 else some (last + Int16.ofNat (h.toNat / 16), t ++ rest)) = some (id, rest) := by
  by_cases hd : 0 < id - last ∧ id - last ≤ 15
  · obtain ⟨k, hk0, hk, e⟩ := int16_small _ hd
    have hn := nibbles' k ty hk h16
    refine ⟨(UInt8.ofNat k <<< 4) ||| ty, [], ?_, ?_, ?_, ?_⟩
    · simp only [fieldHdr, TW.fieldBegin]
      rw [if_pos hd, TW.put, e, int16_byte k hk]; rfl
    · intro hz; rw [hz] at hn; simp at hn; omega
    · omega
    · intro rest
      rw [if_neg (by omega), show ((UInt8.ofNat k <<< 4) ||| ty).toNat / 16 = k by omega, ← e]
      have : last + (id - last) = id := by
        rw [Int16.sub_eq_add_neg]
        rw [Int16.add_comm id, ← Int16.add_assoc, Int16.add_right_neg, Int16.zero_add]
      rw [this]; rfl
  · refine ⟨ty, writeSignedVarint id.toInt64, ?_, ?_, by omega, ?_⟩
    · simp only [fieldHdr, TW.fieldBegin]
      rw [if_neg hd]; rfl
    · intro hz; rw [hz] at h0; simp at h0
    · intro rest
      obtain ⟨m, hm, hz⟩ := signedVarint_read id.toInt64 rest
      rw [if_pos (by omega), hm]
      simp only [Option.map_some, hz, Int16.toInt_toInt64, Int16.ofInt_toInt]

theorem listHdr_read (elem : UInt8) (n : Nat) (he : elem.toNat < 16) (hn : n < 2 ^ 31) :
    ∃ h t, listHdr elem n = h :: t ∧ h.toNat % 16 = elem.toNat ∧
      ∀ rest, (if h.toNat / 16 = 15 then readVarint (t ++ rest) else some (h.toNat / 16, t ++ rest)) = some (n, rest) := by
  have hti : (Int32.ofNat n).toInt = n := Int32.toInt_ofNat_of_lt (by omega)
  have e15 : (15 : Int32).toInt = 15 := by decide
  by_cases h : Int32.ofNat n < 15
  · have h' := Int32.lt_iff_toInt_lt.1 h
    rw [hti, e15] at h'
    have hb : (Int32.ofNat n).toUInt32.toUInt8 = UInt8.ofNat n := by
      have : n < 15 := by omega
      interval_cases n <;> decide
    have hnb := nibbles' n elem (by omega) he
    refine ⟨(UInt8.ofNat n <<< 4) ||| elem, [], ?_, by omega, ?_⟩
    · simp only [listHdr, TW.listBegin]
      rw [if_pos h, hb]; rfl
    · intro rest
      rw [if_neg (by omega), show ((UInt8.ofNat n <<< 4) ||| elem).toNat / 16 = n by omega]; rfl
  · have h' : ¬ (Int32.ofNat n).toInt < (15 : Int32).toInt := fun hh => h (Int32.lt_iff_toInt_lt.2 hh)
    rw [hti, e15] at h'
    have hnb := nibbles' 15 elem (by omega) he
    have e240 : UInt8.ofNat 15 <<< 4 = 0xF0 := by decide
    rw [e240] at hnb
    refine ⟨0xF0 ||| elem, writeVarint (Int32.ofNat n).toInt64.toUInt64, ?_, by omega, ?_⟩
    · simp only [listHdr, TW.listBegin]
      rw [if_neg h]; rfl
    · intro rest
      rw [if_pos (by omega), C26_varint_roundtrip]
      have h64 : ((Int32.ofNat n).toInt64.toUInt64).toNat = n := by
        have h1 : (Int32.ofNat n).toInt64.toInt = n := by rw [Int32.toInt_toInt64, hti]
        have h2 : (Int32.ofNat n).toInt64 = Int64.ofNat n := by
          apply Int64.toInt_inj.1
          rw [h1, Int64.toInt_ofNat_of_lt (by omega)]
        rw [h2]
        show (Int64.ofNat n).toBitVec.toNat = n
        simp; omega
      rw [h64]

/-! ### Reading what the writer emits -/

mutual
theorem EncVal.read : ∀ {v : TVal} {bs : List UInt8}, EncVal v bs → ∀ (n : Nat) (rest : List UInt8), 2 * bs.length + 1 ≤ n →
    readVal n (tcode v).toNat (bs ++ rest) = some (v, rest)
  | _, _, .bool b, n, rest, hn => by
    obtain ⟨m, rfl⟩ : ∃ m, n = m + 1 := ⟨n - 1, by omega⟩
    cases b <;> simp [readVal, tcode]
  | _, _, .i32 v, n, rest, hn => by
    obtain ⟨m, rfl⟩ : ∃ m, n = m + 1 := ⟨n - 1, by omega⟩
    obtain ⟨k, hk, hz⟩ := signedVarint_read v.toInt64 rest
    simp [readVal, tcode, hk, hz]
  | _, _, .i64 v, n, rest, hn => by
    obtain ⟨m, rfl⟩ : ∃ m, n = m + 1 := ⟨n - 1, by omega⟩
    obtain ⟨k, hk, hz⟩ := signedVarint_read v rest
    simp [readVal, tcode, hk, hz]
  | _, _, .bin bs h, n, rest, hn => by
    obtain ⟨m, rfl⟩ : ∃ m, n = m + 1 := ⟨n - 1, by omega⟩
    have hl : (UInt64.ofNat bs.length).toNat = bs.length := Nat.mod_eq_of_lt h
    simp only [readVal, tcode, List.append_assoc]
    rw [C26_varint_roundtrip, hl]
    simp
  | _, _, .list elem vs bs he hl h, n, rest, hn => by
    obtain ⟨m, rfl⟩ : ∃ m, n = m + 1 := ⟨n - 1, by omega⟩
    obtain ⟨hd, t, e, hm, hr⟩ := listHdr_read elem vs.length (UInt8.lt_iff_toNat_lt.1 he) hl
    rw [e] at hn ⊢
    simp only [List.length_append, List.length_cons] at hn
    simp only [readVal, tcode, List.cons_append, List.append_assoc]
    simp only [hr (bs ++ rest), hm]
    rw [EncElems.read h m rest (by omega)]
    simp
  | _, _, .struct fs bs l h, n, rest, hn => by
    obtain ⟨m, rfl⟩ : ∃ m, n = m + 1 := ⟨n - 1, by omega⟩
    simp only [List.length_append, List.length_cons, List.length_nil] at hn
    simp only [readVal, tcode, List.append_assoc, List.cons_append, List.nil_append]
    rw [EncF.read h m rest (by omega)]
    simp
theorem EncElems.read : ∀ {e : UInt8} {vs : List TVal} {bs : List UInt8}, EncElems e vs bs →
    ∀ (n : Nat) (rest : List UInt8), 2 * bs.length + 2 ≤ n →
    readVal.readElems n e.toNat vs.length (bs ++ rest) = some (vs, rest)
  | _, _, _, .nil e, n, rest, hn => by
    obtain ⟨m, rfl⟩ : ∃ m, n = m + 1 := ⟨n - 1, by omega⟩
    simp [readVal.readElems]
  | _, _, _, .cons v vs bs bs' hne h h', n, rest, hn => by
    obtain ⟨m, rfl⟩ : ∃ m, n = m + 1 := ⟨n - 1, by omega⟩
    have hp := List.length_pos_iff.2 hne
    simp only [List.length_append] at hn
    simp only [readVal.readElems, List.length_cons, List.append_assoc]
    rw [EncVal.read h m (bs' ++ rest) (by omega)]
    dsimp only
    rw [EncElems.read h' m rest (by omega)]
    simp
theorem EncF.read : ∀ {l : Int16} {fs : List (Int16 × TVal)} {bs : List UInt8} {l' : Int16}, EncF l fs bs l' →
    ∀ (n : Nat) (rest : List UInt8), 2 * (bs.length + 1) ≤ n →
    readVal.readFields n l (bs ++ 0 :: rest) = some (fs, rest)
  | _, _, _, _, .nil l, n, rest, hn => by
    obtain ⟨m, rfl⟩ : ∃ m, n = m + 1 := ⟨n - 1, by omega⟩
    simp [readVal.readFields]
  | _, _, _, _, .cons l id v fs bs bs' l' h h', n, rest, hn => by
    obtain ⟨m, rfl⟩ : ∃ m, n = m + 1 := ⟨n - 1, by omega⟩
    obtain ⟨r1, r2⟩ := tcode_range v
    obtain ⟨hd, t, e, hz, hm, hr⟩ := fieldHdr_read l id (tcode v) r1 r2
    rw [e] at hn ⊢
    simp only [List.length_append, List.length_cons] at hn
    simp only [readVal.readFields, List.cons_append, List.append_assoc]
    rw [if_neg hz]
    simp only [hr (bs ++ (bs' ++ 0 :: rest)), hm]
    rw [EncVal.read h m (bs' ++ 0 :: rest) (by omega)]
    dsimp only
    rw [EncF.read h' m rest (by omega)]
    simp
end

/-! ### The writer emits such encodings -/

/-- `f` appends an encoding of `v` and changes nothing else. -/
def Emits (f : TW → TW) (v : TVal) : Prop := ∀ w, ∃ bs, EncVal v bs ∧ bs ≠ [] ∧ f w = w.put bs

/-- Between `w0` and `w` the fields `fs` were written. -/
def Wrote (w0 w : TW) (fs : List (Int16 × TVal)) : Prop :=
  w.stack = w0.stack ∧ ∃ bs, w.buf = w0.buf ++ bs ∧ EncF w0.last fs bs w.last

theorem EncF.append {l m k : Int16} {fs gs : List (Int16 × TVal)} {bs cs : List UInt8} :
    EncF l fs bs m → EncF m gs cs k → EncF l (fs ++ gs) (bs ++ cs) k
  | .nil _, h2 => h2
  | .cons l id v fs bs bs' l' h h', h2 => by
    have := EncF.cons l id v (fs ++ gs) bs (bs' ++ cs) k h (h'.append h2)
    simpa using this

theorem put_put (w : TW) (a b : List UInt8) : (w.put a).put b = w.put (a ++ b) := by
  simp [TW.put]

theorem fieldBegin_eq (w : TW) (id : Int16) (ty : UInt8) :
    w.fieldBegin id ty = { (w.put (fieldHdr w.last id ty)) with last := id } := by
  simp only [TW.fieldBegin, fieldHdr]
  by_cases h : 0 < id - w.last ∧ id - w.last ≤ 15
  · rw [if_pos h, if_pos h]; rfl
  · rw [if_neg h, if_neg h]; simp [TW.put, TW.signedVarint]

theorem listBegin_eq (w : TW) (e : UInt8) (n : Nat) : w.listBegin e n = w.put (listHdr e n) := by
  simp only [TW.listBegin, listHdr]
  by_cases h : Int32.ofNat n < 15
  · rw [if_pos h, if_pos h]; rfl
  · rw [if_neg h, if_neg h]; simp [TW.put, TW.varint]

theorem Wrote.refl (w : TW) : Wrote w w [] := ⟨rfl, [], by simp, .nil _⟩

theorem Wrote.snocBytes {w0 w w' : TW} {fs : List (Int16 × TVal)} {id : Int16} {v : TVal} {bs : List UInt8}
    (h : Wrote w0 w fs) (he : EncVal v bs) (hw : w' = (w.fieldBegin id (tcode v)).put bs) :
    Wrote w0 w' (fs ++ [(id, v)]) := by
  obtain ⟨h1, cs, h2, h3⟩ := h
  subst hw
  rw [fieldBegin_eq]
  refine ⟨h1, cs ++ (fieldHdr w.last id (tcode v) ++ (bs ++ [])), ?_, ?_⟩
  · simp [TW.put, h2]
  · exact h3.append (.cons _ id v [] bs [] id he (.nil id))

theorem Wrote.snoc {w0 w : TW} {fs : List (Int16 × TVal)} {id : Int16} {v : TVal} {f : TW → TW} {ty : UInt8}
    (h : Wrote w0 w fs) (he : Emits f v) (ht : ty = tcode v) :
    Wrote w0 (f (w.fieldBegin id ty)) (fs ++ [(id, v)]) := by
  subst ht
  obtain ⟨bs, e1, _, e2⟩ := he (w.fieldBegin id (tcode v))
  exact h.snocBytes e1 e2

theorem Wrote.opt {α : Type} {w0 w : TW} {fs : List (Int16 × TVal)} {id : Int16} {x : Option α} {g : α → TVal}
    {f : TW → α → TW} {ty : UInt8} (h : Wrote w0 w fs) (he : ∀ a, x = some a → Emits (fun w => f w a) (g a))
    (ht : ∀ a, ty = tcode (g a)) :
    Wrote w0 (w.opt x (fun w a => f (w.fieldBegin id ty) a)) (fs ++ fld id x g) := by
  cases x with
  | none => simpa [TW.opt, fld] using h
  | some a => exact h.snoc (he a rfl) (ht a)

theorem Wrote.optBool {w0 w : TW} {fs : List (Int16 × TVal)} {id : Int16} {x : Option Bool} (h : Wrote w0 w fs) :
    Wrote w0 (w.opt x (fun w b => w.fieldBegin id (if b then TW.tTrue else TW.tFalse))) (fs ++ fld id x .bool) := by
  cases x with
  | none => simpa [TW.opt, fld] using h
  | some b =>
    refine h.snocBytes (EncVal.bool b) ?_
    cases b <;> simp [TW.opt, TW.put, tcode, TW.tTrue, TW.tFalse]

theorem Emits.struct {fs : List (Int16 × TVal)} {f : TW → TW} (h : ∀ w : TW, Wrote w.structBegin (f w) fs) :
    Emits (fun w => (f w).structEnd) (.struct fs) := by
  intro w
  obtain ⟨h1, bs, h2, h3⟩ := h w
  refine ⟨bs ++ [0], .struct fs bs _ h3, by simp, ?_⟩
  simp only [TW.structBegin] at h1 h2
  simp only [TW.structEnd, TW.fieldStop, TW.put, h1]
  simp [h2]

theorem writeVarint_ne (v : UInt64) : writeVarint v ≠ [] := writeVarint_ne_nil v

theorem emits_i32 (v : Int32) : Emits (fun w => w.i32 v) (i32 v) :=
  fun _ => ⟨_, .i32 v, writeVarint_ne _, rfl⟩

theorem emits_i64 (v : Int64) : Emits (fun w => w.i64 v) (i64 v) :=
  fun _ => ⟨_, .i64 v, writeVarint_ne _, rfl⟩

theorem emits_bin (bs : List UInt8) (h : bs.length < 2 ^ 64) : Emits (fun w => w.bin bs) (.bin bs) :=
  fun w => ⟨_, .bin bs h, by simp [writeVarint_ne], by simp [TW.bin, TW.varint, put_put]⟩

theorem elems_emit {α : Type} {f : TW → α → TW} {g : α → TVal} {e : UInt8} (l : List α)
    (hf : ∀ a ∈ l, Emits (fun w => f w a) (g a)) (he : ∀ a, tcode (g a) = e) (w : TW) :
    ∃ bs, EncElems e (l.map g) bs ∧ l.foldl f w = w.put bs := by
  induction l generalizing w with
  | nil => exact ⟨[], .nil e, by simp [TW.put]⟩
  | cons a t ih =>
    obtain ⟨bs, h1, hne, h2⟩ := hf a (by simp) w
    obtain ⟨cs, h3, h4⟩ := ih (fun x hx => hf x (by simp [hx])) (w.put bs)
    refine ⟨bs ++ cs, ?_, ?_⟩
    · have := EncElems.cons (g a) (t.map g) bs cs hne h1 (by rw [he a]; exact h3)
      rw [he a] at this; exact this
    · simp only [List.foldl_cons]
      rw [show f w a = w.put bs from h2, h4, put_put]

theorem emits_list {α : Type} {f : TW → α → TW} {g : α → TVal} {e : UInt8} (l : List α)
    (hf : ∀ a ∈ l, Emits (fun w => f w a) (g a)) (he : ∀ a, tcode (g a) = e) (he16 : e < 16) (hl : l.length < 2 ^ 31) :
    Emits (fun w => l.foldl f (w.listBegin e l.length)) (.list e.toNat (l.map g)) := by
  intro w
  obtain ⟨bs, h1, h2⟩ := elems_emit l hf he (w.listBegin e l.length)
  refine ⟨listHdr e (l.map g).length ++ bs, .list e (l.map g) bs he16 (by simpa using hl) h1, ?_, ?_⟩
  · obtain ⟨hd, t, hh, _⟩ := listHdr_read e (l.map g).length (UInt8.lt_iff_toNat_lt.1 he16) (by simpa using hl)
    rw [hh]; simp
  · show List.foldl f (w.listBegin e l.length) l = _
    rw [h2, listBegin_eq, put_put]; simp

/-! Size limits: byte strings are shorter than 2^64, lists shorter than 2^31 (the `int32_t` cast). -/

def Small (o : Option (List UInt8)) : Prop := ∀ s, o = some s → s.length < 2 ^ 64

def PStatistics.Ok (s : PStatistics) : Prop := Small s.max ∧ Small s.min ∧ Small s.maxValue ∧ Small s.minValue
def SchemaElement.Ok (e : SchemaElement) : Prop := e.name.length < 2 ^ 64
def DataPageHeader.Ok (h : DataPageHeader) : Prop := ∀ s, h.statistics = some s → s.Ok
def PageHeader.Ok (h : PageHeader) : Prop := ∀ d, h.dataPage = some d → d.Ok
def KeyValue.Ok (k : KeyValue) : Prop := k.key.length < 2 ^ 64 ∧ Small k.value
def ColumnMetaData.Ok (m : ColumnMetaData) : Prop :=
  m.encodings.length < 2 ^ 31 ∧ m.path.length < 2 ^ 31 ∧ (∀ p ∈ m.path, p.length < 2 ^ 64) ∧
    ∀ s, m.statistics = some s → s.Ok
def ColumnChunk.Ok (c : ColumnChunk) : Prop := Small c.filePath ∧ ∀ m, c.metaData = some m → m.Ok
def RowGroup.Ok (g : RowGroup) : Prop := g.columns.length < 2 ^ 31 ∧ ∀ c ∈ g.columns, c.Ok
def FileMetaData.Ok (m : FileMetaData) : Prop :=
  m.schema.length < 2 ^ 31 ∧ (∀ e ∈ m.schema, e.Ok) ∧ m.rowGroups.length < 2 ^ 31 ∧ (∀ g ∈ m.rowGroups, g.Ok) ∧
    (∀ kvs, m.keyValues = some kvs → kvs.length < 2 ^ 31 ∧ ∀ k ∈ kvs, k.Ok) ∧ Small m.createdBy ∧
    ∀ n, m.columnOrders = some n → n < 2 ^ 31

theorem statistics_emits (s : PStatistics) (h : s.Ok) : Emits s.write (statistics s) := by
  obtain ⟨h1, h2, h5, h6⟩ := h
  apply Emits.struct
  intro w
  refine Wrote.opt (Wrote.opt (Wrote.opt (Wrote.opt (Wrote.opt (Wrote.opt (fs := []) (Wrote.refl _) ?_ ?_) ?_ ?_) ?_ ?_) ?_ ?_) ?_ ?_) ?_ ?_
  all_goals first | exact fun a ha => emits_i64 a | exact fun a ha => emits_bin a (by tauto) | exact fun _ => rfl

theorem schemaElement_emits (e : SchemaElement) (h : e.Ok) : Emits e.write (schemaElement e) := by
  apply Emits.struct
  intro w
  have a1 := Wrote.opt (id := 1) (x := e.type) (f := fun w v => w.i32 v) (fs := []) (Wrote.refl w.structBegin)
    (fun a _ => emits_i32 a) (ty := TW.tI32) (fun _ => rfl)
  have a2 := Wrote.opt (id := 2) (x := e.typeLength) (f := fun w v => w.i32 v) a1 (fun a _ => emits_i32 a)
    (ty := TW.tI32) (fun _ => rfl)
  have a3 := Wrote.opt (id := 3) (x := e.repetition) (f := fun w v => w.i32 v) a2 (fun a _ => emits_i32 a)
    (ty := TW.tI32) (fun _ => rfl)
  have a4 := Wrote.snoc (id := 4) a3 (emits_bin e.name h) (ty := TW.tBinary) rfl
  have a5 := Wrote.opt (id := 5) (x := e.numChildren) (f := fun w v => w.i32 v) a4 (fun a _ => emits_i32 a)
    (ty := TW.tI32) (fun _ => rfl)
  have a6 := Wrote.opt (id := 6) (x := e.convertedType) (f := fun w v => w.i32 v) a5 (fun a _ => emits_i32 a)
    (ty := TW.tI32) (fun _ => rfl)
  exact a6

theorem dataPageHeader_emits (d : DataPageHeader) (h : d.Ok) : Emits d.write (dataPageHeader d) := by
  apply Emits.struct
  intro w
  refine Wrote.opt (fs := [(1, i32 d.numValues), (2, i32 d.encoding), (3, i32 d.defEncoding), (4, i32 d.repEncoding)])
    (Wrote.snoc (fs := [_, _, _]) (Wrote.snoc (fs := [_, _]) (Wrote.snoc (fs := [_])
      (Wrote.snoc (fs := []) (Wrote.refl _) (emits_i32 _) rfl) (emits_i32 _) rfl) (emits_i32 _) rfl) (emits_i32 _) rfl)
    (fun s hs => statistics_emits s (h s hs)) (fun _ => rfl)

theorem dictPageHeader_emits (d : DictPageHeader) : Emits d.write (dictPageHeader d) := by
  apply Emits.struct
  intro w
  exact Wrote.optBool (fs := [(1, i32 d.numValues), (2, i32 d.encoding)])
    (Wrote.snoc (fs := [_]) (Wrote.snoc (fs := []) (Wrote.refl _) (emits_i32 _) rfl) (emits_i32 _) rfl)

theorem pageHeader_emits (p : PageHeader) (h : p.Ok) : Emits p.write (pageHeader p) := by
  apply Emits.struct
  intro w
  refine Wrote.opt (Wrote.opt (Wrote.opt (fs := [(1, i32 p.type), (2, i32 p.uncompressed), (3, i32 p.compressed)])
    (Wrote.snoc (fs := [_, _]) (Wrote.snoc (fs := [_]) (Wrote.snoc (fs := []) (Wrote.refl _) (emits_i32 _) rfl)
      (emits_i32 _) rfl) (emits_i32 _) rfl) (fun a _ => emits_i32 a) (fun _ => rfl))
    (fun a ha => dataPageHeader_emits a (h a ha)) (fun _ => rfl)) (fun a _ => dictPageHeader_emits a) (fun _ => rfl)

theorem keyValue_emits (k : KeyValue) (h : k.Ok) : Emits k.write (keyValue k) := by
  apply Emits.struct
  intro w
  exact Wrote.opt (fs := [(1, .bin k.key)]) (Wrote.snoc (fs := []) (Wrote.refl _) (emits_bin _ h.1) rfl)
    (fun a ha => emits_bin a (h.2 a ha)) (fun _ => rfl)

theorem columnMetaData_emits (m : ColumnMetaData) (h : m.Ok) : Emits m.write (columnMetaData m) := by
  obtain ⟨h1, h2, h3, h4⟩ := h
  apply Emits.struct
  intro w
  have e2 := emits_list (e := TW.tI32) (f := fun w e => w.i32 e) (g := i32) m.encodings (fun a _ => emits_i32 a)
    (fun _ => rfl) (by decide) h1
  have e3 := emits_list (e := TW.tBinary) (f := fun w e => w.bin e) (g := .bin) m.path (fun a ha => emits_bin a (h3 a ha))
    (fun _ => rfl) (by decide) h2
  have a1 := Wrote.snoc (id := 1) (fs := []) (Wrote.refl w.structBegin) (emits_i32 m.type) (ty := TW.tI32) rfl
  have a2 := Wrote.snoc (id := 2) a1 e2 (ty := TW.tList) rfl
  have a3 := Wrote.snoc (id := 3) a2 e3 (ty := TW.tList) rfl
  have a4 := Wrote.snoc (id := 4) a3 (emits_i32 m.codec) (ty := TW.tI32) rfl
  have a5 := Wrote.snoc (id := 5) a4 (emits_i64 m.numValues) (ty := TW.tI64) rfl
  have a6 := Wrote.snoc (id := 6) a5 (emits_i64 m.totalUncompressed) (ty := TW.tI64) rfl
  have a7 := Wrote.snoc (id := 7) a6 (emits_i64 m.totalCompressed) (ty := TW.tI64) rfl
  have a8 := Wrote.snoc (id := 9) a7 (emits_i64 m.dataPageOffset) (ty := TW.tI64) rfl
  have a9 := Wrote.opt (id := 11) (x := m.dictPageOffset) (f := fun w v => w.i64 v) a8 (fun a _ => emits_i64 a)
    (ty := TW.tI64) (fun _ => rfl)
  have a10 := Wrote.opt (id := 12) (x := m.statistics) (f := fun w s => s.write w) a9
    (fun s hs => statistics_emits s (h4 s hs)) (ty := TW.tStruct) (fun _ => rfl)
  exact a10

theorem columnChunk_emits (c : ColumnChunk) (h : c.Ok) : Emits c.write (columnChunk c) := by
  apply Emits.struct
  intro w
  exact Wrote.opt (Wrote.snoc (Wrote.opt (fs := []) (Wrote.refl _) (fun a ha => emits_bin a (h.1 a ha)) (fun _ => rfl))
    (emits_i64 _) rfl) (fun a ha => columnMetaData_emits a (h.2 a ha)) (fun _ => rfl)

theorem rowGroup_emits (g : RowGroup) (h : g.Ok) : Emits g.write (rowGroup g) := by
  apply Emits.struct
  intro w
  have e1 := emits_list (e := TW.tStruct) (f := fun w (c : ColumnChunk) => c.write w) (g := columnChunk) g.columns
    (fun a ha => columnChunk_emits a (h.2 a ha)) (fun _ => rfl) (by decide) h.1
  have a1 := Wrote.snoc (id := 1) (fs := []) (Wrote.refl w.structBegin) e1 (ty := TW.tList) rfl
  have a2 := Wrote.snoc (id := 2) a1 (emits_i64 g.totalByteSize) (ty := TW.tI64) rfl
  have a3 := Wrote.snoc (id := 3) a2 (emits_i64 g.numRows) (ty := TW.tI64) rfl
  have a4 := Wrote.opt (id := 5) (x := g.fileOffset) (f := fun w v => w.i64 v) a3 (fun a _ => emits_i64 a)
    (ty := TW.tI64) (fun _ => rfl)
  have a5 := Wrote.opt (id := 6) (x := g.totalCompressed) (f := fun w v => w.i64 v) a4 (fun a _ => emits_i64 a)
    (ty := TW.tI64) (fun _ => rfl)
  exact a5

theorem columnOrder_emits : Emits columnOrderWrite columnOrder := by
  apply Emits.struct
  intro w
  have h : Emits typeDefinedOrderWrite (.struct []) := Emits.struct (fun w => Wrote.refl _)
  exact Wrote.snoc (fs := []) (Wrote.refl _) h rfl

theorem fileMetaData_emits (m : FileMetaData) (h : m.Ok) : Emits m.write (fileMetaData m) := by
  obtain ⟨h1, h2, h3, h4, h5, h6, h7⟩ := h
  apply Emits.struct
  intro w
  have e2 := emits_list (e := TW.tStruct) (f := fun w (c : SchemaElement) => c.write w) (g := schemaElement) m.schema
    (fun a ha => schemaElement_emits a (h2 a ha)) (fun _ => rfl) (by decide) h1
  have e4 := emits_list (e := TW.tStruct) (f := fun w (c : RowGroup) => c.write w) (g := rowGroup) m.rowGroups
    (fun a ha => rowGroup_emits a (h4 a ha)) (fun _ => rfl) (by decide) h3
  have a1 := Wrote.snoc (id := 1) (fs := []) (Wrote.refl w.structBegin) (emits_i32 m.version) (ty := TW.tI32) rfl
  have a2 := Wrote.snoc (id := 2) a1 e2 (ty := TW.tList) rfl
  have a3 := Wrote.snoc (id := 3) a2 (emits_i64 m.numRows) (ty := TW.tI64) rfl
  have a4 := Wrote.snoc (id := 4) a3 e4 (ty := TW.tList) rfl
  have a5 := Wrote.opt (id := 5) (x := m.keyValues) (g := fun kvs => .list 12 (kvs.map keyValue))
    (f := fun w (kvs : List KeyValue) => kvs.foldl (fun w k => k.write w) (w.listBegin TW.tStruct kvs.length)) a4
    (fun kvs hk => emits_list (e := TW.tStruct) (f := fun w (k : KeyValue) => k.write w) (g := keyValue) kvs
      (fun a ha => keyValue_emits a ((h5 kvs hk).2 a ha)) (fun _ => rfl) (by decide) (h5 kvs hk).1)
    (ty := TW.tList) (fun _ => rfl)
  have a6 := Wrote.opt (id := 6) (x := m.createdBy) (g := .bin) (f := fun w v => w.bin v) a5
    (fun a ha => emits_bin a (h6 a ha)) (ty := TW.tBinary) (fun _ => rfl)
  have a7 := Wrote.opt (id := 7) (x := m.columnOrders) (g := fun n => .list 12 (List.replicate n columnOrder))
    (f := fun w n => (List.replicate n ()).foldl (fun w _ => columnOrderWrite w) (w.listBegin TW.tStruct n)) a6
    (fun n hn => by
      have := emits_list (e := TW.tStruct) (f := fun w (_ : Unit) => columnOrderWrite w) (g := fun _ => columnOrder)
        (List.replicate n ()) (fun a _ => columnOrder_emits) (fun _ => rfl) (by decide) (by simpa using h7 n hn)
      rw [List.length_replicate, List.map_replicate] at this
      exact this)
    (ty := TW.tList) (fun _ => rfl)
  exact a7

theorem parse_of_emits {f : TW → TW} {fs : List (Int16 × TVal)} (h : Emits f (.struct fs)) (w : TW) (rest : List UInt8) :
    ∃ bs, f w = { w with buf := w.buf ++ bs } ∧ parse (bs ++ rest) = some (.struct fs, rest) := by
  obtain ⟨bs, h1, _, h2⟩ := h w
  refine ⟨bs, h2, ?_⟩
  exact h1.read _ rest (by simp only [List.length_append]; omega)

/-- **C32** The footer metadata parses back to the field numbers, types and values of parquet.thrift,
and the reader stops exactly at the end of the structure; the writer's own state is as before, so that
structures nest. -/
theorem C32_file_metadata (m : FileMetaData) (h : m.Ok) (w : TW) (rest : List UInt8) :
    ∃ bs, m.write w = { w with buf := w.buf ++ bs } ∧ parse (bs ++ rest) = some (fileMetaData m, rest) :=
  parse_of_emits (fileMetaData_emits m h) w rest

/-- **C32** The same for page headers. -/
theorem C32_page_header (p : PageHeader) (h : p.Ok) (w : TW) (rest : List UInt8) :
    ∃ bs, p.write w = { w with buf := w.buf ++ bs } ∧ parse (bs ++ rest) = some (pageHeader p, rest) :=
  parse_of_emits (pageHeader_emits p h) w rest

/-- A program of writer calls: the fields of a structure with arbitrary numbers. -/
inductive FieldProg : (TW → TW) → List (Int16 × TVal) → Prop
  | done : FieldProg id []
  | i32 (id : Int16) (v : Int32) {f fs} : FieldProg f fs → FieldProg (fun w => f ((w.fieldBegin id TW.tI32).i32 v)) ((id, i32 v) :: fs)
  | i64 (id : Int16) (v : Int64) {f fs} : FieldProg f fs → FieldProg (fun w => f ((w.fieldBegin id TW.tI64).i64 v)) ((id, i64 v) :: fs)
  | bool (id : Int16) (b : Bool) {f fs} : FieldProg f fs →
      FieldProg (fun w => f (w.fieldBegin id (if b then TW.tTrue else TW.tFalse))) ((id, .bool b) :: fs)
  | bin (id : Int16) (bs : List UInt8) (h : bs.length < 2 ^ 64) {f fs} : FieldProg f fs →
      FieldProg (fun w => f ((w.fieldBegin id TW.tBinary).bin bs)) ((id, .bin bs) :: fs)
  | struct (id : Int16) {g gs f fs} : FieldProg g gs → FieldProg f fs →
      FieldProg (fun w => f (g (w.fieldBegin id TW.tStruct).structBegin).structEnd) ((id, .struct gs) :: fs)

theorem FieldProg.wrote {f : TW → TW} {fs : List (Int16 × TVal)} (h : FieldProg f fs) :
    ∀ w0 w gs, Wrote w0 w gs → Wrote w0 (f w) (gs ++ fs) := by
  induction h with
  | done => intro w0 w gs h; simpa using h
  | i32 id v _ ih =>
    intro w0 w gs h
    have := ih w0 _ _ (h.snoc (id := id) (emits_i32 v) (ty := TW.tI32) rfl)
    simpa using this
  | i64 id v _ ih =>
    intro w0 w gs h
    have := ih w0 _ _ (h.snoc (id := id) (emits_i64 v) (ty := TW.tI64) rfl)
    simpa using this
  | bool id b _ ih =>
    intro w0 w gs h
    have := ih w0 _ _ (h.optBool (id := id) (x := some b))
    simpa [fld, TW.opt] using this
  | bin id bs hb _ ih =>
    intro w0 w gs h
    have := ih w0 _ _ (h.snoc (id := id) (emits_bin bs hb) (ty := TW.tBinary) rfl)
    simpa using this
  | @struct id g gs' f fs _ _ ihg ihf =>
    intro w0 w gs h
    have hs : Emits (fun w => (g w.structBegin).structEnd) (.struct gs') := by
      apply Emits.struct (f := fun w => g w.structBegin)
      intro w
      have := ihg _ _ [] (Wrote.refl w.structBegin)
      simpa using this
    have := ihf w0 _ _ (h.snoc (id := id) hs (ty := TW.tStruct) rfl)
    simpa using this

/-- **C32** Any structure written with any sequence of field numbers (increasing or not, negative,
far apart, repeated), nested to any depth, parses back. -/
theorem C32_any_field_ids {f : TW → TW} {fs : List (Int16 × TVal)} (h : FieldProg f fs) (w : TW) (rest : List UInt8) :
    ∃ bs, (f w.structBegin).structEnd = { w with buf := w.buf ++ bs } ∧ parse (bs ++ rest) = some (.struct fs, rest) := by
  have hs : Emits (fun w => (f w.structBegin).structEnd) (.struct fs) := by
    apply Emits.struct (f := fun w => f w.structBegin)
    intro w
    have := h.wrote _ _ [] (Wrote.refl w.structBegin)
    simpa using this
  exact parse_of_emits hs w rest

/-- A page header with statistics meets the hypothesis; its bytes. -/
example : ((⟨0, 10, 10, none, some ⟨3, 0, 3, 3, some ⟨none, none, some 1, none, none, some [1, 0]⟩⟩, none⟩ : PageHeader).write {}).buf
    = [0x15, 0, 0x15, 20, 0x15, 20, 0x2C, 0x15, 6, 0x15, 0, 0x15, 6, 0x15, 6, 0x1C, 0x36, 2, 0x38, 2, 1, 0, 0, 0, 0] := by
  decide +kernel

example : (⟨1, [⟨none, none, none, [115], none, none⟩], 3, [], none, none, some 1⟩ : FileMetaData).Ok := by
  simp [FileMetaData.Ok, SchemaElement.Ok, Small]

/-- Non-monotone, far apart and negative field numbers are a `FieldProg`. -/
example : ∃ f, FieldProg f [(300, i32 7), (-5, .bool true), (-4, .struct [(16, i64 (-1))])] :=
  ⟨_, .i32 300 7 (.bool (-5) true (.struct (-4) (.i64 16 (-1) .done) .done))⟩

end Vroom
