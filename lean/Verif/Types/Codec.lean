import Verif.Types.Packed
import Verif.Codec.Dec
/-! The type readers decode what the type encoders write. -/
namespace Verif.Types
open Verif.Reader Verif.Leb Verif.Framing

theorem peekR_cons {r : Reader} {b : UInt8} {bs : List UInt8} (h : r.rest = b :: bs) :
    peekR r = .ok (b, r) := by
  have h1 : r.buffer[r.position]? = some b := by rw [Reader.getElem?_position, h]; rfl
  have h2 := (List.getElem?_eq_some_iff.mp h1).1
  unfold peekR peek ensureHasByte Reader.maxPosition
  rw [if_pos h2]
  simp [h1]

theorem _root_.Verif.Reader.DecP.peek {g : UInt8 → R α} {b : UInt8} {bs : List UInt8} {P : α → Prop}
    (h : DecP (g b) (b :: bs) P) : DecP (peekR >>= g) (b :: bs) P := by
  intro r tail hr
  rw [bind_apply, peekR_cons hr]
  exact h r tail hr

theorem _root_.Verif.Reader.Dec.peek {g : UInt8 → R α} {b : UInt8} {bs : List UInt8} {a : α}
    (h : Dec (g b) (b :: bs) a) : Dec (peekR >>= g) (b :: bs) a := by
  intro r tail hr
  rw [bind_apply, peekR_cons hr]
  exact h r tail hr

theorem _root_.Verif.Reader.DecP.mapErr {f : R α} {b : List UInt8} {P : α → Prop} {g : Err → Err} (h : DecP f b P) :
    DecP (mapErr g f) b P := by
  intro r tail hr
  obtain ⟨a, e, p⟩ := h r tail hr
  exact ⟨a, by unfold Types.mapErr; rw [e], p⟩

theorem _root_.Verif.Reader.Dec.mapErr {f : R α} {b : List UInt8} {a : α} {g : Err → Err} (h : Dec f b a) :
    Dec (mapErr g f) b a := by
  intro r tail hr
  unfold Types.mapErr; rw [h r tail hr]

theorem absHeapOfByte_encode (t : AbsHeap) : ∃ b, Enc.encodeAbs t = [b] ∧
    absHeapOfByte b = some t ∧ 0x68 ≤ b.toNat ∧ b.toNat ≤ 0x75 := by
  cases t <;> exact ⟨_, rfl, by decide +kernel⟩

theorem dec_absHeap (t : AbsHeap) : Dec readAbsHeap (Enc.encodeAbs t) t := by
  obtain ⟨b, h1, h2, -⟩ := absHeapOfByte_encode t
  rw [h1]
  refine (Dec.readU8 b).bind_nil ?_
  rw [h2]; exact .pure t

theorem s33_neg_byte : ∀ x : BitVec 8, 64 ≤ x.toNat → x.toNat < 128 →
    ((((x <<< 1).signExtend 64).sshiftRight 1 : BitVec 64)).toInt < 0 := by
  decide +kernel

/-- A first byte in `0x40 ..= 0x7F` is a negative `s33`. -/
theorem s33_neg {r : Reader} {b : UInt8} {bs : List UInt8} (h : r.rest = b :: bs)
    (h1 : 64 ≤ b.toNat) (h2 : b.toNat < 128) :
    ∃ v r', readVarS33 r = .ok (v, r') ∧ v.toInt < 0 := by
  unfold readVarS33
  rw [readU8_cons h]
  simp only [(and80_eq_zero_iff b).2 h2, if_true]
  exact ⟨_, _, rfl, s33_neg_byte _ h1 h2⟩

theorem u32_toInt (i : BitVec 32) : (i.setWidth 64).toInt = i.toNat := by
  have := i.isLt
  rw [BitVec.toInt_eq_toNat_cond]
  simp only [BitVec.toNat_setWidth]
  rw [Nat.mod_eq_of_lt (by omega), if_pos (by omega)]

theorem u32_setWidth (i : BitVec 32) : (i.setWidth 64).setWidth 32 = i := by
  apply BitVec.eq_of_toNat_eq
  have := i.isLt
  simp only [BitVec.toNat_setWidth]
  rw [Nat.mod_eq_of_lt (a := i.toNat) (b := 2 ^ 64) (by omega), Nat.mod_eq_of_lt this]

theorem fromModuleIndex_eq (i : BitVec 32) : PackedIndex.fromModuleIndex i =
    if i.toNat < 2 ^ 20 then some ⟨PackedIndex.moduleKind ||| i⟩ else none :=
  pack_eq (.module i)

theorem packed_is {i : BitVec 32} (h : i.toNat < 2 ^ 20) :
    (PackedIndex.mk (PackedIndex.moduleKind ||| i)).Is i := by
  unfold PackedIndex.Is
  rw [fromModuleIndex_eq, if_pos h]

theorem packed_unpack {i : BitVec 32} (h : i.toNat < 2 ^ 20) :
    (PackedIndex.mk (PackedIndex.moduleKind ||| i)).unpack = some (.module i) :=
  unpack_kind (.module i) h

/-- The part of `readHeapType` taken when the `s33` is negative. -/
theorem readHeapType_neg {r : Reader} {b : UInt8} {bs : List UInt8} (h : r.rest = b :: bs)
    (h1 : 64 ≤ b.toNat) (h2 : b.toNat < 128) : readHeapType r = (do
        let b ← peekR
        if b = 0x65 then
          let _ ← readU8
          let ty ← readAbsHeap
          pure (.abstract true ty)
        else if b = 0x62 then
          let _ ← readU8
          let idx ← readVarU32
          pure (.exact (.module idx))
        else
          let ty ← mapErr (reclassify "invalid heap type") readAbsHeap
          pure (.abstract false ty) : R HeapType) r := by
  obtain ⟨v, r', e, hv⟩ := s33_neg h h1 h2
  unfold readHeapType
  simp only [e]
  rw [if_neg (by omega)]

theorem _root_.Verif.Reader.Dec.of_eq {f g : R α} {b : UInt8} {bs : List UInt8} {a : α}
    (he : ∀ r tail, r.rest = b :: tail → f r = g r) (h : Dec g (b :: bs) a) : Dec f (b :: bs) a := by
  intro r tail hr
  rw [he r _ hr]
  exact h r tail hr

def Enc.HeapType.ConcreteFits : Enc.HeapType → Prop
  | .concrete i => i.toNat < 2 ^ 20
  | _ => True

/-- Heap types, without the limit for exact types. -/
theorem dec_heapType (e : Enc.HeapType) (hf : e.ConcreteFits) :
    Dec readHeapType e.encode e.denote := by
  cases e with
  | abstract s t =>
    obtain ⟨b, h1, h2, h3, h4⟩ := absHeapOfByte_encode t
    simp only [Enc.HeapType.encode, Enc.HeapType.denote]
    cases s
    · simp only [Bool.false_eq_true, if_false, List.nil_append]
      rw [h1]
      refine Dec.of_eq (fun r tail hr => readHeapType_neg hr (by omega) (by omega)) ?_
      refine Dec.peek ?_
      refine .ite_neg (by rintro rfl; revert h3; decide) (.ite_neg (by rintro rfl; revert h3; decide) ?_)
      have := (dec_absHeap t).mapErr (g := reclassify "invalid heap type")
      rw [h1] at this
      exact this.map
    · simp only [if_true, List.singleton_append]
      refine Dec.of_eq (fun r tail hr => readHeapType_neg hr (by decide) (by decide)) ?_
      refine Dec.peek ?_
      refine .ite_pos rfl ?_
      exact (Dec.readU8 0x65).bind (dec_absHeap t).map
  | concrete i =>
    simp only [Enc.HeapType.encode, Enc.HeapType.denote, Enc.HeapType.ConcreteFits] at hf ⊢
    intro r tail hr
    have hI := u32_toInt i
    have := Dec.s33 (i.setWidth 64) (by have := i.isLt; omega) r tail hr
    unfold readHeapType
    simp only [this]
    rw [if_pos (by have := i.isLt; omega), u32_setWidth, fromModuleIndex_eq, if_pos hf]
    simp only [show (PackedIndex.mk (PackedIndex.moduleKind ||| i)).unpack = _ from packed_unpack hf]
    rfl
  | exact i =>
    simp only [Enc.HeapType.encode, Enc.HeapType.denote]
    refine Dec.of_eq (fun r tail hr => readHeapType_neg hr (by decide) (by decide)) ?_
    refine Dec.peek ?_
    refine .ite_neg (by decide) (.ite_pos rfl ?_)
    exact (Dec.readU8 0x62).bind (Dec.u32 i).map

theorem denote_fits_concrete {e : Enc.HeapType} (h : e.denote.Fits) :
    e.ConcreteFits := by
  cases e <;> first | trivial | exact h

/-- The long form of a reference type. -/
theorem decP_refType_long (n : Bool) (e : Enc.HeapType) (hf : e.denote.Fits) :
    DecP readRefType ((if n then 0x63 else 0x64) :: e.encode)
      (fun t => RefType.new n e.denote = some t) := by
  obtain ⟨t, h1, h2, -⟩ := (new_spec n e.denote).1 hf
  refine DecP.readPos fun pos => DecP.peek ?_
  refine DecP.congr ?_ (if_pos (by cases n <;> simp))
  refine (Dec.readU8 _).bindP ?_
  have := (dec_heapType e (denote_fits_concrete hf))
  refine (this.toP (P := (· = e.denote)) rfl).bind_nil ?_
  rintro _ rfl
  have hn : ((if n = true then (0x63 : UInt8) else 0x64) == 0x63) = n := by cases n <;> decide
  rw [hn, h1]
  exact .pure rfl

theorem decP_refType (e : Enc.RefType) (hf : e.heapType.denote.Fits) :
    DecP readRefType e.encode
      (fun t => RefType.new e.nullable e.heapType.denote = some t) := by
  obtain ⟨n, h⟩ := e
  cases n
  · cases h <;> exact decP_refType_long false _ hf
  · cases h with
    | concrete i => exact decP_refType_long true _ hf
    | exact i => exact decP_refType_long true _ hf
    | abstract s t =>
      obtain ⟨b, h1, h2, h3, h4⟩ := absHeapOfByte_encode t
      obtain ⟨rt, e1, e2, -⟩ := (new_spec true (.abstract s t)).1 trivial
      simp only [Enc.RefType.encode, Enc.HeapType.encode, Enc.HeapType.denote]
      have hd := ((dec_absHeap t).mapErr (g := reclassify "malformed reference type")).toP
        (P := (· = t)) rfl
      cases s
      · simp only [Bool.false_eq_true, if_false, List.nil_append]
        rw [h1] at hd ⊢
        refine DecP.readPos fun pos => DecP.peek ?_
        refine DecP.congr ?_ (if_neg (by rintro (rfl | rfl) <;> revert h3 <;> decide))
        refine DecP.congr ?_ (if_neg (by rintro rfl; revert h3; decide))
        refine DecP.peek ?_
        have hb : (b == 0x65) = false := by
          rw [beq_eq_false_iff_ne]; rintro rfl; revert h3; decide
        simp only [hb, Bool.false_eq_true, if_false]
        refine hd.bind_nil ?_
        rintro _ rfl
        rw [e1]
        exact .pure rfl
      · simp only [if_true, List.singleton_append]
        refine DecP.readPos fun pos => DecP.peek ?_
        refine DecP.congr ?_ (if_neg (by decide))
        refine DecP.congr ?_ (if_neg (by decide))
        refine DecP.peek ?_
        have hb : ((0x65 : UInt8) == 0x65) = true := by decide
        simp only [hb, if_true]
        refine Dec.bindP (b1 := [0x65]) (Dec.readU8 0x65) ?_
        refine hd.bind_nil ?_
        rintro _ rfl
        rw [e1]
        exact .pure rfl


/-- The first byte of a reference type is none of the bytes below. -/
theorem refType_head (e : Enc.RefType) : ∃ b bs, e.encode = b :: bs ∧ 0x63 ≤ b.toNat ∧
    b.toNat ≤ 0x75 := by
  obtain ⟨n, h⟩ := e
  cases n <;> cases h with
  | abstract s t =>
    obtain ⟨b, h1, -, h3, h4⟩ := absHeapOfByte_encode t
    cases s <;> simp only [Enc.RefType.encode, Enc.HeapType.encode, h1] <;>
      first
      | exact ⟨_, _, rfl, by decide, by decide⟩
      | exact ⟨_, _, rfl, by omega, by omega⟩
  | concrete i => exact ⟨_, _, rfl, by decide, by decide⟩
  | exact i => exact ⟨_, _, rfl, by decide, by decide⟩

theorem ne_of_le {b c : UInt8} (h : b.toNat ≤ 0x75) (hc : 0x75 < c.toNat) : b ≠ c := by
  rintro rfl; omega

theorem decP_valType (e : Enc.ValType) (hf : e.Fits) : DecP readValType e.encode (·.Is e) := by
  have key : ∀ (b : UInt8) (v : ValType), v.Is e → e.encode = [b] →
      DecP (do let _ ← readU8; pure v : R ValType) e.encode (·.Is e) := by
    intro b v hv hb
    rw [hb]
    exact ((Dec.readU8 b).map (g := fun _ => v)).toP hv
  cases e with
  | i32 => exact DecP.peek (DecP.congr (key _ .i32 trivial rfl) (if_pos rfl))
  | i64 => exact DecP.peek (DecP.congr (key _ .i64 trivial rfl) (by rfl))
  | f32 => exact DecP.peek (DecP.congr (key _ .f32 trivial rfl) (by rfl))
  | f64 => exact DecP.peek (DecP.congr (key _ .f64 trivial rfl) (by rfl))
  | v128 => exact DecP.peek (DecP.congr (key _ .v128 trivial rfl) (by rfl))
  | ref rt =>
    obtain ⟨b, bs, h1, h2, h3⟩ := refType_head rt
    have hd := (decP_refType rt hf).mapErr (g := reclassify "invalid value type")
    simp only [Enc.ValType.encode]
    rw [h1] at hd ⊢
    refine DecP.peek ?_
    rw [if_neg (ne_of_le h3 (by decide)), if_neg (ne_of_le h3 (by decide)),
      if_neg (ne_of_le h3 (by decide)), if_neg (ne_of_le h3 (by decide)),
      if_neg (ne_of_le h3 (by decide))]
    exact hd.map fun a ha => ha

theorem valType_head (e : Enc.ValType) : ∃ b bs, e.encode = b :: bs ∧ b ≠ 0x78 ∧ b ≠ 0x77 := by
  cases e with
  | ref rt =>
    obtain ⟨b, bs, h1, h2, h3⟩ := refType_head rt
    exact ⟨b, bs, h1, ne_of_le h3 (by decide), ne_of_le h3 (by decide)⟩
  | _ => exact ⟨_, _, rfl, by decide, by decide⟩

theorem decP_storageType (e : Enc.StorageType) (hf : e.Fits) :
    DecP readStorageType e.encode (·.Is e) := by
  cases e with
  | i8 =>
    refine DecP.peek (DecP.congr (f := do let _ ← readU8; pure StorageType.i8) ?_ (by rfl))
    exact ((Dec.readU8 0x78).map (g := fun _ => StorageType.i8)).toP trivial
  | i16 =>
    refine DecP.peek (DecP.congr (f := do let _ ← readU8; pure StorageType.i16) ?_ (by rfl))
    exact ((Dec.readU8 0x77).map (g := fun _ => StorageType.i16)).toP trivial
  | val v =>
    obtain ⟨b, bs, h1, h2, h3⟩ := valType_head v
    have hd := decP_valType v hf
    simp only [Enc.StorageType.encode]
    rw [h1] at hd ⊢
    refine DecP.peek ?_
    rw [if_neg h2, if_neg h3]
    exact hd.map fun a ha => ha

theorem decP_fieldType (e : Enc.FieldType) (hf : e.elementType.Fits) :
    DecP readFieldType e.encode (·.Is e) := by
  refine (decP_storageType e.elementType hf).bind fun s hs => ?_
  refine (Dec.readU8 _).toP (P := (· = _)) rfl |>.bind_nil ?_
  rintro _ rfl
  cases hm : e.mutable
  · exact .pure ⟨hs, hm.symm⟩
  · exact .pure ⟨hs, hm.symm⟩

theorem encodeUsize_eq {n : Nat} (h : n < 2 ^ 32) :
    encodeUsize n = some (encodeU32 (BitVec.ofNat 32 n)) := by
  unfold encodeUsize
  rw [if_pos (by omega)]

theorem _root_.Verif.Reader.DecP.iter {f : R α} {enc : β → List UInt8} {P : α → β → Prop}
    {xs : List β} {limit : Nat} {desc : String} (hl : xs.length ≤ limit) (hl32 : limit < 2 ^ 32)
    (h : ∀ x ∈ xs, DecP f (enc x) (P · x)) :
    DecP (readIter f limit desc) (encodeU32 (BitVec.ofNat 32 xs.length) ++ xs.flatMap enc)
      (List.Forall₂ P · xs) := by
  have hn : (BitVec.ofNat 32 xs.length).toNat = xs.length := by
    rw [BitVec.toNat_ofNat, Nat.mod_eq_of_lt (by omega)]
  have h1 : Dec (readSize limit desc) (encodeU32 (BitVec.ofNat 32 xs.length)) xs.length := by
    refine Dec.readPos fun pos => ?_
    refine (Dec.u32 _).bind_nil ?_
    rw [hn]
    refine .ite_neg (by omega) (.pure _)
  exact h1.bindP (DecP.many h)

theorem decP_funcType (e : Enc.FuncType) (hf : (Enc.CompositeInnerType.func e).Fits) :
    ∃ bs, e.encode = some (0x60 :: bs) ∧ DecP readFuncType bs (·.Is e) := by
  obtain ⟨h1, h2, h3, h4⟩ := hf
  have hp := DecP.iter (f := readValType) (enc := Enc.ValType.encode) (P := ValType.Is)
    (desc := "function params") (limit := maxWasmFunctionParams) h1 (by decide)
    fun x hx => decP_valType x (h3 x hx)
  have hr := DecP.iter (f := readValType) (enc := Enc.ValType.encode) (P := ValType.Is)
    (desc := "function returns") (limit := maxWasmFunctionReturns) h2 (by decide)
    fun x hx => decP_valType x (h4 x hx)
  refine ⟨(encodeU32 (BitVec.ofNat 32 e.params.length) ++ e.params.flatMap Enc.ValType.encode) ++
    (encodeU32 (BitVec.ofNat 32 e.results.length) ++ e.results.flatMap Enc.ValType.encode), ?_, ?_⟩
  · unfold Enc.FuncType.encode
    rw [encodeUsize_eq (by omega), encodeUsize_eq (by omega)]
    simp
  · refine hp.bind fun ps hps => hr.map fun rs hrs => ?_
    constructor
    · simpa [FuncType.params] using hps
    · refine ⟨by simpa [FuncType.results] using hrs, by simp⟩

theorem decP_packedIndex (i : BitVec 32) (h : i.toNat < 2 ^ 20) :
    DecP readPackedIndex (encodeU32 i) (·.Is i) := by
  refine ((Dec.u32 i).toP (P := (· = i)) rfl).bind_nil ?_
  rintro _ rfl
  rw [fromModuleIndex_eq, if_pos h]
  exact .pure (packed_is h)

theorem decP_contType (i : BitVec 32) (h : i.toNat < 2 ^ 20) :
    DecP readContType (encodeI64 (i.setWidth 64)) (·.Is i) := by
  have hI := u32_toInt i
  refine ((Dec.s33 (i.setWidth 64) (by omega)).toP (P := (· = _)) rfl).bind_nil ?_
  rintro _ rfl
  rw [if_pos (by omega), u32_setWidth, fromModuleIndex_eq, if_pos h]
  exact .pure (packed_is h)

theorem decP_compositeInner (e : Enc.CompositeInnerType) (hf : e.Fits) :
    ∃ op bs, e.encode = some (op :: bs) ∧ (op = 0x60 ∨ op = 0x5e ∨ op = 0x5f ∨ op = 0x5d) ∧
      DecP (readCompositeInner op) bs (·.Is e) := by
  cases e with
  | func f =>
    obtain ⟨bs, h1, h2⟩ := decP_funcType f hf
    exact ⟨0x60, bs, h1, by simp, h2.map fun a ha => ha⟩
  | array f => exact ⟨0x5e, _, rfl, by simp, (decP_fieldType f hf).map fun a ha => ha⟩
  | struct fs =>
    obtain ⟨h1, h2⟩ := hf
    have := DecP.iter (f := readFieldType) (enc := Enc.FieldType.encode) (P := FieldType.Is)
      (desc := "struct fields") (limit := maxWasmStructFields) h1 (by decide)
      fun x hx => decP_fieldType x (h2 x hx)
    refine ⟨0x5f, _, ?_, by simp, this.map fun a ha => ha⟩
    simp only [Enc.CompositeInnerType.encode, Enc.encodeStruct]
    rw [encodeUsize_eq (by omega)]
    rfl
  | cont i => exact ⟨0x5d, _, rfl, by simp, (decP_contType i hf).map fun a ha => ha⟩

/-- The bytes before the inner composite type. -/
theorem decP_compositeType (e : Enc.CompositeType) (h1 : OptFits e.describes)
    (h2 : OptFits e.descriptor) (h3 : e.inner.Fits) :
    ∃ op bs, e.encode = some (op :: bs) ∧ op ≠ 0x4f ∧ op ≠ 0x50 ∧ op ≠ 0x4e ∧
      DecP (readCompositeType op) bs (·.Is e) := by
  obtain ⟨op, bs, e1, hop, d1⟩ := decP_compositeInner e.inner h3
  obtain ⟨inner, shared, descriptor, describes⟩ := e
  simp only at e1 d1 h1 h2
  have hop' : op ≠ 0x65 ∧ op ≠ 0x4c ∧ op ≠ 0x4d ∧ op ≠ 0x4f ∧ op ≠ 0x50 ∧ op ≠ 0x4e := by
    rcases hop with rfl | rfl | rfl | rfl <;> decide
  -- the last step
  have step3 : ∀ (sh : Bool) (ds : Option PackedIndex), sh = shared →
      OptIs PackedIndex.Is ds describes →
      ∃ op' bs', Enc.encodeAttr 0x4d descriptor ++ op :: bs =
        op' :: bs' ∧ op' ≠ 0x65 ∧ op' ≠ 0x4c ∧ op' ≠ 0x4f ∧ op' ≠ 0x50 ∧ op' ≠ 0x4e ∧
        DecP (do
          let (descriptorIdx, opcode) ←
            (if op' = 0x4d then do
              let idx ← readPackedIndex
              pure (some idx, ← readU8)
            else pure (none, op'))
          let inner ← readCompositeInner opcode
          pure { shared := sh, inner, descriptorIdx, describesIdx := ds } : R CompositeType)
          bs' (·.Is ⟨inner, shared, descriptor, describes⟩) := by
    intro sh ds hsh hds
    cases descriptor with
    | none =>
      refine ⟨op, bs, rfl, hop'.1, hop'.2.1, hop'.2.2.2.1, hop'.2.2.2.2.1, hop'.2.2.2.2.2, ?_⟩
      rw [if_neg hop'.2.2.1]
      refine Dec.bindP (b1 := []) (.pure _) ?_
      exact d1.map fun a ha => ⟨ha, hsh, trivial, hds⟩
    | some i =>
      refine ⟨0x4d, encodeU32 i ++ op :: bs, rfl, by decide, by decide, by decide, by decide, by decide, ?_⟩
      rw [if_pos rfl, show encodeU32 i ++ op :: bs = (encodeU32 i ++ [op]) ++ bs by simp]
      refine DecP.bind (P := fun x => (∃ p, x.1 = some p ∧ p.Is i) ∧ x.2 = op) ?_ ?_
      · refine (decP_packedIndex i (h2 i rfl)).bind fun p hp => ?_
        exact ((Dec.readU8 op).map (g := fun b => (some p, b))).toP ⟨⟨p, rfl, hp⟩, rfl⟩
      · rintro ⟨o, opc⟩ ⟨⟨p, rfl, hp⟩, rfl⟩
        exact d1.map fun a ha => ⟨ha, hsh, hp, hds⟩
  have step2 : ∀ (sh : Bool), sh = shared →
      ∃ op' bs', Enc.encodeAttr 0x4c describes ++
          (Enc.encodeAttr 0x4d descriptor ++ op :: bs) =
        op' :: bs' ∧ op' ≠ 0x65 ∧ op' ≠ 0x4f ∧ op' ≠ 0x50 ∧ op' ≠ 0x4e ∧
        DecP (do
          let (describesIdx, opcode) ←
            (if op' = 0x4c then do
              let idx ← readPackedIndex
              pure (some idx, ← readU8)
            else pure (none, op'))
          let (descriptorIdx, opcode) ←
            (if opcode = 0x4d then do
              let idx ← readPackedIndex
              pure (some idx, ← readU8)
            else pure (none, opcode))
          let inner ← readCompositeInner opcode
          pure { shared := sh, inner, descriptorIdx, describesIdx } : R CompositeType)
          bs' (·.Is ⟨inner, shared, descriptor, describes⟩) := by
    intro sh hsh
    cases describes with
    | none =>
      obtain ⟨op', bs', e2, n1, n2, n3, n4, n5, d2⟩ := step3 sh none hsh trivial
      refine ⟨op', bs', e2, n1, n3, n4, n5, ?_⟩
      rw [if_neg n2]
      exact Dec.bindP (b1 := []) (.pure _) d2
    | some i =>
      have hi := h1 i rfl
      refine ⟨0x4c, encodeU32 i ++ (Enc.encodeAttr 0x4d descriptor ++ op :: bs), rfl, by decide, by decide, by decide, by decide, ?_⟩
      rw [if_pos rfl]
      obtain ⟨op', bs', e2, n1, n2, n3, n4, n5, -⟩ :=
        step3 sh (some ⟨PackedIndex.moduleKind ||| i⟩) hsh (packed_is hi)
      rw [e2, show encodeU32 i ++ op' :: bs' = (encodeU32 i ++ [op']) ++ bs' by simp]
      refine DecP.bind (P := fun x => (∃ p, x.1 = some p ∧ p.Is i) ∧ x.2 = op') ?_ ?_
      · refine (decP_packedIndex i hi).bind fun p hp => ?_
        exact ((Dec.readU8 op').map (g := fun b => (some p, b))).toP ⟨⟨p, rfl, hp⟩, rfl⟩
      · rintro ⟨o, opc⟩ ⟨⟨p, rfl, hp⟩, rfl⟩
        obtain ⟨op2, bs2, e3, -, -, -, -, -, d2⟩ := step3 sh (some p) hsh hp
        rw [e2] at e3
        injection e3 with e3 e4
        subst e3 e4
        exact d2
  obtain ⟨op', bs', e2, n1, n2, n3, n4, d2⟩ := step2 shared rfl
  have henc : Enc.CompositeType.encode ⟨inner, shared, descriptor, describes⟩ =
      some ((if shared then [0x65] else []) ++ op' :: bs') := by
    simp only [Enc.CompositeType.encode, e1]
    rw [← e2]
    simp only [Option.bind_eq_bind, Option.bind_some, Option.pure_def, List.append_assoc]
  cases shared
  · refine ⟨op', bs', henc, n2, n3, n4, ?_⟩
    unfold readCompositeType
    rw [if_neg n1]
    exact Dec.bindP (b1 := []) (.pure _) d2
  · refine ⟨0x65, op' :: bs', henc, by decide, by decide, by decide, ?_⟩
    unfold readCompositeType
    rw [if_pos rfl]
    refine Dec.bindP (b1 := [op']) (a := (true, op')) ?_ d2
    exact (Dec.readU8 op').map

theorem decP_subType (e : Enc.SubType) (hf : e.Fits) :
    ∃ b bs, e.encode = some (b :: bs) ∧ b ≠ 0x4e ∧ DecP readSubType (b :: bs) (·.Is e) := by
  obtain ⟨h1, h2, h3, h4⟩ := hf
  obtain ⟨op, bs, e1, n1, n2, n3, d1⟩ := decP_compositeType e.compositeType h2 h3 h4
  obtain ⟨fin, sup, comp⟩ := e
  simp only at h1 e1 d1
  by_cases hp : (sup.isSome || !fin) = true
  · -- with a `sub` prefix
    have henc : Enc.SubType.encode ⟨fin, sup, comp⟩ =
        some ((if fin then 0x4f else 0x50) :: (Enc.encodeOption sup ++ op :: bs)) := by
      simp only [Enc.SubType.encode, e1, hp, if_true]
      cases fin <;> rfl
    refine ⟨_, _, henc, by cases fin <;> decide, ?_⟩
    have hs' : DecP (readIter readVarU32 maxWasmSupertypes "supertype idxs")
        (Enc.encodeOption sup) (fun l => l = sup.toList) := by
      have := DecP.iter (f := readVarU32) (enc := encodeU32) (P := (· = ·)) (xs := sup.toList)
          (limit := maxWasmSupertypes) (desc := "supertype idxs") (by cases sup <;> simp [maxWasmSupertypes])
          (by decide) (fun x _ => (Dec.u32 x).toP rfl)
      have e : encodeU32 (BitVec.ofNat 32 sup.toList.length) ++ List.flatMap encodeU32 sup.toList =
          Enc.encodeOption sup := by
        cases sup with
        | none => decide +kernel
        | some i =>
          simp only [Option.toList, List.length_singleton, List.flatMap_cons, List.flatMap_nil,
            List.append_nil, Enc.encodeOption]
          rw [show encodeU32 (BitVec.ofNat 32 1) = [0x01] by decide +kernel]
          rfl
      rw [e] at this
      exact this.mono fun a ha => by rwa [List.forall₂_eq_eq_eq] at ha
    refine DecP.readPos fun pos => ?_
    refine (Dec.readU8 _).bindP ?_
    rw [if_pos (by cases fin <;> simp)]
    refine hs'.bind ?_
    rintro _ rfl
    rw [if_neg (by cases sup <;> simp)]
    refine Dec.bindP (b1 := []) (a := sup.map fun i => ⟨PackedIndex.moduleKind ||| i⟩) ?_ ?_
    · cases sup with
      | none => exact .pure _
      | some i =>
        simp only [Option.toList, firstSupertype, fromModuleIndex_eq, if_pos (h1 i rfl)]
        exact .pure _
    · refine Dec.bindP (b1 := [op]) (.readU8 op) ?_
      refine d1.map fun a ha => ⟨?_, ?_, ha⟩
      · cases fin <;> rfl
      · cases sup with
        | none => trivial
        | some i => exact packed_is (h1 i rfl)
  · have henc : Enc.SubType.encode ⟨fin, sup, comp⟩ = some (op :: bs) := by
      simp only [Enc.SubType.encode, e1, hp]
      rfl
    have hfin : fin = true := by cases fin <;> simp_all
    have hsup : sup = none := by cases sup <;> simp_all
    subst hfin hsup
    refine ⟨op, bs, henc, n3, ?_⟩
    refine DecP.readPos fun pos => ?_
    refine Dec.bindP (b1 := [op]) (.readU8 op) ?_
    rw [if_neg (by simp [n1, n2])]
    exact d1.map fun a ha => ⟨rfl, trivial, ha⟩

theorem decP_offsetSubType (e : Enc.SubType) (hf : e.Fits) :
    ∃ bs, e.encode = some bs ∧ DecP readOffsetSubType bs (fun p => p.2.Is e) := by
  obtain ⟨b, bs, h1, -, h2⟩ := decP_subType e hf
  exact ⟨_, h1, DecP.readPos fun pos => h2.map fun a ha => ha⟩

theorem decP_subTypes (es : List Enc.SubType) (hf : ∀ e ∈ es, e.Fits) :
    ∃ bs, Enc.encodeSubTypes es = some bs ∧ DecP (readMany readOffsetSubType es.length) bs
      (fun ps => List.Forall₂ (fun p e => p.2.Is e) ps es) := by
  induction es with
  | nil => exact ⟨[], rfl, .pure .nil⟩
  | cons e es ih =>
    obtain ⟨b1, h1, d1⟩ := decP_offsetSubType e (hf e (List.mem_cons_self ..))
    obtain ⟨b2, h2, d2⟩ := ih fun x hx => hf x (List.mem_cons_of_mem _ hx)
    refine ⟨b1 ++ b2, by simp [Enc.encodeSubTypes, h1, h2], ?_⟩
    exact d1.bind fun a ha => d2.bind_nil fun as has => .pure (.cons ha has)

end Verif.Types
