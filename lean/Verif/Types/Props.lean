import Verif.Types.Yields
/-!
# C11, C12, C39, C40: types
-/
namespace Verif.Types
open Verif.Reader Verif.Leb

/-! ## C12: the packed representation -/

/-- **C12.** `RefType::new` succeeds exactly when the index (if any) is below 2^20, and then
`is_nullable` and `heap_type` return what was put in; the debug assertions of `from_u32`
hold. -/
theorem c12_new (n : Bool) (h : HeapType) :
    (h.Fits ∧ ∃ t, RefType.new n h = some t ∧ t.isNullable = n ∧ t.heapType = some h ∧
      RefType.bitsOk t.bits = true) ∨
    (¬ h.Fits ∧ RefType.new n h = none) := by
  by_cases hf : h.Fits
  · obtain ⟨t, h1, ⟨h2, h3⟩, h4⟩ := (new_spec n h).1 hf
    exact .inl ⟨hf, t, h1, h2, h3, h4⟩
  · exact .inr ⟨hf, (new_spec n h).2 hf⟩

example : (RefType.new true (.exact (.recGroup 0xabcde#32))).isSome ∧
    RefType.new false (.concrete (.id 0x100000#32)) = none := by decide

/-- Distinct reference types have distinct packed values. -/
theorem c12_injective (n n' : Bool) (h h' : HeapType) (t : RefType)
    (e : RefType.new n h = some t) (e' : RefType.new n' h' = some t) : n = n' ∧ h = h' := by
  obtain ⟨⟨h1, h2⟩, -⟩ := new_is e
  obtain ⟨⟨h3, h4⟩, -⟩ := new_is e'
  rw [h1] at h3; rw [h2] at h4
  exact ⟨h3, by injection h4⟩

example : ∃ t, RefType.new true (.concrete (.module 5#32)) = some t := ⟨_, rfl⟩

/-- Packed values the API can produce are equal (as integers, the derived `==`) exactly when
they are the same reference type; the accessors never panic on them. -/
theorem c12_eq_iff (t t' : RefType) (m : t.Made) (m' : t'.Made) :
    t.heapType.isSome ∧ RefType.bitsOk t.bits = true ∧
    (t = t' ↔ t.isNullable = t'.isNullable ∧ t.heapType = t'.heapType) := by
  obtain ⟨n, h, e⟩ := made_new m
  obtain ⟨n', h', e'⟩ := made_new m'
  obtain ⟨⟨h1, h2⟩, h5, -⟩ := new_is e
  obtain ⟨⟨h3, h4⟩, -⟩ := new_is e'
  refine ⟨by rw [h2]; rfl, h5, fun x => x ▸ ⟨rfl, rfl⟩, fun ⟨x, y⟩ => ?_⟩
  rw [h1, h3] at x
  rw [h2, h4] at y
  injection y with y
  subst x y
  rw [e] at e'; injection e'

/-- What the operations on reference types do, in terms of the accessors. -/
theorem c12_operations (t u : RefType) (m : t.Made) (mu : u.Made) (n : Bool) (h : HeapType)
    (ht : t.Is n h) :
    t.asNonNull.Is false h ∧ t.nullable.Is true h ∧
    (∀ s ty, h = .abstract s ty → ∃ t', t.shared = some t' ∧ t'.Is n (.abstract true ty)) ∧
    ((∀ s ty, h ≠ .abstract s ty) → t.shared = none) ∧
    ∃ d, RefType.difference t u = some d ∧ d.Is (n && !u.isNullable) h := by
  obtain ⟨n0, h0, e⟩ := made_new m
  have hv := (new_is e).1
  obtain ⟨rfl, rfl⟩ : n0 = n ∧ h0 = h := by
    obtain ⟨x1, x2⟩ := hv
    obtain ⟨y1, y2⟩ := ht
    rw [x1] at y1; rw [x2] at y2
    exact ⟨y1, by injection y2⟩
  have hc := isConcrete_iff e
  refine ⟨(new_is (asNonNull_new e)).1, (new_is (nullable_new e)).1, ?_, ?_, ?_⟩
  · rintro s ty rfl
    have hs : t.shared = some ⟨t.bits ||| RefType.sharedBit⟩ := by
      unfold RefType.shared; rw [hc]; rfl
    obtain ⟨s', ty', h1, h2⟩ := shared_new e hs
    cases h1
    exact ⟨_, hs, (new_is h2).1⟩
  · intro hn
    have : t.isConcreteTypeRef = true := by
      rw [hc]
      cases h0 with
      | abstract s ty => exact absurd rfl (hn s ty)
      | concrete => rfl
      | exact => rfl
    unfold RefType.shared; rw [this]; rfl
  · obtain ⟨d, h1, h2, -⟩ := (new_spec (if u.isNullable = true then false else t.isNullable) h0).1
      (new_is e).2.2
    refine ⟨d, ?_, ?_⟩
    · unfold RefType.difference
      rw [hv.2]
      exact h1
    · have e1 : (if u.isNullable = true then false else t.isNullable) = (n0 && !u.isNullable) := by
        rw [hv.1]; cases u.isNullable <;> simp
      rwa [e1] at h2

example : ∃ t u : RefType, t.Made ∧ u.Made ∧ t.Is true (.abstract false .func) ∧
    u.isNullable = true :=
  ⟨.funcref, .externref, .nullable (.new (n := false) (h := .abstract false .func) rfl),
    .nullable (.new (n := false) (h := .abstract false .extern) rfl), by decide, by decide⟩

/-- The `is_*_ref` predicates say what the heap type is. -/
theorem c12_predicates (t : RefType) (m : t.Made) (n : Bool) (h : HeapType) (ht : t.Is n h) :
    (t.isFuncRef = true ↔ ∃ s, h = .abstract s .func) ∧
    (t.isExternRef = true ↔ ∃ s, h = .abstract s .extern) ∧
    (t.isArrayRef = true ↔ ∃ s, h = .abstract s .array) ∧
    (t.isStructRef = true ↔ ∃ s, h = .abstract s .struct) ∧
    (t.isContRef = true ↔ ∃ s, h = .abstract s .cont) ∧
    (t.isNoneRef = true ↔ ∃ s, h = .abstract s .none) ∧
    (t.isExactTypeRef = true → t.isConcreteTypeRef = true) ∧
    (t.isConcreteTypeRef = true ↔ (∃ u, h = .concrete u) ∨ ∃ u, h = .exact u) ∧
    (∀ p, t.typeIndex = some p → ∃ u, p.unpack = some u ∧ (h = .concrete u ∨ h = .exact u)) := by
  obtain ⟨n0, h0, e⟩ := made_new m
  obtain ⟨hv, -, hfit⟩ := new_is e
  obtain ⟨rfl, rfl⟩ : n0 = n ∧ h0 = h := by
    obtain ⟨x1, x2⟩ := hv
    obtain ⟨y1, y2⟩ := ht
    rw [x1] at y1; rw [x2] at y2
    exact ⟨y1, by injection y2⟩
  have hc := isConcrete_iff e
  cases h0 with
  | abstract s ty =>
    obtain ⟨h1, h2, h3, h4, h5, h6, h7, h8⟩ : t.isFuncRef = (ty == .func) ∧
        t.isExternRef = (ty == .extern) ∧ t.isArrayRef = (ty == .array) ∧
        t.isStructRef = (ty == .struct) ∧ t.isContRef = (ty == .cont) ∧
        t.isNoneRef = (ty == .none) ∧ t.isExactTypeRef = false ∧ t.typeIndex = none := by
      cases e
      cases n0 <;> cases s <;> cases ty <;> decide
    rw [h1, h2, h3, h4, h5, h6, h7, h8, hc]
    simp
  | concrete u =>
    simp only [RefType.isFuncRef, RefType.isExternRef, RefType.isArrayRef, RefType.isStructRef,
      RefType.isContRef, RefType.isNoneRef, hc]
    refine ⟨by simp, by simp, by simp, by simp, by simp, by simp, by simp, by simp, ?_⟩
    intro p hp
    have h2 := ht.2
    unfold RefType.heapType at h2
    rw [hc, hp] at h2
    simp only [if_true] at h2
    split at h2 <;> simp [Option.bind_eq_some_iff] at h2
    exact ⟨_, h2, .inl rfl⟩
  | exact u =>
    simp only [RefType.isFuncRef, RefType.isExternRef, RefType.isArrayRef, RefType.isStructRef,
      RefType.isContRef, RefType.isNoneRef, hc]
    refine ⟨by simp, by simp, by simp, by simp, by simp, by simp, by simp, by simp, ?_⟩
    intro p hp
    have h2 := ht.2
    unfold RefType.heapType at h2
    rw [hc, hp] at h2
    simp only [if_true] at h2
    split at h2 <;> simp [Option.bind_eq_some_iff] at h2
    exact ⟨_, h2, .inr rfl⟩

/-! ## C11: value types -/

/-- **C11.** The encoding of a value type whose index is below the limit is decoded to that
type, consuming exactly its bytes, whatever follows; for a reference type the accessors of
the decoded value return the nullability and heap type that were encoded. -/
theorem c11_roundtrip (e : Enc.ValType) (hf : e.Fits) (r : Reader) (tail : List UInt8)
    (hr : r.rest = e.encode ++ tail) :
    ∃ v, readValType r = .ok (v, r.advance e.encode.length) ∧ v.Is e ∧
      ∀ t, e = .ref t → ∃ u, v = .ref u ∧ u.Is t.nullable t.heapType.denote := by
  obtain ⟨v, h1, h2⟩ := decP_valType e hf r tail hr
  refine ⟨v, h1, h2, ?_⟩
  rintro t rfl
  cases v with
  | ref u => exact ⟨u, rfl, (new_is h2).1⟩
  | _ => cases h2

example : (Enc.ValType.ref ⟨false, .exact 0xfffff#32⟩).Fits := by decide

/-- Standalone heap types. -/
theorem c11_heap_roundtrip (e : Enc.HeapType) (hf : e.denote.Fits) (r : Reader)
    (tail : List UInt8) (hr : r.rest = e.encode ++ tail) :
    readHeapType r = .ok (e.denote, r.advance e.encode.length) :=
  dec_heapType e (denote_fits_concrete hf) r tail hr

/-- An index above the limit is rejected, never read as some other type. -/
theorem c11_too_large (e : Enc.ValType) (hf : ¬ e.Fits) (r : Reader) (tail : List UInt8)
    (hr : r.rest = e.encode ++ tail) : ∃ err, readValType r = .error err := by
  cases e with
  | ref t =>
    obtain ⟨n, ht⟩ := t
    have hlong : (Enc.ValType.ref ⟨n, ht⟩).encode = (if n then 0x63 else 0x64) :: ht.encode := by
      cases n <;> cases ht <;> first | rfl | exact absurd trivial hf
    rw [hlong] at hr
    suffices h : ∃ err, readRefType r = .error err by
      obtain ⟨err, h⟩ := h
      unfold readValType
      have hp := peekR_cons hr
      cases n <;> simp only [bind_apply, hp, if_true, Bool.false_eq_true, if_false] <;>
        (iterate 5 rw [if_neg (by decide)]
         simp only [bind_apply, mapErr, h]; exact ⟨_, rfl⟩)
    have hU := readU8_cons hr
    have hp := peekR_cons hr
    have hnew : RefType.new n ht.denote = none := (new_spec n ht.denote).2 hf
    have hr' : (r.advance 1).rest = ht.encode ++ tail := by
      simp [hr]
    unfold readRefType
    rw [bind_apply]
    simp only [readPos, bind_apply, hp]
    rw [if_pos (by cases n <;> simp)]
    rw [bind_apply, hU]
    simp only
    have hn : ((if n = true then (0x63 : UInt8) else 0x64) == 0x63) = n := by cases n <;> decide
    rw [hn]
    cases ht with
    | abstract s ty => exact absurd trivial hf
    | exact i =>
      have := dec_heapType (.exact i) trivial _ tail hr'
      rw [bind_apply, this]
      simp only [hnew]
      exact ⟨_, rfl⟩
    | concrete i =>
      have hI := u32_toInt i
      have := Dec.s33 (i.setWidth 64) (by have := i.isLt; omega) _ tail hr'
      have : ∃ err, readHeapType (r.advance 1) = .error err := by
        unfold readHeapType
        simp only [this]
        rw [if_pos (by have := i.isLt; omega), u32_setWidth, fromModuleIndex_eq,
          if_neg (by exact hf)]
        exact ⟨_, rfl⟩
      obtain ⟨err, this⟩ := this
      rw [bind_apply, this]
      exact ⟨_, rfl⟩
  | _ => exact absurd trivial hf

example : ¬ (Enc.ValType.ref ⟨true, .concrete 0x100000#32⟩).Fits := by decide

/-- The encoding is injective and prefix-free, so a sequence of value types is determined by
its bytes. -/
theorem c11_prefix_free (e e' : Enc.ValType) (hf : e.Fits) (hf' : e'.Fits)
    (t t' : List UInt8) (h : e.encode ++ t = e'.encode ++ t') : e = e' ∧ t = t' := by
  obtain ⟨-, h2, v, h3, h4⟩ := (decP_valType e hf).unique (decP_valType e' hf') h
  refine ⟨?_, h2⟩
  have := re_val id h3
  rw [re_val id h4, rename_id_val, rename_id_val] at this
  exact (Option.some.inj this).symm

/-! ## C39: entries of the type section -/

/-- **C39.** A subtype within the limits is encodable, and its bytes are read back as an
implicit recursion group of just that type: finality, supertype, sharedness, descriptor
clauses and structure are those encoded. -/
theorem c39_subtype (e : Enc.SubType) (hf : e.Fits) :
    ∃ bs, e.encode = some bs ∧ ∀ (r : Reader) (tail : List UInt8), r.rest = bs ++ tail →
      ∃ t, readRecGroup r = .ok (.implicit r.originalPosition t, r.advance bs.length) ∧
        t.Is e := by
  obtain ⟨b, bs, h1, h2, h3⟩ := decP_subType e hf
  refine ⟨_, h1, fun r tail hr => ?_⟩
  obtain ⟨t, h4, h5⟩ := h3 r tail hr
  refine ⟨t, ?_, h5⟩
  unfold readRecGroup
  rw [bind_apply, peekR_cons hr]
  simp only
  rw [if_neg h2, bind_apply]
  simp only [readPos]
  rw [bind_apply, h4]
  rfl

/-- The same for an explicit group of any number of types (up to the limit of 1000000). -/
theorem c39_rec_group (es : List Enc.SubType) (hl : es.length ≤ 1000000)
    (hf : ∀ e ∈ es, e.Fits) :
    ∃ bs, Enc.encodeRec es = some bs ∧ ∀ (r : Reader) (tail : List UInt8), r.rest = bs ++ tail →
      ∃ ts, readRecGroup r = .ok (.explicit ts, r.advance bs.length) ∧
        List.Forall₂ (fun t e => SubType.Is t.2 e) ts es := by
  obtain ⟨bs, h1, h2⟩ := decP_subTypes es hf
  refine ⟨0x4e :: encodeU32 (BitVec.ofNat 32 es.length) ++ bs, ?_, ?_⟩
  · unfold Enc.encodeRec
    rw [encodeUsize_eq (by omega), h1]
    rfl
  · suffices h : DecP readRecGroup (0x4e :: (encodeU32 (BitVec.ofNat 32 es.length) ++ bs))
        (fun g => ∃ ts, g = .explicit ts ∧ List.Forall₂ (fun t e => SubType.Is t.2 e) ts es) by
      intro r tail hr
      obtain ⟨g, h3, ts, rfl, h4⟩ := h r tail hr
      exact ⟨ts, h3, h4⟩
    refine DecP.peek ?_
    refine DecP.congr ?_ (if_pos rfl)
    refine Dec.bindP (b1 := [0x4e]) (.readU8 _) ?_
    refine DecP.map (P := fun ts => List.Forall₂ (fun t e => SubType.Is t.2 e) ts es) ?_
      fun ts h => ⟨ts, rfl, h⟩
    refine Dec.bindP (a := es.length) ?_ h2
    refine Dec.readPos fun pos => (Dec.u32 _).bind_nil ?_
    have : (BitVec.ofNat 32 es.length).toNat = es.length := by
      rw [BitVec.toNat_ofNat]; omega
    rw [this, if_neg (by simp only [maxWasmTypes]; omega)]
    exact .pure _

/-- A struct with a declared supertype and a descriptor, a shared array of packed values, a
function type and a continuation type. -/
def sampleGroup : List Enc.SubType :=
  [⟨false, some 3#32, ⟨.struct [⟨.i8, true⟩, ⟨.val (.ref ⟨true, .exact 1#32⟩), false⟩], false,
      some 1#32, none⟩⟩,
   ⟨true, none, ⟨.array ⟨.val .v128, true⟩, true, none, none⟩⟩,
   ⟨true, none, ⟨.func ⟨[.i32, .ref ⟨false, .concrete 300#32⟩], [.f64]⟩, false, none, some 0#32⟩⟩,
   ⟨true, some 2#32, ⟨.cont 70#32, false, none, none⟩⟩]

example : sampleGroup.length ≤ 1000000 ∧ ∀ e ∈ sampleGroup, e.Fits := by
  refine ⟨by decide, ?_⟩
  simp [sampleGroup, Enc.SubType.Fits, OptFits, Enc.CompositeInnerType.Fits,
    Enc.StorageType.Fits, Enc.ValType.Fits, HeapType.Fits, Enc.HeapType.denote,
    UnpackedIndex.Fits]

example : Enc.encodeRec sampleGroup = some [0x4e, 4, 0x50, 1, 3, 0x4d, 1, 0x5f, 2, 0x78, 1, 0x63,
    0x62, 1, 0, 0x65, 0x5e, 0x7b, 1, 0x4c, 0, 0x60, 2, 0x7f, 0x64, 0xac, 2, 1, 0x7c,
    0x4f, 1, 2, 0x5d, 0xc6, 0] := by decide +kernel

/-! ## C40: re-encoding -/

/-- **C40.** Anything the parser reads as a recursion group, from any bytes, can be
re-encoded, and the result is read back as the same group (same explicitness, equal types).
-/
theorem c40_reencode (r r' : Reader) (g : RecGroup) (h : readRecGroup r = .ok (g, r')) :
    ∃ bs, Reenc.recGroup id g = some bs ∧
      ∀ (q : Reader) (tail : List UInt8), q.rest = bs ++ tail →
      ∃ g', readRecGroup q = .ok (g', q.advance bs.length) ∧ g'.types = g.types ∧
        g'.isExplicit = g.isExplicit := by
  rcases yields_recGroup _ _ _ h with ⟨o, t, e, rfl, h1, h2⟩ | ⟨ts, es, rfl, h1, h2, h3⟩
  · obtain ⟨bs, h3, h4⟩ := c39_subtype e h2
    refine ⟨bs, ?_, ?_⟩
    · simp only [Reenc.recGroup, re_sub id h1, rename_id_sub]
      exact h3
    · intro q tail hq
      obtain ⟨t', h5, h6⟩ := h4 q tail hq
      exact ⟨_, h5, by simp [RecGroup.types, lu_sub _ _ _ h6 h1], rfl⟩
  · obtain ⟨bs, h4, h5⟩ := c39_rec_group es h2 h3
    refine ⟨bs, ?_, ?_⟩
    · have := mapM_forall₂ (P := SubType.Is) (g := Reenc.subType id) (k := fun e => e)
        (fun a b hab => by rw [re_sub id hab, rename_id_sub]) h1
      simp only [Reenc.recGroup, this, List.map_id']
      exact h4
    · intro q tail hq
      obtain ⟨ts', h6, h7⟩ := h5 q tail hq
      refine ⟨_, h6, ?_, rfl⟩
      have h7' : List.Forall₂ SubType.Is (ts'.map (·.2)) es := by
        rw [List.forall₂_map_left_iff]; exact h7
      exact lu_sub.forall₂ _ _ _ h7' h1

example : ((readRecGroup (Reader.new [0x4e, 2, 0x50, 0, 0x5e, 0x78, 1, 0x60, 0, 1, 0x6b, 9] 3)).map
    fun x => (x.1.types.length, x.2.position)).toOption = some (2, 11) := by decide +kernel

/-- A reencoder that renames type indices renames the indices in the types and changes
nothing else. -/
theorem c40_rename (f : BitVec 32 → BitVec 32) (t : SubType) (e : Enc.SubType) (h : t.Is e)
    (hf : (e.rename f).Fits) :
    ∃ e' bs, Reenc.subType f t = some e' ∧ e'.encode = some bs ∧
      ∀ (q : Reader) (tail : List UInt8), q.rest = bs ++ tail →
      ∃ t', readRecGroup q = .ok (.implicit q.originalPosition t', q.advance bs.length) ∧
        t'.Is (e.rename f) := by
  obtain ⟨bs, h3, h4⟩ := c39_subtype _ hf
  exact ⟨_, bs, re_sub f h, h3, h4⟩

end Verif.Types
