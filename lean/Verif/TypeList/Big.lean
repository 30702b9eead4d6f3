import Verif.TypeList.Hist
/-! # A history with more than 2^20 types -/
namespace Verif.TypeList
open Verif.Types
open Spec (SubT Comp Heap Ref Val Storage Field Kind Decls CompSub Comp.kind)

/-- Everything is enabled. -/
def allOn : Features := ⟨true, true, true, true, true, true, true, true, true, true, true, true⟩

/-- `(type (struct))`. -/
def unitT : SubType := ⟨true, none, ⟨.struct [], false, none, none⟩⟩

def unitX : SubT Nat := ⟨true, none, false, none, none, .struct []⟩

theorem canonicalize_units (m : List Nat) (s len : Nat) : ∀ n k, s + k + n < 2 ^ 32 →
    canonicalizeTypes allOn m s len k (List.replicate n unitT) = .ok (List.replicate n unitT)
  | 0, _, _ => rfl
  | n + 1, k, h => by
    rw [List.replicate_succ]
    unfold canonicalizeTypes
    have hu : u32 (s + k) = .ok (s + k) := by unfold u32; rw [if_pos (by omega)]
    have hr : remapSub (canonicalizeTypeIndex allOn m s len) unitT = .ok unitT := rfl
    simp only [hu, ok_bind, hr, canonicalize_units m s len n (k + 1) (by omega)]
    rfl

theorem intern_units (s k : Nat) : ∀ n (T : TypeList),
    T.coreTypes.length = T.coreTypeToSupertype.length →
    T.coreTypes.length = T.coreTypeToRecGroup.length →
    internTypes s k T (List.replicate n unitT) = .ok { T with
      coreTypeToSupertype := T.coreTypeToSupertype ++ List.replicate n none
      coreTypes := T.coreTypes ++ List.replicate n unitT
      coreTypeToRecGroup := T.coreTypeToRecGroup ++ List.replicate n k }
  | 0, T, _, _ => by simp [internTypes]
  | n + 1, T, h1, h2 => by
    rw [List.replicate_succ]
    unfold internTypes
    have hr : remapSub (localToId s) unitT = .ok unitT := rfl
    have hs : supertypeId s unitT.supertypeIdx = .ok none := rfl
    have a1 : assert (T.coreTypes.length == T.coreTypeToSupertype.length) = .ok () := by
      unfold assert; rw [if_pos (by simpa using h1)]
    have a2 : assert (T.coreTypes.length == T.coreTypeToRecGroup.length) = .ok () := by
      unfold assert; rw [if_pos (by simpa using h2)]
    simp only [a1, a2, hr, hs, ok_bind]
    rw [intern_units s k n _ (by simp [h1]) (by simp [h2])]
    simp [List.replicate_succ]

def setD (d : Nat → Option Nat) (id : Nat) : Nat → Option Nat :=
  fun x => if x = id then some 0 else d x

theorem check_unit (m : List Nat) (T : TypeList) (g id : Nat) (h : T.coreTypes[id]? = some unitT)
    (hd : T.coreTypeToDepth id = none) :
    checkSubtype allOn m T g id = .ok { T with coreTypeToDepth := setD T.coreTypeToDepth id } := by
  unfold checkSubtype
  have h1 : typeAt T id = .ok unitT := by simp [typeAt, h, unwrap]
  have h2 : checkCompositeType allOn T unitT.compositeType = .ok () := rfl
  simp only [h1, ok_bind, h2]
  show setSubtypingDepth T id 0 = _
  simp [setSubtypingDepth, assert, hd]
  rfl

theorem desc_unit (m : List Nat) (T : TypeList) (g id : Nat) (h : T.coreTypes[id]? = some unitT) :
    checkDescriptors allOn m T g id = .ok () := by
  unfold checkDescriptors
  have h1 : typeAt T id = .ok unitT := by simp [typeAt, h, unwrap]
  simp only [h1, ok_bind]
  rfl

theorem addIds_units (g : Nat) : ∀ n a (T : TypeList) (m : List Nat),
    (∀ i, a ≤ i → i < a + n → T.coreTypes[i]? = some unitT ∧ T.coreTypeToDepth i = none) →
    a + n < 2 ^ 32 →
    ∃ d, addIds allOn true g (List.range' a n) T m =
      .ok ({ T with coreTypeToDepth := d }, m ++ List.range' a n) ∧
      ∀ i, a + n ≤ i → d i = T.coreTypeToDepth i
  | 0, a, T, m, _, _ => ⟨T.coreTypeToDepth, by simp [addIds], fun _ _ => rfl⟩
  | n + 1, a, T, m, h, hb => by
    rw [List.range'_succ]
    unfold addIds
    have hu : u32 a = .ok a := by unfold u32; rw [if_pos (by omega)]
    obtain ⟨h1, h2⟩ := h a (by omega) (by omega)
    have a1 : assert (T.coreTypes[a]?).isSome = .ok () := by simp [assert, h1]
    obtain ⟨d, h3, h4⟩ := addIds_units g n (a + 1) { T with coreTypeToDepth := setD T.coreTypeToDepth a } (m ++ [a]) (fun i hi hj => by
          obtain ⟨h3, h4⟩ := h i (by omega) (by omega)
          refine ⟨h3, ?_⟩
          simp only [setD]
          rw [if_neg (by omega)]; exact h4) (by omega)
    refine ⟨d, ?_, fun i hi => ?_⟩
    · simp only [hu, ok_bind, a1, if_true]
      rw [check_unit _ _ _ _ h1 h2]
      simp only [ok_bind]
      rw [desc_unit _ _ _ _ (by exact h1)]
      simp only [ok_bind]
      rw [h3]
      simp
    · rw [h4 i (by omega)]
      simp only [setD]
      rw [if_neg (by omega)]

/-- A group of `n` empty structures. -/
def units (n : Nat) : RecGroup := .explicit (List.replicate n (0, unitT))

theorem units_types (n : Nat) : (units n).types = List.replicate n unitT := by
  simp [units, RecGroup.types]

theorem src_units (n : Nat) : Src (units n) (List.replicate n unitX) := by
  refine ⟨?_, ?_⟩
  · rw [units_types]
    induction n with
    | zero => exact .nil
    | succ n ih =>
      rw [List.replicate_succ, List.replicate_succ]
      exact .cons ⟨rfl, trivial, rfl, trivial, trivial, .nil⟩ ih
  · intro x hx r hr
    obtain ⟨_, rfl⟩ := List.mem_replicate.1 hx
    simp [unitX, SubT.refs, Comp.refs] at hr

/-- What is known after adding only such groups. -/
structure Tame (T : TypeList) (n k : Nat) (S : List Nat) : Prop where
  types : T.coreTypes.length = n
  supers : T.coreTypeToSupertype.length = n
  groups : T.coreTypeToRecGroup.length = n
  elems : T.recGroupElements.length = k
  canon : ∀ g, g.length ∉ S → T.canonicalRecGroups g = none
  depth : ∀ i, n ≤ i → T.coreTypeToDepth i = none

theorem tame_init : Tame .default 0 0 [] := by
  constructor <;> simp [TypeList.default]

def withUnits (T : TypeList) (a k n : Nat) : TypeList := { T with
  canonicalRecGroups := fun x => if x = List.replicate n unitT then some k
    else T.canonicalRecGroups x
  coreTypeToSupertype := T.coreTypeToSupertype ++ List.replicate n none
  coreTypes := T.coreTypes ++ List.replicate n unitT
  coreTypeToRecGroup := T.coreTypeToRecGroup ++ List.replicate n k
  recGroupElements := T.recGroupElements ++ [(a, a + n)] }

theorem add_units {T : TypeList} {a k n : Nat} {S : List Nat} (h : Tame T a k S) (hS : n ∉ S)
    (hn : n ≤ 1000000) (ha : a + n < 2 ^ 32) (hk : k < 2 ^ 32) :
    ∃ T', addTypes allOn T [] (units n) = .ok (T', List.range' a n) ∧
      Tame T' (a + n) (k + 1) (n :: S) := by
  have hl : (units n).types.length = n := by rw [units_types]; simp
  have e1 : require (decide (([] : List Nat).length ≤ maxWasmTypes ∧
      (units n).types.length ≤ maxWasmTypes - ([] : List Nat).length))
      "types count exceeds limit" = .ok () := by
    unfold require
    rw [if_pos]
    rw [hl]
    simpa [maxWasmTypes] using hn
  have e2 : assert ((units n).isExplicit || (units n).types.length == 1) = .ok () := rfl
  have e3 : canonicalizeRecGroup allOn [] (units n).types = .ok (List.replicate n unitT) := by
    unfold canonicalizeRecGroup u32
    rw [hl, if_pos (by simp), if_pos (by omega)]
    simp only [ok_bind]
    rw [units_types]
    exact canonicalize_units [] 0 n n 0 (by omega)
  have hc : T.canonicalRecGroups (List.replicate n unitT) = none := h.canon _ (by simpa using hS)
  have e4 : internCanonicalRecGroup T true (List.replicate n unitT) = .ok ((true, k), withUnits T a k n) := by
    unfold internCanonicalRecGroup
    have hu : u32 T.recGroupElements.length = .ok k := by
      unfold u32; rw [h.elems, if_pos hk]
    simp only [hu, ok_bind, if_true, hc]
    unfold internNew
    have hu : u32 T.coreTypes.length = .ok a := by
      unfold u32; rw [h.types, if_pos (by omega)]
    simp only [hu, ok_bind]
    rw [intern_units _ _ _ _ (by simp [h.types, h.supers]) (by simp [h.types, h.groups])]
    simp only [ok_bind]
    have hu : u32 (T.coreTypes ++ List.replicate n unitT).length = .ok (a + n) := by
      unfold u32; simp only [List.length_append, h.types, List.length_replicate]; rw [if_pos ha]
    simp only [hu, ok_bind]
    rfl
  obtain ⟨d, e5, h5⟩ := addIds_units k n a (withUnits T a k n) [] (fun i hi hj => by
        refine ⟨?_, h.depth i hi⟩
        simp only [withUnits]
        rw [List.getElem?_append_right (by rw [h.types]; exact hi), h.types,
          List.getElem?_replicate, if_pos (by omega)]) ha
  refine ⟨{ withUnits T a k n with coreTypeToDepth := d }, ?_, ?_⟩
  · unfold addTypes
    simp only [e1, ok_bind]
    unfold canonicalizeAndIntern
    have e6 : allOn.needsTypeCanonicalization = true := rfl
    have e7 : require allOn.gc "rec group usage requires `gc` proposal to be enabled" = .ok () := rfl
    have e8 : (units n).isExplicit = true := rfl
    simp only [e2, ok_bind, e8, if_true, e7, e6, e3, e4]
    have e9 : (withUnits T a k n).recGroupElements[k]? = some (a, a + n) := by
      simp only [withUnits]
      rw [List.getElem?_append_right (Nat.le_of_eq h.elems), h.elems]; simp
    simp only [e9, unwrap, ok_bind, Nat.add_sub_cancel_left]
    rw [e5]
    rfl
  · constructor
    · simp [withUnits, h.types]
    · simp [withUnits, h.supers]
    · simp [withUnits, h.groups]
    · simp [withUnits, h.elems]
    · intro g hg
      simp only [withUnits]
      rw [if_neg]
      · exact h.canon g fun hS => hg (by simp [hS])
      · rintro rfl; simp at hg
    · intro i hi
      show d i = none
      rw [h5 i hi]
      exact h.depth i (by omega)

/-- `(rec (type (struct (field (ref null 0)))))`. -/
def selfT : SubType := ⟨true, none, ⟨.struct [⟨.val (.ref (RefType.concrete true ⟨0⟩)), false⟩],
  false, none, none⟩⟩

def selfX : SubT Nat :=
  ⟨true, none, false, none, none, .struct [⟨false, .val (.ref ⟨true, .concrete 0⟩)⟩]⟩

theorem src_self : Src (.explicit [(0, selfT)]) [selfX] := by
  refine ⟨.cons ⟨rfl, trivial, rfl, trivial, trivial, .cons ⟨rfl, ?_⟩ .nil⟩ .nil, ?_⟩
  · show RefType.new true (.concrete (.module 0)) = some (RefType.concrete true ⟨0⟩)
    decide
  · intro x hx r hr
    simp at hx
    subst hx
    simp [selfX, SubT.refs, Comp.refs, Field.refs, Storage.refs, Val.refs, Heap.refs] at hr
    omega

theorem local_big {n : Nat} (h : 2 ^ 20 ≤ n) (h' : n < 2 ^ 32) :
    localToId n ⟨0x00100000⟩ = .error .panic := by
  have e1 : (PackedIndex.mk 0x00100000).unpack = some (.recGroup 0) := by decide
  have e2 : (UnpackedIndex.id (BitVec.ofNat 32 n)).pack = none :=
    pack_none (by
      simp only [UnpackedIndex.raw]
      rw [toNat_32 h']
      omega)
  have e3 : u32 n = .ok n := by unfold u32; rw [if_pos h']
  unfold localToId
  rw [e1]
  simp only [unwrap, ok_bind]
  rw [show n + BitVec.toNat (0 : BitVec 32) = n from rfl, e3]
  simp only [ok_bind, e2]

def selfC : SubType := ⟨true, none, ⟨.struct [⟨.val (.ref (RefType.concrete true ⟨0x00100000⟩)),
  false⟩], false, none, none⟩⟩

theorem remap_self {n : Nat} (h : 2 ^ 20 ≤ n) (h' : n < 2 ^ 32) :
    remapSub (localToId n) selfC = .error .panic := by
  have e1 : (RefType.concrete true ⟨0x00100000⟩).typeIndex = some ⟨0x00100000⟩ := by decide
  have e2 : remapInner (localToId n) selfC.compositeType.inner = .error .panic := by
    simp only [selfC, remapInner, List.mapM_cons, remapField, remapVal, e1, local_big h h',
      error_bind]
  unfold remapSub
  rw [e2]
  rfl

theorem add_self {T : TypeList} {n k : Nat} {S : List Nat} (h : Tame T n k S) (hS : 1 ∉ S)
    (hk : k < 2 ^ 32) (h1 : 2 ^ 20 ≤ n) (h2 : n < 2 ^ 32) :
    addTypes allOn T [] (.explicit [(0, selfT)]) = .error .panic := by
  have e1 : canonicalizeRecGroup allOn [] [selfT] = .ok [selfC] := by rfl
  unfold addTypes canonicalizeAndIntern
  have e2 : (RecGroup.explicit [(0, selfT)]).types = [selfT] := rfl
  have e3 : (RecGroup.explicit [(0, selfT)]).isExplicit = true := rfl
  have e6 : allOn.needsTypeCanonicalization = true := rfl
  have e7 : require allOn.gc "rec group usage requires `gc` proposal to be enabled" = .ok () := rfl
  have e8 : require (decide (([] : List Nat).length ≤ maxWasmTypes ∧
      ([selfT] : List SubType).length ≤ maxWasmTypes - ([] : List Nat).length))
      "types count exceeds limit" = .ok () := by
    unfold require; rw [if_pos (by simp [maxWasmTypes])]
  have e9 : assert (true || [selfT].length == 1) = .ok () := rfl
  rw [e2, e3, e6, e8]
  simp only [ok_bind, e9, if_true, e7, e1]
  unfold internCanonicalRecGroup
  have hu : u32 T.recGroupElements.length = .ok k := by
    unfold u32; rw [h.elems, if_pos hk]
  simp only [hu, ok_bind, if_true, h.canon [selfC] (by simpa using hS)]
  unfold internNew
  have hu : u32 T.coreTypes.length = .ok n := by
    unfold u32; rw [h.types, if_pos h2]
  simp only [hu, ok_bind]
  unfold internTypes
  have a1 : assert (T.coreTypes.length == T.coreTypeToSupertype.length) = .ok () := by
    simp [assert, h.types, h.supers]
  have a2 : assert (T.coreTypes.length == T.coreTypeToRecGroup.length) = .ok () := by
    simp [assert, h.types, h.groups]
  have hs : supertypeId n selfC.supertypeIdx = .ok none := rfl
  simp only [a1, a2, ok_bind, hs, remap_self h1 h2, error_bind]

/-- Two modules with `a` and `b` types, and an empty one. -/
def bigHistory (a b : Nat) : List Op :=
  [.newModule, .add 0 (units a), .newModule, .add 1 (units b), .newModule]

def bigSource (a b : Nat) : List SrcOp :=
  [.newModule, .add 0 (List.replicate a unitX), .newModule,
    .add 1 (List.replicate b unitX), .newModule]

/-- Adding a type that refers to itself. -/
theorem big_reaches {a b : Nat} (ha : a ≤ 1000000) (hb : b ≤ 1000000) (hab : 2 ^ 20 ≤ a + b)
    (h1 : a ≠ 1) (h2 : b ≠ 1) (h3 : a ≠ b) : ∃ s, Reaches allOn (bigHistory a b) (bigSource a b) s ∧
    step allOn s (.add 2 (.explicit [(0, selfT)])) = .error .panic := by
  obtain ⟨T1, e1, t1⟩ := add_units (n := a) tame_init (by simp) ha (by omega) (by omega)
  obtain ⟨T2, e2, t2⟩ := add_units (n := b) t1 (by simp; omega) hb (by omega) (by omega)
  refine ⟨⟨T2, [List.range' 0 a, List.range' (0 + a) b, []]⟩, ⟨?_, ?_⟩, ?_⟩
  · exact .cons trivial (.cons ⟨rfl, src_units _⟩ (.cons trivial (.cons ⟨rfl, src_units _⟩
      (.cons trivial .nil))))
  · simp only [bigHistory, State.init, run, step, pure_ok, ok_bind, List.nil_append,
      List.getElem?_cons_zero, unwrap, e1, List.set_cons_zero, List.cons_append,
      List.getElem?_cons_succ, e2, List.set_cons_succ]
  · simp only [step, List.getElem?_cons_succ, List.getElem?_cons_zero, unwrap, ok_bind]
    rw [add_self t2 (by simp; omega) (by omega) (by omega) (by omega)]
    rfl

/-- The same for a module that is only about to be added. -/
theorem big_add {a b : Nat} (ha : a ≤ 1000000) (hb : b ≤ 1000000) (hab : 2 ^ 20 ≤ a + b)
    (h1 : a ≠ 1) (h2 : b ≠ 1) (h3 : a ≠ b) : ∃ s, Reaches allOn (bigHistory a b) (bigSource a b) s ∧
    addTypes allOn s.types [] (.explicit [(0, selfT)]) = .error .panic := by
  obtain ⟨T1, e1, t1⟩ := add_units (n := a) tame_init (by simp) ha (by omega) (by omega)
  obtain ⟨T2, e2, t2⟩ := add_units (n := b) t1 (by simp; omega) hb (by omega) (by omega)
  refine ⟨⟨T2, [List.range' 0 a, List.range' (0 + a) b, []]⟩, ⟨?_, ?_⟩, ?_⟩
  · exact .cons trivial (.cons ⟨rfl, src_units _⟩ (.cons trivial (.cons ⟨rfl, src_units _⟩
      (.cons trivial .nil))))
  · simp only [bigHistory, State.init, run, step, pure_ok, ok_bind, List.nil_append,
      List.getElem?_cons_zero, unwrap, e1, List.set_cons_zero, List.cons_append,
      List.getElem?_cons_succ, e2, List.set_cons_succ]
  · exact add_self t2 (by simp; omega) (by omega) (by omega) (by omega)

end Verif.TypeList
