import Verif.Valid.ConstSpec
/-! What is valid in a context is valid in larger ones, for constant expressions. -/
namespace Verif.Valid
open Spec
open Verif.Op.Typing
open Verif.Instr (Operator)

variable {C C' : Ctx} {F F' : Fn}

/-- `C'` has the types of `C`, and at least its functions, globals and references. -/
structure Ext (C C' : Ctx) : Prop where
  types : C'.types = C.types
  defs : C'.defs = C.defs
  funcs : C.funcs <+: C'.funcs
  globals : C.globals <+: C'.globals
  refs : ∀ i ∈ C.refs, i ∈ C'.refs

theorem Ext.refl (C : Ctx) : Ext C C :=
  ⟨rfl, rfl, List.prefix_refl _, List.prefix_refl _, fun _ h => h⟩

theorem Ext.trans {C1 C2 C3 : Ctx} (h : Ext C1 C2) (h' : Ext C2 C3) : Ext C1 C3 :=
  ⟨h'.types.trans h.types, h'.defs.trans h.defs, h.funcs.trans h'.funcs,
    h.globals.trans h'.globals, fun i hi => h'.refs i (h.refs i hi)⟩

theorem prefix_get {α : Type} {l l' : List α} (h : l <+: l') {i : Nat} {a : α}
    (ha : l[i]? = some a) : l'[i]? = some a := by
  obtain ⟨t, rfl⟩ := h
  rw [List.getElem?_append_left (List.getElem?_eq_some_iff.1 ha).1]
  exact ha

theorem Ext.type (h : Ext C C') (i : BitVec 32) : C'.type i = C.type i := by
  unfold Ctx.type
  rw [h.types, h.defs]

theorem Ext.decls (h : Ext C C') : C'.decls = C.decls := by
  unfold Ctx.decls
  rw [h.defs]

theorem Ext.heapTy (h : Ext C C') : C'.HeapTy = C.HeapTy := by
  funext x y
  unfold Ctx.HeapTy
  rw [h.types]

theorem Ext.refTy (h : Ext C C') : C'.RefTy = C.RefTy := by
  funext x y
  unfold Ctx.RefTy
  rw [h.heapTy]

theorem Ext.valTy (h : Ext C C') : C'.ValTy = C.ValTy := by
  funext x y
  unfold Ctx.ValTy
  rw [h.refTy]

theorem Ext.idxRef (h : Ext C C') : C'.IdxRef = C.IdxRef := by
  funext n i t
  unfold Ctx.IdxRef
  rw [h.types]

theorem Const.mono (h : Ext C C') {o : Operator} (ho : Const C o) : Const C' o := by
  cases o <;> try exact ho
  rcases ho with ho | ⟨ho, g, h1, h2⟩
  · exact .inl ho
  · exact .inr ⟨ho, g, prefix_get h.globals h1, h2⟩

/-- A function in another context. -/
def withCtx (F : Fn) (C : Ctx) : Fn := { F with C := C }

theorem Ext.comp (h : Ext F.C C') {i : BitVec 32} {c : TypeList.Spec.Comp Nat} (hc : F.Comp i c) :
    (withCtx F C').Comp i c := by
  obtain ⟨x, h1, h2, h3⟩ := hc
  exact ⟨x, (h.type i).trans h1, h2, h3⟩

theorem InstrTy.mono (h : Ext F.C C') {I : List (BitVec 32)} {o : Operator} {ts us : List VT}
    (hc : Const F.C o) (ht : InstrTy F I o ts us) : InstrTy (withCtx F C') I o ts us := by
  have hi := h.idxRef
  have ht' := h.type
  have hi' : ∀ {n i t}, F.C.IdxRef n i t → (withCtx F C').C.IdxRef n i t := by
    intro n i t e
    show C'.IdxRef n i t
    rw [hi]
    exact e
  have hd' : ∀ {i}, (∀ x, F.C.type i = some x → x.descriptor = none) →
      ∀ x, (withCtx F C').C.type i = some x → x.descriptor = none := by
    intro i e x hx
    exact e x ((ht' i).symm.trans hx)
  cases ht with
  | stops below after hs =>
    exfalso
    cases o with
    | plain o =>
      simp only [Const, constPlain, List.mem_cons, List.not_mem_nil, or_false] at hc
      rcases hc with rfl | rfl | rfl | rfl | rfl | rfl | rfl | rfl | rfl | rfl <;> exact hs
    | idx o i =>
      simp only [Const, constIdx, List.mem_cons, List.not_mem_nil, or_false] at hc
      rcases hc with (rfl | rfl | rfl | rfl | rfl) | ⟨rfl, -⟩ <;> exact hs
    | _ => first | exact hs | exact hc
  | brTable => exact hc.elim
  | select => simp [Const, constPlain] at hc
  | refAsNonNull => simp [Const, constPlain] at hc
  | brOnNull => simp [Const, constIdx] at hc
  | anyConvertExtern => exact .anyConvertExtern
  | externConvertAny => exact .externConvertAny
  | simple hs =>
    refine .simple ?_
    cases o with
    | plain o => exact hs
    | heap o x =>
      cases hc
      obtain ⟨x, h1, h2⟩ := hs
      refine ⟨x, ?_, h2⟩
      show C'.HeapTy _ _
      rw [h.heapTy]
      exact h1
    | idx o i =>
      simp only [Const, constIdx, List.mem_cons, List.not_mem_nil, or_false] at hc
      rcases hc with (rfl | rfl | rfl | rfl | rfl) | ⟨rfl, -⟩
      · obtain ⟨ti, t, h1, h2, h3, h4⟩ := hs
        exact ⟨ti, t, prefix_get h.funcs h1, h.refs _ h2, hi' h3, h4⟩
      · obtain ⟨fs, t, h1, h2, h3, h4⟩ := hs
        exact ⟨fs, t, h.comp h1, hi' h2, hd' h3, h4⟩
      · obtain ⟨fs, t, h1, h2, h3, h4⟩ := hs
        exact ⟨fs, t, h.comp h1, hi' h2, hd' h3, h4⟩
      · obtain ⟨fs, t, h1, h2, h4⟩ := hs
        exact ⟨fs, t, h.comp h1, hi' h2, h4⟩
      · obtain ⟨fs, t, h1, h2, h4⟩ := hs
        exact ⟨fs, t, h.comp h1, hi' h2, h4⟩
      · obtain ⟨g, ⟨h1, h2⟩, h3⟩ := hs
        exact ⟨g, ⟨prefix_get h.globals h1, h2⟩, h3⟩
    | idx2 o i j =>
      cases hc
      obtain ⟨fs, t, h1, h2, h4⟩ := hs
      exact ⟨fs, t, h.comp h1, hi' h2, h4⟩
    | _ => first | exact hs | exact hc.elim

/-- Constant instructions have no `end`. -/
theorem seq_no_end {I I' : List (BitVec 32)} {os : List Operator} {ts us : List VT}
    (hc : ∀ o ∈ os, o = .end_ ∨ Const F.C o) (hs : Seq F I os ts us I') : ∀ o ∈ os, Const F.C o := by
  induction hs with
  | nil => nofun
  | @instr F I o _ _ ht =>
    intro o' ho'
    cases List.mem_singleton.1 ho'
    rcases hc o (by simp) with rfl | hc
    · cases ht with
      | simple hs => exact hs.elim
      | stops _ _ hs => exact hs.elim
    · exact hc
  | append _ _ ih1 ih2 =>
    intro o ho
    rcases List.mem_append.1 ho with ho | ho
    · exact ih1 (fun o ho => hc o (by simp [ho])) o ho
    · exact ih2 (fun o ho => hc o (by simp [ho])) o ho
  | frame fs _ ih => exact ih hc
  | sub h1 h2 _ ih => exact ih hc
  | block | loop | ifElse | if_ | tryTable | try_ | delegate =>
    rcases hc _ (List.mem_cons_self ..) with h | h
    · cases h
    · exact h.elim

theorem Seq.mono {I I' : List (BitVec 32)} {os : List Operator} {ts us : List VT}
    (h : Ext F.C C') (hc : ∀ o ∈ os, Const F.C o) (hs : Seq F I os ts us I') :
    Seq (withCtx F C') I os ts us I' := by
  induction hs with
  | nil => exact .nil
  | instr ht => exact .instr (InstrTy.mono h (hc _ (by simp)) ht)
  | append _ _ ih1 ih2 =>
    exact .append (ih1 h fun o ho => hc o (by simp [ho])) (ih2 h fun o ho => hc o (by simp [ho]))
  | frame fs _ ih => exact .frame fs (ih h hc)
  | sub h1 h2 _ ih =>
    refine .sub ?_ ?_ (ih h hc)
    · show VTs.Sub C'.decls _ _
      rw [h.decls]
      exact h1
    · show VTs.Sub C'.decls _ _
      rw [h.decls]
      exact h2
  | block | loop | ifElse | if_ | tryTable | try_ | delegate =>
    exact (hc _ (List.mem_cons_self ..)).elim

theorem ConstTy.mono (h : Ext C C') {os : List Operator} {t : V} (ht : ConstTy C os t) :
    ConstTy C' os t := by
  obtain ⟨⟨body, I', rfl, hs⟩, hc⟩ := ht
  refine ⟨⟨body, I', rfl, ?_⟩, fun o ho => (hc o ho).imp_right (Const.mono h)⟩
  exact Seq.mono (F := Fn.body C [] [t] [] false) h
    (seq_no_end (fun o ho => hc o (by simp [ho])) hs) hs

end Verif.Valid
