import Verif.Valid.Mono
import Verif.Valid.ModSpec
/-! Constant expressions in contexts that differ only in their references. -/
namespace Verif.Valid
open Spec
open Verif.Op.Typing
open Verif.Instr (Operator)

variable {C C' : Ctx} {F F' : Fn}

/-- The same types, functions and globals. -/
structure Like (C C' : Ctx) : Prop where
  types : C'.types = C.types
  defs : C'.defs = C.defs
  funcs : C'.funcs = C.funcs
  globals : C'.globals = C.globals

theorem Like.ext (h : Like C C') {o : Operator} (hr : ∀ i, o = .idx .refFunc i → i ∈ C'.refs) :
    Ext C { C' with refs := C.refs } ∧ ∀ i, o = .idx .refFunc i → i ∈ C'.refs :=
  ⟨⟨h.types, h.defs, h.funcs ▸ List.prefix_refl _, h.globals ▸ List.prefix_refl _, fun _ h => h⟩, hr⟩

theorem comp_refs {i : BitVec 32} {c : TypeList.Spec.Comp Nat} {rs : List (BitVec 32)}
    (h : (withCtx F { C' with refs := rs }).Comp i c) : (withCtx F C').Comp i c := h

theorem Const.like (h : Like C C') {o : Operator} (ho : Const C o) : Const C' o := by
  cases o <;> try exact ho
  rcases ho with ho | ⟨ho, g, h1, h2⟩
  · exact .inl ho
  · exact .inr ⟨ho, g, h.globals ▸ h1, h2⟩

theorem InstrTy.like (h : Like F.C C') {I : List (BitVec 32)} {o : Operator} {ts us : List VT}
    (hc : Const F.C o) (hr : ∀ i, o = .idx .refFunc i → i ∈ C'.refs)
    (ht : InstrTy F I o ts us) : InstrTy (withCtx F C') I o ts us := by
  replace h := h.ext hr
  have hi := h.1.idxRef
  have ht' := h.1.type
  have hi' : ∀ {n i t}, F.C.IdxRef n i t → (withCtx F C').C.IdxRef n i t := by
    intro n i t e
    exact hi.symm ▸ e
  have hd' : ∀ {i}, (∀ x, F.C.type i = some x → x.descriptor = none) →
      ∀ x, (withCtx F C').C.type i = some x → x.descriptor = none := by
    intro i e x hx
    exact e x ((ht' i).symm.trans hx)
  cases ht with
  | stops below after hs =>
    exfalso
    cases o with
    | plain o =>
      simp only [Const, constPlain, List.mem_cons, List.not_mem_nil, or_false] at hc
      rcases hc with rfl | rfl | rfl | rfl | rfl | rfl | rfl | rfl | rfl | rfl <;> exact hs
    | idx o i =>
      simp only [Const, constIdx, List.mem_cons, List.not_mem_nil, or_false] at hc
      rcases hc with (rfl | rfl | rfl | rfl | rfl) | ⟨rfl, -⟩ <;> exact hs
    | _ => first | exact hs | exact hc
  | brTable => exact hc.elim
  | select => simp [Const, constPlain] at hc
  | refAsNonNull => simp [Const, constPlain] at hc
  | brOnNull => simp [Const, constIdx] at hc
  | anyConvertExtern => exact .anyConvertExtern
  | externConvertAny => exact .externConvertAny
  | simple hs =>
    refine .simple ?_
    cases o with
    | plain o => exact hs
    | heap o x =>
      cases hc
      obtain ⟨x, h1, h2⟩ := hs
      refine ⟨x, ?_, h2⟩
      exact h.1.heapTy.symm ▸ h1
    | idx o i =>
      simp only [Const, constIdx, List.mem_cons, List.not_mem_nil, or_false] at hc
      rcases hc with (rfl | rfl | rfl | rfl | rfl) | ⟨rfl, -⟩
      · obtain ⟨ti, t, h1, h2, h3, h4⟩ := hs
        exact ⟨ti, t, prefix_get h.1.funcs h1, h.2 _ rfl, hi' h3, h4⟩
      · obtain ⟨fs, t, h1, h2, h3, h4⟩ := hs
        exact ⟨fs, t, comp_refs (h.1.comp h1), hi' h2, hd' h3, h4⟩
      · obtain ⟨fs, t, h1, h2, h3, h4⟩ := hs
        exact ⟨fs, t, comp_refs (h.1.comp h1), hi' h2, hd' h3, h4⟩
      · obtain ⟨fs, t, h1, h2, h4⟩ := hs
        exact ⟨fs, t, comp_refs (h.1.comp h1), hi' h2, h4⟩
      · obtain ⟨fs, t, h1, h2, h4⟩ := hs
        exact ⟨fs, t, comp_refs (h.1.comp h1), hi' h2, h4⟩
      · obtain ⟨g, ⟨h1, h2⟩, h3⟩ := hs
        exact ⟨g, ⟨prefix_get h.1.globals h1, h2⟩, h3⟩
    | idx2 o i j =>
      cases hc
      obtain ⟨fs, t, h1, h2, h4⟩ := hs
      exact ⟨fs, t, comp_refs (h.1.comp h1), hi' h2, h4⟩
    | _ => first | exact hs | exact hc.elim


theorem Like.decls (h : Like C C') : C'.decls = C.decls := by
  unfold Ctx.decls
  rw [h.defs]

theorem Seq.like {I I' : List (BitVec 32)} {os : List Operator} {ts us : List VT}
    (h : Like F.C C') (hc : ∀ o ∈ os, Const F.C o) (hr : ∀ i, Refs os i → i ∈ C'.refs)
    (hs : Seq F I os ts us I') : Seq (withCtx F C') I os ts us I' := by
  induction hs with
  | nil => exact .nil
  | instr ht =>
    exact .instr (InstrTy.like h (hc _ (by simp)) (fun i e => hr i (by simp [Refs, e])) ht)
  | append _ _ ih1 ih2 =>
    exact .append (ih1 h (fun o ho => hc o (by simp [ho])) fun i hi => hr i (List.mem_append_left _ hi))
      (ih2 h (fun o ho => hc o (by simp [ho])) fun i hi => hr i (List.mem_append_right _ hi))
  | frame fs _ ih => exact .frame fs (ih h hc hr)
  | sub h1 h2 _ ih =>
    refine .sub ?_ ?_ (ih h hc hr)
    · show VTs.Sub C'.decls _ _
      rw [h.decls]
      exact h1
    · show VTs.Sub C'.decls _ _
      rw [h.decls]
      exact h2
  | block | loop | ifElse | if_ | tryTable | try_ | delegate =>
    exact (hc _ (List.mem_cons_self ..)).elim

theorem ConstTy.like (h : Like C C') {os : List Operator} {t : V}
    (hr : ∀ i, Refs os i → i ∈ C'.refs) (ht : ConstTy C os t) : ConstTy C' os t := by
  obtain ⟨⟨body, I', rfl, hs⟩, hc⟩ := ht
  refine ⟨⟨body, I', rfl, ?_⟩, fun o ho => (hc o ho).imp_right (Const.like h)⟩
  exact Seq.like (F := Fn.body C [] [t] [] false) h
    (seq_no_end (fun o ho => hc o (by simp [ho])) hs) (fun i hi => hr i (by simp [Refs] at hi ⊢; exact hi)) hs

/-! ## Integers come from no references -/

def isRef : VT → Prop
  | .refBot _ | .val (.ref _) => True
  | _ => False

theorem isRef_sub {D} {a b : VT} (h : VT.Sub D a b) (ha : isRef a) : isRef b := by
  cases h with
  | bot => exact ha.elim
  | refBot => trivial
  | refVal => trivial
  | val h =>
    cases h <;> first | exact ha | trivial

theorem isRef_subs {D} {as bs : List VT} (h : VTs.Sub D as bs) (ha : ∃ a ∈ as, isRef a) :
    ∃ b ∈ bs, isRef b := by
  induction h with
  | nil => exact ha
  | cons h1 _ ih =>
    obtain ⟨a, ha, hr⟩ := ha
    rcases List.mem_cons.1 ha with rfl | ha
    · exact ⟨_, List.mem_cons_self .., isRef_sub h1 hr⟩
    · obtain ⟨b, hb, h⟩ := ih ⟨a, ha, hr⟩
      exact ⟨b, List.mem_cons_of_mem _ hb, h⟩

theorem instr_ref {I : List (BitVec 32)} {o : Operator} {ts us : List VT} (hc : Const F.C o)
    (ht : InstrTy F I o ts us) (h : (∃ t ∈ ts, isRef t) ∨ ∃ i, o = .idx .refFunc i) :
    ∃ u ∈ us, isRef u := by
  have one : ∀ {r}, ∃ u ∈ vals [.ref r], isRef u :=
    fun {r} => ⟨.val (.ref r), List.mem_cons_self .., trivial⟩
  have idx : ∀ {n i t}, F.C.IdxRef n i t → ∃ u ∈ vals [t], isRef u := by
    rintro n i t ⟨id, -, rfl⟩
    exact one
  cases ht with
  | stops below after hs =>
    exfalso
    cases o with
    | plain o =>
      simp only [Const, constPlain, List.mem_cons, List.not_mem_nil, or_false] at hc
      rcases hc with rfl | rfl | rfl | rfl | rfl | rfl | rfl | rfl | rfl | rfl <;> exact hs
    | idx o i =>
      simp only [Const, constIdx, List.mem_cons, List.not_mem_nil, or_false] at hc
      rcases hc with (rfl | rfl | rfl | rfl | rfl) | ⟨rfl, -⟩ <;> exact hs
    | _ => first | exact hs | exact hc
  | brTable => exact hc.elim
  | select => simp [Const, constPlain] at hc
  | refAsNonNull => simp [Const, constPlain] at hc
  | brOnNull => simp [Const, constIdx] at hc
  | anyConvertExtern => exact one
  | externConvertAny => exact one
  | simple hs =>
    cases o with
    | plain o =>
      simp only [Const, constPlain, List.mem_cons, List.not_mem_nil, or_false] at hc
      replace h := h.resolve_right (fun ⟨i, e⟩ => by cases e)
      rcases hc with rfl | rfl | rfl | rfl | rfl | rfl | rfl | rfl | rfl | rfl
      all_goals
        first
        | (obtain ⟨rfl, rfl⟩ := Prod.mk.inj (Option.some.inj (show Op.Typing.plainSig _ = some _ from hs))
           first
           | exact one
           | (exfalso; obtain ⟨t, ht, hr⟩ := h
              simp only [vals, List.map_cons, List.map_nil, List.mem_cons, List.not_mem_nil,
                or_false] at ht
              rcases ht with rfl | rfl <;> exact hr))
        | cases (show Op.Typing.plainSig _ = some _ from hs)
    | heap o x =>
      cases hc
      obtain ⟨x, h1, rfl, rfl⟩ := hs
      exact one
    | idx o i =>
      simp only [Const, constIdx, List.mem_cons, List.not_mem_nil, or_false] at hc
      rcases hc with (rfl | rfl | rfl | rfl | rfl) | ⟨rfl, -⟩
      · obtain ⟨ti, t, h1, h2, h3, rfl, rfl⟩ := hs
        exact idx h3
      · obtain ⟨fs, t, h1, h2, h3, rfl, rfl⟩ := hs
        exact idx h2
      · obtain ⟨fs, t, h1, h2, h3, h4, rfl, rfl⟩ := hs
        exact idx h2
      · obtain ⟨fs, t, h1, h2, rfl, rfl⟩ := hs
        exact idx h2
      · obtain ⟨fs, t, h1, h2, h3, rfl, rfl⟩ := hs
        exact idx h2
      · obtain ⟨g, h1, rfl, rfl⟩ := hs
        rcases h with ⟨t, ht, -⟩ | ⟨i, e⟩
        · cases ht
        · cases e
    | idx2 o i j =>
      cases hc
      obtain ⟨fs, t, h1, h2, rfl, rfl⟩ := hs
      exact idx h2
    | _ =>
      first
      | exact hc.elim
      | (obtain ⟨rfl, rfl⟩ := hs
         rcases h with ⟨t, ht, -⟩ | ⟨i, e⟩
         · cases ht
         · cases e)

theorem seq_ref {I I' : List (BitVec 32)} {os : List Operator} {ts us : List VT}
    (hc : ∀ o ∈ os, Const F.C o) (hs : Seq F I os ts us I') :
    ((∃ t ∈ ts, isRef t) ∨ ∃ i, Refs os i) → ∃ u ∈ us, isRef u := by
  induction hs with
  | nil => rintro (h | ⟨i, hi⟩); exacts [h, by cases hi]
  | instr ht =>
    intro h
    refine instr_ref (hc _ (by simp)) ht (h.imp_right ?_)
    rintro ⟨i, hi⟩
    exact ⟨i, (List.mem_singleton.1 hi).symm⟩
  | append _ _ ih1 ih2 =>
    intro h
    have h1 := ih1 fun o ho => hc o (by simp [ho])
    have h2 := ih2 fun o ho => hc o (by simp [ho])
    rcases h with h | ⟨i, hi⟩
    · exact h2 (.inl (h1 (.inl h)))
    · rcases List.mem_append.1 hi with hi | hi
      · exact h2 (.inl (h1 (.inr ⟨i, hi⟩)))
      · exact h2 (.inr ⟨i, hi⟩)
  | @frame _ _ _ _ us _ fs _ ih =>
    intro h
    have ih := ih hc
    have key : ((∃ t ∈ fs, isRef t) ∨ ∃ u ∈ us, isRef u) := by
      rcases h with ⟨t, ht, hr⟩ | h
      · rcases List.mem_append.1 ht with ht | ht
        · exact .inl ⟨t, ht, hr⟩
        · exact .inr (ih (.inl ⟨t, ht, hr⟩))
      · exact .inr (ih (.inr h))
    rcases key with ⟨t, ht, hr⟩ | ⟨t, ht, hr⟩
    · exact ⟨t, List.mem_append_left _ ht, hr⟩
    · exact ⟨t, List.mem_append_right _ ht, hr⟩
  | sub h1 h2 _ ih =>
    intro h
    exact isRef_subs h2 (ih hc (h.imp_left (isRef_subs h1)))
  | block | loop | ifElse | if_ | tryTable | try_ | delegate =>
    exact (hc _ (List.mem_cons_self ..)).elim

/-- Offsets mention no functions. -/
theorem const_int {os : List Operator} {b : Bool} (h : ConstTy C os (addrTy b)) (i : BitVec 32) :
    ¬ Refs os i := by
  obtain ⟨⟨body, I', rfl, hs⟩, hc⟩ := h
  intro hi
  have hi : Refs body i := by
    rcases List.mem_append.1 hi with hi | hi
    · exact hi
    · cases List.mem_singleton.1 hi
  obtain ⟨u, hu, hr⟩ := seq_ref (seq_no_end (fun o ho => hc o (by simp [ho])) hs) hs (.inr ⟨i, hi⟩)
  cases List.mem_singleton.1 hu
  cases b <;> exact hr

end Verif.Valid
