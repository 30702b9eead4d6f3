import Verif.Valid.Model
import Verif.Valid.Mono
import Verif.Valid.ListOf
import Verif.Op.SoundFn
import Verif.Op.ModuleLemmas
import Verif.Op.Natural
import Verif.Reenc.Const
/-! What `check_const_expr` accepts is a constant expression of the type. -/
namespace Verif.Valid
open Spec
open Verif.Reader Verif.Items
open Verif.Op.Typing Verif.Op.View
open Verif.Op (Fail St Env)
open Verif.Instr (Operator OperatorsReader)
open Verif.Std (BSearch)
open Verif.TypeList (TypeList)

/-! ## References do not disappear -/

def IsRef : VT → Prop
  | .refBot _ | .val (.ref _) => True
  | _ => False

theorem sub_bot {D : TypeList.Spec.Decls} {ts us : List VT} (h : VTs.Sub D ts us) :
    ((∀ t ∈ ts, t ≠ .bot) → ∀ t ∈ us, t ≠ .bot) ∧
    ((∀ t ∈ ts, t ≠ .bot) → (∃ t ∈ ts, IsRef t) → ∃ t ∈ us, IsRef t) := by
  induction h with
  | nil => exact ⟨fun h => h, fun _ h => h⟩
  | @cons a b ts us hab _ ih =>
    constructor
    · intro hn t ht
      rcases List.mem_cons.1 ht with rfl | ht
      · rintro rfl
        cases hab
        exact hn _ (List.mem_cons_self ..) rfl
      · exact ih.1 (fun t ht => hn t (List.mem_cons_of_mem _ ht)) t ht
    · rintro hn ⟨t, ht, hr⟩
      rcases List.mem_cons.1 ht with rfl | ht
      · refine ⟨b, List.mem_cons_self .., ?_⟩
        cases hab with
        | bot => exact absurd rfl (hn _ (List.mem_cons_self ..))
        | refBot _ => trivial
        | refVal _ => trivial
        | val h =>
          cases h with
          | refl => exact hr
          | ref _ => trivial
      · obtain ⟨t', h1, h2⟩ := ih.2 (fun t ht => hn t (List.mem_cons_of_mem _ ht)) ⟨t, ht, hr⟩
        exact ⟨t', List.mem_cons_of_mem _ h1, h2⟩

theorem vals_ne {ts : List V} : ∀ t ∈ vals ts, t ≠ .bot := by
  intro t ht
  obtain ⟨v, -, rfl⟩ := List.mem_map.1 ht
  nofun

theorem IdxRef.isRef {C : Ctx} {n : Bool} {i : BitVec 32} {t : V} (h : C.IdxRef n i t) :
    IsRef (.val t) := by
  obtain ⟨id, -, rfl⟩ := h
  trivial

theorem instr_refs {F : Fn} {I : List (BitVec 32)} {o : Operator} {ts us : List VT}
    (hc : Const F.C o) (h : InstrTy F I o ts us) : (∀ t ∈ us, t ≠ .bot) ∧
      ((∃ t ∈ ts, IsRef t) ∨ (∃ i, o = .idx .refFunc i) → ∃ t ∈ us, IsRef t) := by
  cases h with
  | stops below after hs =>
    exfalso
    cases o with
    | plain o =>
      simp only [Const, constPlain, List.mem_cons, List.not_mem_nil, or_false] at hc
      rcases hc with rfl | rfl | rfl | rfl | rfl | rfl | rfl | rfl | rfl | rfl <;> exact hs
    | idx o i =>
      simp only [Const, constIdx, List.mem_cons, List.not_mem_nil, or_false] at hc
      rcases hc with (rfl | rfl | rfl | rfl | rfl) | ⟨rfl, -⟩ <;> exact hs
    | _ => first | exact hs | exact hc
  | brTable => exact hc.elim
  | select => simp [Const, constPlain] at hc
  | refAsNonNull => simp [Const, constPlain] at hc
  | brOnNull => simp [Const, constIdx] at hc
  | anyConvertExtern => exact ⟨by simp, fun _ => ⟨_, List.mem_singleton.2 rfl, trivial⟩⟩
  | externConvertAny => exact ⟨by simp, fun _ => ⟨_, List.mem_singleton.2 rfl, trivial⟩⟩
  | @simple o ins outs hs =>
    refine ⟨vals_ne, ?_⟩
    have none : ∀ {ins outs : List V} {P : Prop}, ins = [] → (∃ t ∈ vals ins, IsRef t) → P := by
      rintro _ _ _ rfl ⟨t, ht, -⟩
      cases ht
    have one : ∀ {t : V}, outs = [t] → IsRef (.val t) → ∃ t ∈ vals outs, IsRef t := by
      rintro t rfl h
      exact ⟨_, List.mem_singleton.2 rfl, h⟩
    have num : ∀ {ins : List V}, (∀ t ∈ ins, NumOrVec t) → ¬ ∃ t ∈ vals ins, IsRef t := by
      rintro ins h ⟨t, ht, hr⟩
      obtain ⟨v, hv, rfl⟩ := List.mem_map.1 ht
      have := h v hv
      cases v <;> first | exact hr | exact this
    cases o with
    | plain o =>
      rintro (h | ⟨i, h⟩)
      · simp only [Const, constPlain, List.mem_cons, List.not_mem_nil, or_false] at hc
        rcases hc with rfl | rfl | rfl | rfl | rfl | rfl | rfl | rfl | rfl | rfl <;> cases hs
        all_goals exact (num (by simp [NumOrVec]) h).elim
      · cases h
    | heap o x =>
      cases hc
      obtain ⟨x, h1, h2, h3⟩ := hs
      exact fun _ => one h3 trivial
    | idx o i =>
      simp only [Const, constIdx, List.mem_cons, List.not_mem_nil, or_false] at hc
      rcases hc with (rfl | rfl | rfl | rfl | rfl) | ⟨rfl, -⟩
      · obtain ⟨ti, t, h1, h2, h3, h4, h5⟩ := hs
        exact fun _ => one h5 (IdxRef.isRef h3)
      · obtain ⟨fs, t, h1, h2, h3, h4, h5⟩ := hs
        exact fun _ => one h5 (IdxRef.isRef h2)
      · obtain ⟨fs, t, h1, h2, h3, h4, h5, h6⟩ := hs
        exact fun _ => one h6 (IdxRef.isRef h2)
      · obtain ⟨fs, t, h1, h2, h4, h5⟩ := hs
        exact fun _ => one h5 (IdxRef.isRef h2)
      · obtain ⟨fs, t, h1, h2, h3, h4, h5⟩ := hs
        exact fun _ => one h5 (IdxRef.isRef h2)
      · obtain ⟨g, h1, h2, h3⟩ := hs
        rintro (h | ⟨i, h⟩)
        · exact none (outs := outs) h2 h
        · cases h
    | idx2 o i j =>
      cases hc
      obtain ⟨fs, t, h1, h2, h4, h5⟩ := hs
      exact fun _ => one h5 (IdxRef.isRef h2)
    | i32Const | i64Const | f32Const | f64Const | v128Const =>
      rintro (h | ⟨i, h⟩)
      · exact none (outs := outs) hs.1 h
      · cases h
    | _ => exact hc.elim

theorem seq_refs {F : Fn} {I I' : List (BitVec 32)} {os : List Operator} {ts us : List VT}
    (hs : Seq F I os ts us I') (hc : ∀ o ∈ os, Const F.C o) (hn : ∀ t ∈ ts, t ≠ .bot) :
    (∀ t ∈ us, t ≠ .bot) ∧
      ((∃ t ∈ ts, IsRef t) ∨ (∃ i, Operator.idx .refFunc i ∈ os) → ∃ t ∈ us, IsRef t) := by
  induction hs with
  | nil => exact ⟨hn, by rintro (h | ⟨i, h⟩); exacts [h, nomatch h]⟩
  | instr ht =>
    obtain ⟨h1, h2⟩ := instr_refs (hc _ (by simp)) ht
    refine ⟨h1, fun h => h2 (h.imp_right ?_)⟩
    rintro ⟨i, hi⟩
    exact ⟨i, (List.mem_singleton.1 hi).symm⟩
  | append _ _ ih1 ih2 =>
    obtain ⟨h1, h2⟩ := ih1 (fun o ho => hc o (by simp [ho])) hn
    obtain ⟨h3, h4⟩ := ih2 (fun o ho => hc o (by simp [ho])) h1
    refine ⟨h3, ?_⟩
    rintro (h | ⟨i, h⟩)
    · exact h4 (.inl (h2 (.inl h)))
    · rcases List.mem_append.1 h with h | h
      · exact h4 (.inl (h2 (.inr ⟨i, h⟩)))
      · exact h4 (.inr ⟨i, h⟩)
  | frame fs _ ih =>
    obtain ⟨h1, h2⟩ := ih hc fun t ht => hn t (by simp [ht])
    refine ⟨?_, ?_⟩
    · intro t ht
      rcases List.mem_append.1 ht with ht | ht
      · exact hn t (by simp [ht])
      · exact h1 t ht
    · rintro (⟨t, ht, hr⟩ | h)
      · rcases List.mem_append.1 ht with ht | ht
        · exact ⟨t, by simp [ht], hr⟩
        · obtain ⟨t', h3, h4⟩ := h2 (.inl ⟨t, ht, hr⟩)
          exact ⟨t', by simp [h3], h4⟩
      · obtain ⟨t', h3, h4⟩ := h2 (.inr h)
        exact ⟨t', by simp [h3], h4⟩
  | sub h1 h2 _ ih =>
    obtain ⟨h3, h4⟩ := ih hc ((sub_bot h1).1 hn)
    refine ⟨(sub_bot h2).1 h3, fun h => (sub_bot h2).2 h3 (h4 ?_)⟩
    exact h.imp_left ((sub_bot h1).2 hn)
  | block | loop | ifElse | if_ | tryTable | try_ | delegate =>
    exact (hc _ (List.mem_cons_self ..)).elim

/-- A constant expression of a numeric type has no `ref.func`. -/
theorem ConstTy.no_refFunc {C : Ctx} {os : List Operator} {t : V} (h : ConstTy C os t)
    (ht : NumOrVec t) (i : BitVec 32) : Operator.idx .refFunc i ∉ os := by
  obtain ⟨⟨body, I', rfl, hs⟩, hc⟩ := h
  intro hi
  have hi : Operator.idx .refFunc i ∈ body := by
    rcases List.mem_append.1 hi with h | h
    · exact h
    · cases List.mem_singleton.1 h
  have hc' := seq_no_end (fun o ho => hc o (by simp [ho])) hs
  obtain ⟨t', h1, h2⟩ := (seq_refs hs hc' nofun).2 (.inr ⟨i, hi⟩)
  obtain rfl : t' = .val t := List.mem_singleton.1 h1
  cases t <;> first | exact h2 | exact ht

/-! ## The validator's view of a module -/

/-- The list of types has come about by adding types, and the types of the module are among
them; the tags of the module have function types. -/
structure Hist (f : Feats) (T : TypeList) (m : Op.Module) : Prop where
  reaches : ∃ ops os s, ∃ n : Nat, TypeList.Reaches f.types ops os s ∧ s.types = T ∧
    s.modules[n]? = some m.types
  room : T.coreTypes.length ≤ 2 ^ 20
  tags : TagsOk (listOf T) m

variable {f : Feats} {bs : BSearch} {T : TypeList}

theorem Hist.view {m : Op.Module} (h : Hist f T m) : TypeList.View T (listOf T) := by
  obtain ⟨ops, os, s, n, h1, rfl, -⟩ := h.reaches
  obtain ⟨L, hL⟩ := TypeList.reaches_view h1
  rw [listOf_of hL]
  exact hL

theorem listOf_length : (listOf T).length = T.coreTypes.length := List.length_map ..

theorem Hist.faithful {m : Op.Module} (h : Hist f T m) :
    Faithful (m.resources T (listOf T)) (ctxOf (listOf T) m) := by
  have hv := h.view
  obtain ⟨ops, os, s, n, h1, rfl, -⟩ := h.reaches
  exact faithful_of h1 hv (by rw [listOf_length]; exact h.room) h.tags

theorem Hist.ctxOk {m : Op.Module} (h : Hist f T m) : CtxOk (ctxOf (listOf T) m) := by
  have hv := h.view
  obtain ⟨ops, os, s, n, h1, rfl, h2⟩ := h.reaches
  exact ctxOk_of h1 hv (by rw [listOf_length]; exact h.room) h2

/-- The same module with other references. -/
def setRefs (m : Op.Module) (rs : List (BitVec 32)) : Op.Module := { m with functionReferences := rs }

theorem Hist.setRefs {m : Op.Module} (h : Hist f T m) (rs : List (BitVec 32)) :
    Hist f T (setRefs m rs) := ⟨h.reaches, h.room, h.tags⟩

theorem ext_refs {L : List (TypeList.Spec.SubT Nat)} {m : Op.Module} {rs : List (BitVec 32)}
    (h : ∀ i ∈ m.functionReferences, i ∈ rs) : Ext (ctxOf L m) (ctxOf L (setRefs m rs)) :=
  ⟨rfl, rfl, List.prefix_refl _, List.prefix_refl _, h⟩

/-- The body of a constant expression. -/
abbrev constFn (C : Ctx) (ty : V) : Fn := Fn.body C [] [ty] [] false

def constBase (ty : V) : Base where
  locals := Op.Locals.new
  inits := Op.LocalInits.new
  fr := ⟨.block, .type ty, 0, false, 0⟩
  frs := []
  low := []
  shared := false
  hh := rfl

theorem newConst_st (ty : V) : Op.newConstExpr ty = st (constBase ty) [] := rfl

theorem const_sit {m : Op.Module} (h : Hist f T m) (ty : V) :
    Sit (Op.View.Env.full (env f bs T m)) (constFn (ctxOf (listOf T) m) ty) (constBase ty) where
  faith := h.faithful
  ctx := h.ctxOk
  full := rfl
  shared := rfl
  labels := .cons ⟨[], [ty], ⟨rfl, rfl⟩, rfl, by simp [constBase]⟩ .nil
  results := ⟨_, [], rfl, rfl, rfl⟩

theorem const_ok (ty : V) : (Op.newConstExpr ty).Ok 0 [] [[]] := by
  refine Op.St.Pre.ok ⟨Op.Locals.rep_new, Nat.le_refl _, rfl, ?_, rfl, rfl, .inl ⟨rfl, ?_⟩⟩ <;>
  · intro x t hx
    simp at hx

/-! ## The loop -/

/-- What a constant expression does to a module. -/
structure Upd (s s' : ModuleState) (os : List Operator) : Prop where
  eq : s' = { s with m := setRefs s.m s'.m.functionReferences }
  refs : s.owned = true → ∀ i, i ∈ s'.m.functionReferences ↔
    i ∈ s.m.functionReferences ∨ Operator.idx .refFunc i ∈ os
  same : s.owned = false → s' = s

theorem Upd.nil {s : ModuleState} : Upd s s [] := ⟨rfl, by simp, fun _ => rfl⟩

theorem Upd.owned {s s' : ModuleState} {os : List Operator} (h : Upd s s' os) :
    s'.owned = s.owned := by
  rw [h.eq]

theorem Upd.trans {s1 s2 s3 : ModuleState} {os os' : List Operator} (h : Upd s1 s2 os)
    (h' : Upd s2 s3 os') : Upd s1 s3 (os ++ os') := by
  have ho := h.owned
  refine ⟨?_, fun h1 i => ?_, fun h1 => ?_⟩
  · rw [h'.eq, h.eq]
    rfl
  · rw [h'.refs (ho.trans h1), h.refs h1, List.mem_append, or_assoc]
  · rw [h'.same (ho.trans h1), h.same h1]

theorem Upd.ext {s s' : ModuleState} {os : List Operator} (h : Upd s s' os)
    (L : List (TypeList.Spec.SubT Nat)) : Ext (ctxOf L s.m) (ctxOf L s'.m) := by
  by_cases ho : s.owned = true
  · have he : s'.m = setRefs s.m s'.m.functionReferences := by rw [h.eq]; rfl
    rw [he]
    exact ext_refs fun i hi => (h.refs ho i).2 (.inl hi)
  · rw [h.same (by simpa using ho)]
    exact .refl _

theorem Upd.hist {s s' : ModuleState} {os : List Operator} (h : Upd s s' os) (hh : Hist f T s.m) :
    Hist f T s'.m := by
  rw [h.eq]
  exact hh.setRefs _

theorem need_ok {b : Bool} {u : Unit} (h : need b = .ok u) : b = true := by
  cases b with
  | true => rfl
  | false => cases h

theorem bind_ok {α β : Type} {m : X α} {k : α → X β} {y : β} (h : (m >>= k) = .ok y) :
    ∃ x, m = .ok x ∧ k x = .ok y := by
  cases m with
  | error e => cases h
  | ok x => exact ⟨x, rfl, h⟩

/-- `u` becomes true when a reference is not entered. -/
def missed (s : ModuleState) (u : Bool) (os : List Operator) (u' : Bool) : Prop :=
  u' = true ↔ u = true ∨ s.owned = false ∧ ∃ i, Operator.idx .refFunc i ∈ os

theorem constOp_ok {s s1 : ModuleState} {u u1 : Bool} {o : Operator}
    (h : constOp f s u o = .ok (s1, u1)) :
    (o = .end_ ∧ s1 = s ∧ u1 = u) ∨ (o ≠ .end_ ∧ Upd s s1 [o] ∧ missed s u [o] u1 ∧
      ((∀ L, Const (ctxOf L s1.m) o) ∨ Op.proposal o = .customDescriptors)) := by
  have same : ∀ {o : Operator}, o ≠ .end_ → (∀ i, o ≠ .idx .refFunc i) →
      (∀ L, Const (ctxOf L s.m) o) ∨ Op.proposal o = .customDescriptors → (s, u) = (s1, u1) →
      (o = .end_ ∧ s1 = s ∧ u1 = u) ∨ (o ≠ .end_ ∧ Upd s s1 [o] ∧ missed s u [o] u1 ∧
      ((∀ L, Const (ctxOf L s1.m) o) ∨ Op.proposal o = .customDescriptors)) := by
    intro o h1 h2 h3 h4
    cases h4
    have h2' : ∀ i, ¬ Operator.idx .refFunc i ∈ [o] :=
      fun i hi => h2 i (List.mem_singleton.1 hi).symm
    exact .inr ⟨h1, ⟨rfl, fun _ i => by simp [h2' i], fun _ => rfl⟩, by simp [missed, h2'], h3⟩
  cases o with
  | end_ => cases h; exact .inl ⟨rfl, rfl, rfl⟩
  | i32Const | i64Const | f32Const | f64Const | v128Const =>
    injection h with h
    exact same nofun nofun (.inl fun _ => trivial) h
  | plain o =>
    obtain ⟨_, h1, h2⟩ := bind_ok h
    injection h2 with h2
    refine same nofun nofun (.inl fun _ => ?_) h2
    show o ∈ constPlain
    split at h1
    · next hm =>
      simp only [extendedPlain, List.mem_cons, List.not_mem_nil, or_false] at hm
      rcases hm with rfl | rfl | rfl | rfl | rfl | rfl <;> simp [constPlain]
    · split at h1
      · next hm =>
        simp only [gcPlain, List.mem_cons, List.not_mem_nil, or_false] at hm
        rcases hm with rfl | rfl | rfl <;> simp [constPlain]
      · split at h1
        · next hm => subst hm; simp [constPlain]
        · cases h1
  | heap o x =>
    dsimp only [constOp] at h
    split at h
    · next hm =>
      injection h with h
      exact same nofun nofun (.inl fun _ => hm) h
    · cases h
  | idx2 o i j =>
    obtain ⟨_, h1, h2⟩ := bind_ok h
    injection h2 with h2
    refine same nofun nofun (.inl fun _ => ?_) h2
    split at h1
    · assumption
    · cases h1
  | idx o i =>
    dsimp only [constOp] at h
    split at h
    · next hm =>
      obtain ⟨_, h1, h2⟩ := bind_ok h
      injection h2 with h2
      have hne : ∀ j, Operator.idx o i ≠ .idx .refFunc j := by
        rintro j ⟨⟩
        simp [gcIdx] at hm
      simp only [gcIdx, List.mem_cons, List.not_mem_nil, or_false] at hm
      rcases hm with rfl | rfl | rfl | rfl | rfl | rfl
      · exact same nofun hne (.inl fun _ => .inl (by simp [constIdx])) h2
      · exact same nofun hne (.inl fun _ => .inl (by simp [constIdx])) h2
      · exact same nofun hne (.inr rfl) h2
      · exact same nofun hne (.inr rfl) h2
      · exact same nofun hne (.inl fun _ => .inl (by simp [constIdx])) h2
      · exact same nofun hne (.inl fun _ => .inl (by simp [constIdx])) h2
    · split at h
      · next hm =>
        subst hm
        obtain ⟨_, h1, h2⟩ := bind_ok h
        injection h2 with h2
        obtain ⟨g, h3, h4⟩ := bind_ok h1
        obtain ⟨_, h5, h6⟩ := bind_ok h4
        have h6 := need_ok h6
        refine same nofun nofun (.inl fun L => .inr ⟨rfl, ⟨g.content, g.mutable, g.shared⟩, ?_, ?_⟩) h2
        · cases hg : s.m.globals[i.toNat]? with
          | none => rw [hg] at h3; cases h3
          | some g' =>
            rw [hg] at h3
            cases h3
            simp [ctxOf, hg]
        · simpa using h6
      · split at h
        · next hm =>
          subst hm
          injection h with h
          refine .inr ⟨nofun, ?_, ?_, .inl fun _ => .inl (by simp [constIdx])⟩
          · unfold insertRefFunc at h
            split at h
            · next ho =>
              cases h
              unfold insertRef
              split
              · next hm =>
                refine ⟨rfl, fun _ j => ?_, fun _ => rfl⟩
                rw [List.contains_iff_mem] at hm
                simp only [List.mem_singleton, Operator.idx.injEq, true_and]
                constructor
                · exact .inl
                · rintro (h | rfl)
                  · exact h
                  · exact hm
              · refine ⟨rfl, fun _ j => ?_, fun h => absurd (h.symm.trans ho) nofun⟩
                simp [List.mem_append]
            · next ho =>
              cases h
              exact ⟨rfl, fun h => absurd h ho, fun _ => rfl⟩
          · unfold insertRefFunc at h
            split at h
            · next ho =>
              cases h
              simp [missed, ho]
            · next ho =>
              cases h
              simp [missed, ho]
        · cases h
  | _ => cases h

theorem const_other {C : Ctx} {o : Operator} (h : Const C o) : Instr.Spec.tokOp o = .other := by
  cases o with
  | idx o i => rfl
  | _ => first | rfl | exact h.elim

theorem const_visit {C : Ctx} {o : Operator} (h : Const C o) (s : Instr.ControlStack) :
    s.visit o = s := by
  cases o with
  | _ => first | rfl | exact h.elim

theorem const_safe {C : Ctx} {F : Fn} {o : Operator} (h : Const C o) : Safe F [o] := by
  refine .inl fun t ht => ?_
  cases List.mem_singleton.1 ht
  exact h

theorem natural_const {C : Ctx} {o : Operator} (h : Const C o) : Op.View.Natural o := by
  cases o with
  | _ => first | trivial | exact h.elim

theorem step_ok {s s1 : ModuleState} {u u1 : Bool} {S S1 : St} {o : Operator}
    (h : constStep f bs T s u S o = .ok (s1, u1, S1)) :
    constOp f s u o = .ok (s1, u1) ∧ Op.op (env f bs T s1.m) o S = (.ok (), S1) := by
  obtain ⟨⟨s2, u2⟩, h1, h2⟩ := bind_ok h
  dsimp only at h2
  split at h2
  · next hop => cases h2; exact ⟨h1, hop⟩
  · cases h2

theorem visit_none (rf : Instr.Features) (r : Reader) :
    ∃ e, Instr.visitOperator rf none r = .error e := ⟨_, rfl⟩

theorem visit_end : Instr.ControlStack.visit ⟨[], some .block⟩ Operator.end_ = ⟨[], none⟩ := rfl

theorem const_loop (hcd : f.customDescriptors = false) (ty : V) : ∀ (n : Nat) (r : Reader)
    (s s' : ModuleState) (u u' : Bool) (B : Base) (c : List Op.MT) (I : List (BitVec 32))
    (os : List Operator) (q : OperatorsReader), Hist f T s.m → Same (constBase ty) B →
    (st B c).Ok 0 [] [I] →
    OperatorsReader.collectFrom f.reader.toFeatures n ⟨r, ⟨[], some .block⟩⟩ = .ok (os, q) →
    q.finish = .ok () → constFrom f bs T n r s u (st B c) = .ok (s', u') →
    ∃ body I' vs, os = body ++ [.end_] ∧ (∀ o ∈ body, Const (ctxOf (listOf T) s'.m) o) ∧
      Conc B.fr.unreachable c vs ∧
      Seq (constFn (ctxOf (listOf T) s'.m) ty) I body vs [.val ty] I' ∧ Upd s s' body ∧
      missed s u body u' := by
  have nofin : ∀ {r : Reader} {P : Prop},
      OperatorsReader.finish ⟨r, ⟨[], some .block⟩⟩ = .ok () → P := by
    intro r P h
    cases h
  intro n
  induction n with
  | zero =>
    intro r s s' u u' B c I os q _ _ _ hc hf _
    cases hc
    exact nofin hf
  | succ n ih =>
    intro r s s' u u' B c I os q hh hB hok hc hf hr
    unfold OperatorsReader.collectFrom at hc
    unfold constFrom at hr
    by_cases he : r.eof = true
    · rw [if_pos he] at hc
      cases hc
      exact nofin hf
    · rw [if_neg he] at hc hr
      have hk : ((st B c).control.head?.map (·.kind)) = some .block := by
        show some B.fr.kind = some .block
        rw [hB.kind]
        rfl
      rw [hk] at hr
      obtain ⟨⟨o, r'⟩, h1, h2⟩ := bind_ok hr
      have h1 : Instr.visitOperator f.reader.toFeatures (some .block) r = .ok (o, r') := by
        cases hv : Instr.visitOperator f.reader.toFeatures (some .block) r with
        | error e => rw [hv] at h1; cases h1
        | ok x => rw [hv] at h1; cases h1; rfl
      unfold OperatorsReader.read at hc
      rw [h1] at hc
      dsimp only at hc h2
      obtain ⟨⟨s1, u1, S1⟩, h3, h4⟩ := bind_ok h2
      dsimp only at h4
      obtain ⟨h5, h6⟩ := step_ok h3
      have h7 := le_op (E := env f bs T s1.m) hcd o _ _ _ h6
      cases hcoll : OperatorsReader.collectFrom f.reader.toFeatures n
          ⟨r', Instr.ControlStack.visit ⟨[], some .block⟩ o⟩ with
      | error e => rw [hcoll] at hc; cases hc
      | ok y =>
        obtain ⟨os1, q1⟩ := y
        rw [hcoll] at hc
        cases hc
        rcases constOp_ok h5 with ⟨rfl, rfl, rfl⟩ | ⟨hne, hupd, hmiss, hconst⟩
        · -- the last `end`
          have hsit := (const_sit (bs := bs) hh ty).same hB
          have h8 : Run B (Op.visitEnd (Op.View.Env.full (env f bs T s1.m))) c () S1 :=
            (op_full_ok rfl h7).2
          have hbt : BTIs (constFn (ctxOf (listOf T) s1.m) ty) B.fr.blockType [] [ty] := by
            rw [hB.blockType]
            exact ⟨rfl, rfl⟩
          rw [visitEnd_eq, run_popCtrl0 hsit hbt] at h8
          obtain ⟨vs, h9, h10⟩ := pops_back h8.1 .nil
          rw [visit_end] at hcoll
          have hlast : r'.eof = true := by
            by_contra hne
            cases n with
            | zero =>
              cases hcoll
              unfold OperatorsReader.finish at hf
              rw [if_neg (by simp), if_pos hne] at hf
              cases hf
            | succ n =>
              unfold OperatorsReader.collectFrom at hcoll
              rw [if_neg hne] at hcoll
              unfold OperatorsReader.read at hcoll
              obtain ⟨e, he⟩ := visit_none f.reader.toFeatures r'
              dsimp only at hcoll
              rw [he] at hcoll
              cases hcoll
          have e1 : os1 = [] := by
            cases n with
            | zero => cases hcoll; rfl
            | succ n =>
              unfold OperatorsReader.collectFrom at hcoll
              rw [if_pos hlast] at hcoll
              cases hcoll
              rfl
          have e2 : (s1, u1) = (s', u') := by
            cases n with
            | zero =>
              unfold constFrom at h4
              rw [if_pos hlast] at h4
              injection h4
            | succ n =>
              unfold constFrom at h4
              rw [if_pos hlast] at h4
              injection h4
          subst e1
          cases e2
          refine ⟨[], I, vs, rfl, nofun, h10, ?_, .nil, by simp [missed]⟩
          exact .sub VTs.Sub.rfl' h9 (by simpa using Seq.frame vs (.nil (I := I)))
        · have hconst : ∀ L, Const (ctxOf L s1.m) o := by
            refine hconst.resolve_right fun hp => ?_
            exact (op_full_ok (E := Op.View.Env.full (env f bs T s1.m)) rfl h7).1 hp
          have hk1 := hconst (listOf T)
          have hh1 := hupd.hist hh
          have hsit := (const_sit (bs := bs) hh1 ty).same hB
          obtain ⟨B2, c2, I2, rfl, hsame, hok2, hseq⟩ :=
            Sound.other (F := constFn (ctxOf (listOf T) s1.m) ty) (const_other hk1)
              (natural_const hk1) (const_safe hk1) B c I [] S1 hsit hok (by
                show (do Op.op _ o; Op.runOps _ []) (st B c) = _
                rw [Op.bind_def]
                rw [h7]
                rfl)
          have hv : Instr.ControlStack.visit ⟨[], some .block⟩ o = ⟨[], some .block⟩ :=
            const_visit hk1 _
          rw [hv] at hcoll
          obtain ⟨body, I', vs, rfl, hb, hcon, hs, hupd', hmiss'⟩ :=
            ih r' s1 s' u1 u' B2 c2 I2 os1 q hh1 (hB.trans hsame) hok2 hcoll hf h4
          obtain ⟨ts1, h8, h9⟩ := hseq vs hcon
          have hx := hupd'.ext (listOf T)
          refine ⟨o :: body, I', ts1, rfl, ?_, h8, ?_, ?_, ?_⟩
          · intro o' ho'
            rcases List.mem_cons.1 ho' with rfl | ho'
            · exact Const.mono hx hk1
            · exact hb o' ho'
          · exact .append (os := [o]) (Seq.mono hx (fun o' ho' => List.mem_singleton.1 ho' ▸ hk1) h9) hs
          · exact hupd.trans hupd'
          · unfold missed at hmiss hmiss' ⊢
            rw [hmiss', hmiss, hupd.owned]
            simp only [List.mem_cons, List.mem_singleton, List.not_mem_nil, or_false]
            constructor
            · rintro ((h | ⟨h, i, hi⟩) | ⟨h, i, hi⟩)
              · exact .inl h
              · exact .inr ⟨h, i, .inl hi⟩
              · exact .inr ⟨h, i, .inr hi⟩
            · rintro (h | ⟨h, i, hi | hi⟩)
              · exact .inl (.inl h)
              · exact .inl (.inr ⟨h, i, hi⟩)
              · exact .inr ⟨h, i, hi⟩

/-- What `check_const_expr` accepts is constant and has the type. -/
theorem const_sound (hcd : f.customDescriptors = false) {s s' : ModuleState} {e : ConstExpr}
    {ty : V} {os : List Operator} (hh : Hist f T s.m) (ho : ConstOps f.reader.toFeatures e os)
    (h : checkConstExpr f bs T s e ty = .ok s') :
    ConstTy (ctxOf (listOf T) s'.m) os ty ∧ Upd s s' os ∧
      (s.owned = false → ∀ i, Operator.idx .refFunc i ∉ os) := by
  obtain ⟨q, h1, h2⟩ := ho
  obtain ⟨⟨s1, u1⟩, h3, h4⟩ := bind_ok h
  dsimp only at h4
  split at h4
  · cases h4
  · next hu =>
    cases h4
    rw [newConst_st] at h3
    obtain ⟨body, I', vs, rfl, hb, hcon, hs, hupd, hmiss⟩ := const_loop hcd ty _ _ _ _ _ _
      (constBase ty) [] [] os q hh .rfl' (const_ok ty) h1 h2 h3
    cases conc_false_nil hcon
    refine ⟨⟨⟨body, I', rfl, hs⟩, ?_⟩, ?_, ?_⟩
    · intro o ho
      rcases List.mem_append.1 ho with ho | ho
      · exact .inr (hb o ho)
      · exact .inl (List.mem_singleton.1 ho)
    · have : Upd s' s' [Operator.end_] := ⟨rfl, by simp, fun _ => rfl⟩
      exact hupd.trans this
    · intro hown i hi
      refine hu (hmiss.2 (.inr ⟨hown, i, ?_⟩))
      simpa using hi

end Verif.Valid
