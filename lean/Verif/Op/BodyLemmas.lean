import Verif.Op.Body
import Verif.Op.Kinds
import Verif.Op.Natural
import Verif.Op.CompleteFn
import Verif.Op.ModuleLemmas
/-! Validating a body from bytes: reading it, and checking what was read. -/
namespace Verif.Op
open Verif.Types (ValType)
open Verif.Instr (Operator OperatorsReader)
open Verif.Reader

variable {E : Env}

theorem readLocalsFrom_iff : ∀ (n : Nat) (r r' : Reader) (S S' : St),
    readLocalsFrom E n r S = (.ok r', S') ↔
      ∃ ds, Groups n r ds r' ∧ defineAllLocals E ds S = (.ok (), S')
  | 0, r, r', S, S' => by
    constructor
    · intro h; cases h; exact ⟨[], .nil _, rfl⟩
    · rintro ⟨ds, h, h2⟩; cases h; cases h2; rfl
  | n + 1, r, r', S, S' => by
    unfold readLocalsFrom
    constructor
    · intro h
      cases h1 : readVarU32 r with
      | error e => rw [h1] at h; cases h
      | ok x =>
        obtain ⟨c, r1⟩ := x
        rw [h1] at h
        dsimp only at h
        cases h2 : Types.readValType r1 with
        | error e => rw [h2] at h; cases h
        | ok x =>
          obtain ⟨t, r2⟩ := x
          rw [h2] at h
          dsimp only at h
          obtain ⟨_, S1, h3, h4⟩ := bind_eq_ok h
          obtain ⟨ds, h5, h6⟩ := (readLocalsFrom_iff n _ _ _ _).1 h4
          refine ⟨(c, t) :: ds, .cons h1 h2 h5, ?_⟩
          show (do defineLocals E c t; defineAllLocals E ds) S = _
          rw [bind_def, h3]
          exact h6
    · rintro ⟨ds, h, h6⟩
      cases h with
      | cons h1 h2 h5 =>
        rw [h1]
        dsimp only
        rw [h2]
        dsimp only
        obtain ⟨_, S1, h3, h4⟩ := bind_eq_ok h6
        dsimp only at h3
        rw [bind_def, h3]
        exact (readLocalsFrom_iff n _ _ _ _).2 ⟨_, h5, h4⟩

theorem defineLocals_kinds {n : BitVec 32} {t : ValType} {u : Unit} {S S' : St}
    (h : defineLocals E n t S = (.ok u, S')) : S'.kinds = S.kinds := by
  obtain ⟨x, S1, h1, h2⟩ := bind_eq_ok h
  rw [← opOnly_kinds (by op_only) h1]
  dsimp only at h2
  split at h2
  · cases h2; rfl
  · dsimp only [bind_def, getS, modifyS, require] at h2
    split at h2
    · next h4 =>
      split at h4
      · cases h4; cases h2; rfl
      · cases h4
    · cases h2

theorem defineAll_kinds : ∀ (ds : List (BitVec 32 × ValType)) {u : Unit} {S S' : St},
    defineAllLocals E ds S = (.ok u, S') → S'.kinds = S.kinds
  | [], _, _, _, h => by cases h; rfl
  | d :: ds, u, S, S', h => by
    obtain ⟨_, S1, h1, h2⟩ := bind_eq_ok h
    rw [defineAll_kinds ds h2, defineLocals_kinds h1]

theorem newFunc_kinds {ty : BitVec 32} {S : St} (h : newFunc E ty = .ok S) : S.kinds = [.block] := by
  unfold newFunc at h
  split at h
  · cases h
  · split at h
    · cases h; rfl
    · cases h

/-- Validating a body is reading it, and checking the declarations and the operators. -/
theorem validate_iff {rf : Instr.Features} {body : Reader} {S S' : St} (hs : S.kinds = [.block]) :
    validate E rf body S = (.ok (), S') ↔ ∃ ds os S1, Parsed rf body ds os ∧
      defineAllLocals E ds S = (.ok (), S1) ∧ runOps E os S1 = (.ok (), S') := by
  constructor
  · intro h
    obtain ⟨r', S1, h1, h2⟩ := bind_eq_ok h
    unfold readLocals at h1
    cases h3 : readVarU32 body with
    | error e => rw [h3] at h1; cases h1
    | ok x =>
      obtain ⟨n, r⟩ := x
      rw [h3] at h1
      obtain ⟨ds, h4, h5⟩ := (readLocalsFrom_iff _ _ _ _ _).1 h1
      obtain ⟨os, s, h6, h7, h8⟩ := (validateBody_iff ((defineAll_kinds ds h5).trans hs)).1 h2
      exact ⟨ds, os, S1, ⟨n, r, r', s, h3, h4, h6, h7⟩, h5, h8⟩
  · rintro ⟨ds, os, S1, ⟨n, r, r', s, h3, h4, h6, h7⟩, h5, h8⟩
    unfold validate readLocals
    rw [h3]
    dsimp only
    rw [bind_def, (readLocalsFrom_iff _ _ _ _ _).2 ⟨ds, h4, h5⟩]
    exact (validateBody_iff ((defineAll_kinds ds h5).trans hs)).2 ⟨os, s, h6, h7, h8⟩

theorem Groups.unique {n : Nat} {r r' r'' : Reader} {ds ds' : List (BitVec 32 × ValType)}
    (h : Groups n r ds r') (h' : Groups n r ds' r'') : ds = ds' ∧ r' = r'' := by
  induction h generalizing ds' r'' with
  | nil => cases h'; exact ⟨rfl, rfl⟩
  | cons h1 h2 _ ih =>
    cases h' with
    | cons h3 h4 h5 =>
      rw [h1] at h3
      cases h3
      rw [h2] at h4
      cases h4
      obtain ⟨rfl, rfl⟩ := ih h5
      exact ⟨rfl, rfl⟩

theorem Parsed.unique {rf : Instr.Features} {body : Reader} {ds ds' : List (BitVec 32 × ValType)}
    {os os' : List Operator} (h : Parsed rf body ds os) (h' : Parsed rf body ds' os') :
    ds = ds' ∧ os = os' := by
  obtain ⟨n, r, r1, s, h1, h2, h3, -⟩ := h
  obtain ⟨n', r', r1', s', h1', h2', h3', -⟩ := h'
  rw [h1] at h1'
  cases h1'
  obtain ⟨rfl, rfl⟩ := h2.unique h2'
  rw [h3] at h3'
  cases h3'
  exact ⟨rfl, rfl⟩

namespace View
open Verif.Op.Typing
open Verif.TypeList.Spec (SubT)
variable {F : Fn} {B : Base} {C : Ctx} {ty : BitVec 32} {sub : SubT Nat} {ps rs : List V}

/-- Declarations that are accepted have types. -/
theorem defineAll_types : ∀ (ds : List (BitVec 32 × ValType)) {B : Base}
    {u : Unit} {S : St}, Sit E F B → defineAllLocals E ds (st B []) = (.ok u, S) →
    ∃ vs : List (BitVec 32 × V), List.Forall₂ (fun d v => d.1 = v.1 ∧ F.C.ValTy d.2 v.2) ds vs
  | [], _, _, _, _, _ => ⟨[], .nil⟩
  | (n, t) :: ds, B, u, S, h, hr => by
    obtain ⟨_, S1, h1, h2⟩ := bind_eq_ok hr
    obtain ⟨v, hv⟩ : ∃ v, F.C.ValTy t v := by
      obtain ⟨x, S2, h3, h4⟩ := bind_eq_ok h1
      obtain ⟨c', rfl⟩ := Cur.spec (self := inferInstance) _ _ _ _ h3
      exact ⟨x, (ok_checkValueType h h3).1⟩
    obtain ⟨h3, l, i, rfl⟩ := define_st h hv h1
    obtain ⟨vs, h4⟩ := defineAll_types ds (h.withLocals l i) h2
    exact ⟨(n, v) :: vs, .cons ⟨rfl, hv⟩ h4⟩

theorem sound_types (hf : Faithful E.R C) (hc : CtxOk C) (hE : E.f.customDescriptors = false)
    (hty : C.type ty = some sub) (hcomp : sub.comp = .func ps rs)
    {ds : List (BitVec 32 × ValType)} {S0 S1 : St} (h0 : newFunc E ty = .ok S0)
    (h1 : defineAllLocals E ds S0 = (.ok (), S1)) :
    ∃ vs : List (BitVec 32 × V), List.Forall₂ (fun d v => d.1 = v.1 ∧ C.ValTy d.2 v.2) ds vs := by
  have h1 := le_defineAllLocals hE ds _ _ _ h1
  obtain ⟨l, i, h2⟩ := newFunc_st hf hty hcomp
  rw [h0] at h2
  cases h2
  exact defineAll_types ds
    (start_sit (E := Env.full E) hf hc rfl hty hcomp [] l i) h1

theorem parsed_natural {rf : Instr.Features} {body : Reader} {ds : List (BitVec 32 × ValType)}
    {os : List Operator} (h : Parsed rf body ds os) : ∀ o ∈ os, Natural o := by
  obtain ⟨n, r, r', s, -, -, h1, -⟩ := h
  exact collectFrom_natural rf _ _ _ _ h1

theorem parsed_expr {rf : Instr.Features} {body : Reader} {ds : List (BitVec 32 × ValType)}
    {os : List Operator} (h : Parsed rf body ds os) : Instr.Spec.Expr (os.map Instr.Spec.tokOp) := by
  obtain ⟨n, r, r', s, -, -, h1, h2⟩ := h
  exact Instr.collect_expr h1 h2

end View
end Verif.Op
