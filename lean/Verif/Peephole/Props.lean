import Verif.Peephole.Encode
/-
C33: the rules of the peephole mutator that are enabled when semantics must be preserved.

Full statement, which does not hold: for every engine that is type safe and follows IEEE 754, and
for all expressions that rules of `getRules` turn into each other, what is written for them cannot
be told apart (`Preserves`). `c33_not_*` refute it for one group of rules each; `c33_partial` is what
holds.
-/
namespace Verif.Peephole.Props

open Verif.Peephole Verif.Peephole.Spec

/-- Whatever these rules do to a valid expression, the instructions written for it have the same
effect in every state. -/
def Preserves {W : Type} (E : Engine W) (R : Rule → Prop) : Prop :=
  ∀ (a b : Expr) (ts : List Ty), typeOf E a = some ts → Rewrites E R a b →
    ∀ (s s' t t' : EncSt) (is js : List Instr), encode a s = some (is, s') → encode b t = some (js, t') →
      ∀ st : State W, Same (exec E is st) (exec E js st)

/-- C33, partial: the claim is for `r ∈ getRules reduce globals` instead of `Good`. Missing are the
rules that are wrong (`wrong`), those that leave out an operand if operands may trap (`dropping`),
those that move or copy operands if operands have side effects (`reordering`) and, if NaNs can be told
apart, commutativity of operators on floats (`floating`). -/
theorem c33_partial {W : Type} (E : Engine W) (hs : E.Safe) (reduce : Bool) (globals : Nat) :
    Preserves E (Good E reduce globals) := by
  intro a b ts hts hr s s' t t' is js hi hj st
  have he := equiv_of_rewrites hs hr
  have h1 := encode_runs hs a ts hts s s' is hi st
  have h2 := encode_runs hs b ts (he.type ▸ hts) t t' js hj st
  rw [← he.meaning (by rw [hts]; simp)] at h2
  rcases eval_safe hs a ts hts st.world with h3 | ⟨vs, w', h3, -⟩
  · rw [h3] at h1 h2
    have h1' : exec E is st = .trap := h1
    have h2' : exec E js st = .trap := h2
    rw [h1', h2']
    exact .trap
  · rw [h3] at h1 h2
    obtain ⟨sp, h1⟩ := h1
    obtain ⟨sp', h2⟩ := h2
    rw [h1, h2]
    exact .done rfl rfl

/-- The written instructions leave exactly the values of the expression on the stack and do not
touch what was there; random numbers and added globals make no difference. -/
theorem c33_encode {W : Type} (E : Engine W) (hs : E.Safe) (e : Expr) (ts : List Ty) (hts : typeOf E e = some ts)
    (s s' : EncSt) (is : List Instr) (h : encode e s = some (is, s')) (st : State W) :
    (eval E e st.world = .trap ∧ exec E is st = .trap) ∨
      ∃ vs w' sp, eval E e st.world = .ok vs w' ∧ vs.map Val.ty = ts ∧
        exec E is st = .done ⟨vs.reverse ++ st.stack, w', sp⟩ := by
  have h1 := encode_runs hs e ts hts s s' is h st
  rcases eval_safe hs e ts hts st.world with h3 | ⟨vs, w', h3, h4⟩
  · rw [h3] at h1
    exact .inl ⟨h3, h1⟩
  · rw [h3] at h1
    obtain ⟨sp, h1⟩ := h1
    exact .inr ⟨vs, w', sp, h3, h4, h1⟩

/-- Multiplication by one is right but for the payloads of NaNs. -/
theorem c33_mul_one {W : Type} (E : Engine W) (hi : E.Ieee) (t : FTy) (v : BitVec t.bits) :
    (¬ isNan t v → E.fbin t .mul v (fone t) = v) ∧ (isNan t v → isNan t (E.fbin t .mul v (fone t))) :=
  FMul.one (hi.mul t v (fone t))

/-- Adding zero is right but for the payloads of NaNs and negative zero. -/
theorem c33_add_zero {W : Type} (E : Engine W) (hi : E.Ieee) (t : FTy) (v : BitVec t.bits) :
    (¬ isNan t v → v ≠ withSign t true 0 → E.fbin t .add v 0 = v) ∧ (isNan t v → isNan t (E.fbin t .add v 0)) :=
  FAdd.zero (hi.add t v 0)

/-- Adding and multiplying floats does not depend on the order but for the payloads of NaNs. -/
theorem c33_commutes {W : Type} (E : Engine W) (hi : E.Ieee) (t : FTy) (o : FBin) (a b : BitVec t.bits) :
    E.fbin t o a b = E.fbin t o b a ∨ (isNan t (E.fbin t o a b) ∧ isNan t (E.fbin t o b a)) := by
  cases o
  · exact FAdd.comm (hi.add t a b) (hi.add t b a)
  · exact FMul.comm (hi.mul t a b) (hi.mul t b a)

/-! ## What does not hold -/

/-- Arithmetic as in IEEE 754 where all NaNs are the canonical one. -/
noncomputable def ieee (t : FTy) : FBin → BitVec t.bits → BitVec t.bits → BitVec t.bits
  | .add, a, b => (fadd_exists t a b).choose
  | .mul, a, b => (fmul_exists t a b).choose

/-- An engine with operators that return what is in the world, that add one to it and return it, and
that trap. -/
noncomputable def machine : Engine (BitVec 32) where
  sig k := if k < 3 then some ([], [.i .i32]) else none
  run k _ w := match k with
    | 0 => .ok [.i .i32 w] w
    | 1 => .ok [.i .i32 w] (w + 1)
    | _ => .trap
  fbin := ieee

/-- The same, but only with the operator that changes nothing. -/
noncomputable def calm : Engine (BitVec 32) := { machine with sig := fun k => if k < 1 then some ([], [.i .i32]) else none }

/-- The same, but with operators that change nothing or trap. -/
noncomputable def pure : Engine (BitVec 32) :=
  { machine with sig := fun k => if k = 0 ∨ k = 2 then some ([], [.i .i32]) else none }

theorem machine_safe : machine.Safe := by
  intro k ins outs hk args _ w
  simp only [machine] at hk
  split at hk
  · cases hk
    match k with
    | 0 => exact .inr ⟨_, _, rfl, rfl⟩
    | 1 => exact .inr ⟨_, _, rfl, rfl⟩
    | k + 2 => exact .inl rfl
  · cases hk

theorem calm_safe : calm.Safe := by
  intro k ins outs hk args ha w
  refine machine_safe k ins outs ?_ args ha w
  simp only [calm] at hk
  split at hk
  · next h => rw [← hk]; exact if_pos (by omega)
  · cases hk

theorem pure_safe : pure.Safe := by
  intro k ins outs hk args ha w
  refine machine_safe k ins outs ?_ args ha w
  simp only [pure] at hk
  split at hk
  · next h => rw [← hk]; exact if_pos (by omega)
  · cases hk

theorem machine_ieee : machine.Ieee where
  add t a b := (fadd_exists t a b).choose_spec.1
  mul t a b := (fmul_exists t a b).choose_spec.1

theorem machine_oneNan : machine.OneNan := by
  intro t
  refine ⟨qnan t, ?_⟩
  intro o a b h
  cases o
  · exact (fadd_exists t a b).choose_spec.2 h
  · exact (fmul_exists t a b).choose_spec.2 h

theorem calm_total : calm.Total := by
  intro k ins outs hk args w
  simp only [calm] at hk
  split at hk
  · next h =>
    match k, h with
    | 0, _ => intro h; cases h
  · cases hk

theorem calm_pure : calm.Pure := by
  intro k ins outs hk args w vs w' h
  simp only [calm] at hk
  split at hk
  · next hk' =>
    match k, hk' with
    | 0, _ => cases h; rfl
  · cases hk

theorem pure_pure : pure.Pure := by
  intro k ins outs hk args w vs w' h
  simp only [pure] at hk
  split at hk
  · next hk' =>
    rcases hk' with rfl | rfl
    · cases h; rfl
    · cases h
  · cases hk

def enc : EncSt := ⟨fun _ => 7, 0, 0⟩

def start : State (BitVec 32) := ⟨[], 5, fun _ => .i .i32 0⟩

theorem not_preserves {W : Type} {E : Engine W} {R : Rule → Prop} (r : Rule) (hr : R r) (σ : Var → Expr)
    (hc : ∀ c ∈ r.conds, Holds E σ c) (ts : List Ty) (hts : typeOf E (r.lhs.subst σ) = some ts)
    {is js : List Instr} {s t : EncSt} (hi : encode (r.lhs.subst σ) enc = some (is, s))
    (hj : encode (r.rhs.subst σ) enc = some (js, t)) (st : State W) (h : ¬ Same (exec E is st) (exec E js st)) :
    ¬ Preserves E R :=
  fun hp => h (hp _ _ ts hts (.rule hr hc (by rw [hts]; simp)) _ _ _ _ _ _ hi hj st)

theorem not_same {W : Type} {E : Engine W} {is js : List Instr} {st : State W} {a b : State W}
    (h1 : exec E is st = .done a) (h2 : exec E js st = .done b) (h : a.stack ≠ b.stack ∨ a.world ≠ b.world) :
    ¬ Same (exec E is st) (exec E js st) := by
  rw [h1, h2]
  intro hs
  cases hs with
  | done h3 h4 => exact h.elim (fun h => h h3) (fun h => h h4)

theorem not_same_trap {W : Type} {E : Engine W} {is js : List Instr} {st : State W} {b : State W}
    (h1 : exec E is st = .trap) (h2 : exec E js st = .done b) : ¬ Same (exec E is st) (exec E js st) := by
  rw [h1, h2]
  intro hs
  cases hs

/-- Equality is not associative: `2 = (0 = 0)` is false but `(2 = 0) = 0` is true. No operator has
side effects or traps here. -/
theorem c33_not_eq_associates (reduce : Bool) (globals : Nat) :
    calm.Safe ∧ calm.Pure ∧ calm.Total ∧ calm.Ieee ∧
      ¬ Preserves calm (fun r => r ∈ getRules reduce globals ∧ r.name = "i32.eq-associates") := by
  refine ⟨calm_safe, calm_pure, calm_total, ⟨machine_ieee.add, machine_ieee.mul⟩, ?_⟩
  refine not_preserves ⟨"i32.eq-associates", ieq .i32 vx (ieq .i32 vy vz), ieq .i32 (ieq .i32 vx vy) vz, []⟩
    ⟨?_, rfl⟩ (fun | .x => ic .i32 2 | .y => ic .i32 0 | .z => ic .i32 0) (fun c hc => by cases hc) [.i .i32]
    rfl rfl rfl start ?_
  · simp only [getRules, List.mem_append]
    refine .inl (.inl (.inl (.inl (.inr ?_))))
    simp only [algebra, List.mem_append]
    exact .inr (.head _)
  · refine not_same (a := ⟨[.i .i32 0], 5, _⟩) (b := ⟨[.i .i32 1], 5, _⟩) rfl rfl (.inl ?_)
    intro h
    exact absurd (eq_of_heq (Val.i.inj (List.head_eq_of_cons_eq h)).2) (show (0 : BitVec 32) ≠ 1 by decide)

/-- `x + 0 => x` at negative zero. -/
theorem c33_not_add_zero (reduce : Bool) (globals : Nat) (t : FTy) :
    calm.Safe ∧ calm.Pure ∧ calm.Total ∧ calm.Ieee ∧
      ¬ Preserves calm (fun r => r ∈ getRules reduce globals ∧ r.name ∈ [addZeroName t, addZeroName t ++ "-rev"]) := by
  have hi : calm.Ieee := ⟨machine_ieee.add, machine_ieee.mul⟩
  refine ⟨calm_safe, calm_pure, calm_total, hi, ?_⟩
  have hz : withSign t true 0 ≠ 0 := by cases t <;> decide
  have hsum : calm.fbin t .add (withSign t true 0) 0 = 0 := FAdd.negZero (hi.add t _ _)
  have lhs : ∀ st : State (BitVec 32), exec calm [.op (.fconst t (withSign t true 0)), .op (.fconst t 0), .op (.fbin t .add)] st =
      .done ⟨.f t 0 :: st.stack, st.world, st.spilled⟩ := by
    intro st
    have e1 : step calm (.op (.fconst t (withSign t true 0))) st =
        .done ⟨.f t (withSign t true 0) :: st.stack, st.world, st.spilled⟩ := step_op (vs := []) rfl
    have e2 : step calm (.op (.fconst t 0)) ⟨.f t (withSign t true 0) :: st.stack, st.world, st.spilled⟩ =
        .done ⟨.f t 0 :: .f t (withSign t true 0) :: st.stack, st.world, st.spilled⟩ := step_op (vs := []) rfl
    have e3 : step calm (.op (.fbin t .add)) ⟨.f t 0 :: .f t (withSign t true 0) :: st.stack, st.world, st.spilled⟩ =
        .done ⟨.f t 0 :: st.stack, st.world, st.spilled⟩ := by
      refine (step_op (vs := [.f t (withSign t true 0), .f t 0]) rfl).trans ?_
      rw [apply_fbin, hsum]
      rfl
    simp only [exec, e1, e2, e3]
  have rhs : ∀ st : State (BitVec 32), exec calm [.op (.fconst t (withSign t true 0))] st =
      .done ⟨.f t (withSign t true 0) :: st.stack, st.world, st.spilled⟩ := by
    intro st
    rw [exec_single]
    exact step_op (vs := []) rfl
  have hne : ¬ Same (exec calm [.op (.fconst t (withSign t true 0)), .op (.fconst t 0), .op (.fbin t .add)] start)
      (exec calm [.op (.fconst t (withSign t true 0))] start) := by
    refine not_same (lhs start) (rhs start) (.inl ?_)
    intro h
    exact hz (eq_of_heq (Val.f.inj (List.head_eq_of_cons_eq h)).2).symm
  have hmem : ∀ r, r ∈ floatIdentities reduce t → r ∈ getRules reduce globals := by
    intro r hr
    simp only [getRules, List.mem_append]
    cases t
    · exact .inl (.inl (.inl (.inl (.inl (.inl (.inr hr))))))
    · exact .inl (.inl (.inl (.inl (.inl (.inr hr)))))
  cases reduce with
  | true =>
    refine not_preserves ⟨addZeroName t, fb t .add vx (fc0 t), vx, []⟩ ⟨hmem _ ?_, .head _⟩
      (fun _ => .node (.fconst t (withSign t true 0)) []) (fun c hc => by cases hc) [.f t]
      ((typeOf_fb ..).2 ⟨rfl, rfl, rfl⟩) rfl rfl start hne
    simp only [floatIdentities, if_true, List.mem_append]
    exact .inr (.head _)
  | false =>
    refine not_preserves ⟨addZeroName t ++ "-rev", fb t .add vx (fc0 t), vx, [.type .x (.f t)]⟩
      ⟨hmem _ ?_, .tail _ (.head _)⟩
      (fun _ => .node (.fconst t (withSign t true 0)) []) (fun c hc => ?_) [.f t]
      ((typeOf_fb ..).2 ⟨rfl, rfl, rfl⟩) rfl rfl start hne
    · simp only [floatIdentities, Bool.false_eq_true, if_false, List.mem_append]
      exact .inr (.tail _ (.head _))
    · simp only [List.mem_singleton] at hc
      subst hc
      rfl

/-- A signalling NaN. -/
def snan (t : FTy) : BitVec t.bits := withSign t false (Float.Spec.infinity (fmt t) + 1)

/-- `x * 1 => x` at a signalling NaN, which no product is. -/
theorem c33_not_mul_one (reduce : Bool) (globals : Nat) (t : FTy) :
    calm.Safe ∧ calm.Pure ∧ calm.Total ∧ calm.Ieee ∧
      ¬ Preserves calm (fun r => r ∈ getRules reduce globals ∧
        r.name ∈ [t.name ++ ".mul-x-1", t.name ++ ".mul-x-1" ++ "-rev"]) := by
  have hi : calm.Ieee := ⟨machine_ieee.add, machine_ieee.mul⟩
  refine ⟨calm_safe, calm_pure, calm_total, hi, ?_⟩
  have hz : calm.fbin t .mul (snan t) (fone t) ≠ snan t := by
    intro h
    have h1 := FMul.not_signalling (hi.mul t (snan t) (fone t)) (by rw [h]; cases t <;> decide)
    rw [h] at h1
    have h2 : ¬ canonicalMag t ≤ mag t (snan t) := by cases t <;> decide
    exact h2 h1
  have lhs : ∀ st : State (BitVec 32), exec calm [.op (.fconst t (snan t)), .op (.fconst t (fone t)), .op (.fbin t .mul)] st =
      .done ⟨.f t (calm.fbin t .mul (snan t) (fone t)) :: st.stack, st.world, st.spilled⟩ := by
    intro st
    have e1 : step calm (.op (.fconst t (snan t))) st =
        .done ⟨.f t (snan t) :: st.stack, st.world, st.spilled⟩ := step_op (vs := []) rfl
    have e2 : step calm (.op (.fconst t (fone t))) ⟨.f t (snan t) :: st.stack, st.world, st.spilled⟩ =
        .done ⟨.f t (fone t) :: .f t (snan t) :: st.stack, st.world, st.spilled⟩ := step_op (vs := []) rfl
    have e3 : step calm (.op (.fbin t .mul)) ⟨.f t (fone t) :: .f t (snan t) :: st.stack, st.world, st.spilled⟩ =
        .done ⟨.f t (calm.fbin t .mul (snan t) (fone t)) :: st.stack, st.world, st.spilled⟩ := by
      refine (step_op (vs := [.f t (snan t), .f t (fone t)]) rfl).trans ?_
      rw [apply_fbin]
      rfl
    simp only [exec, e1, e2, e3]
  have rhs : ∀ st : State (BitVec 32), exec calm [.op (.fconst t (snan t))] st =
      .done ⟨.f t (snan t) :: st.stack, st.world, st.spilled⟩ := by
    intro st
    rw [exec_single]
    exact step_op (vs := []) rfl
  have hne : ¬ Same (exec calm [.op (.fconst t (snan t)), .op (.fconst t (fone t)), .op (.fbin t .mul)] start)
      (exec calm [.op (.fconst t (snan t))] start) := by
    refine not_same (lhs start) (rhs start) (.inl ?_)
    intro h
    exact hz (eq_of_heq (Val.f.inj (List.head_eq_of_cons_eq h)).2)
  have hmem : ∀ r, r ∈ floatIdentities reduce t → r ∈ getRules reduce globals := by
    intro r hr
    simp only [getRules, List.mem_append]
    cases t
    · exact .inl (.inl (.inl (.inl (.inl (.inl (.inr hr))))))
    · exact .inl (.inl (.inl (.inl (.inl (.inr hr)))))
  cases reduce with
  | true =>
    refine not_preserves ⟨t.name ++ ".mul-x-1", fb t .mul vx (fc1 t), vx, []⟩ ⟨hmem _ ?_, .head _⟩
      (fun _ => .node (.fconst t (snan t)) []) (fun c hc => by cases hc) [.f t]
      ((typeOf_fb ..).2 ⟨rfl, rfl, rfl⟩) rfl rfl start hne
    simp only [floatIdentities, if_true, List.mem_append]
    exact .inl (.head _)
  | false =>
    refine not_preserves ⟨t.name ++ ".mul-x-1" ++ "-rev", fb t .mul vx (fc1 t), vx, [.type .x (.f t)]⟩
      ⟨hmem _ ?_, .tail _ (.head _)⟩
      (fun _ => .node (.fconst t (snan t)) []) (fun c hc => ?_) [.f t]
      ((typeOf_fb ..).2 ⟨rfl, rfl, rfl⟩) rfl rfl start hne
    · simp only [floatIdentities, Bool.false_eq_true, if_false, List.mem_append]
      exact .inl (.tail _ (.head _))
    · simp only [List.mem_singleton] at hc
      subst hc
      rfl

/-- `x | -1 => -1` loses a trap, like that of a division by zero. -/
theorem c33_not_or (reduce : Bool) (globals : Nat) :
    pure.Safe ∧ pure.Pure ∧ pure.Ieee ∧
      ¬ Preserves pure (fun r => r ∈ getRules reduce globals ∧ r.name = "i32.or--1") := by
  refine ⟨pure_safe, pure_pure, ⟨machine_ieee.add, machine_ieee.mul⟩, ?_⟩
  refine not_preserves ⟨"i32.or--1", ib .i32 .or vx (ic .i32 (-1)), ic .i32 (-1), []⟩
    ⟨?_, rfl⟩ (fun _ => .node (.other 2) []) (fun c hc => by cases hc) [.i .i32]
    rfl rfl rfl start ?_
  · simp only [getRules, List.mem_append]
    refine .inl (.inl (.inl (.inl (.inl (.inl (.inl (.inl ?_)))))))
    cases reduce
    · exact List.mem_append_left _ (by simp only [identities, List.append_assoc]; exact List.mem_append_left _ (.head _))
    · exact List.mem_append_left _ (by simp only [reduceIdentities, List.append_assoc]; exact List.mem_append_left _ (.head _))
  · exact not_same_trap (b := ⟨[.i .i32 (-1)], 5, _⟩) rfl rfl

/-- `select` with two equal branches loses a trap of the condition. -/
theorem c33_not_select (reduce : Bool) (globals : Nat) :
    pure.Safe ∧ pure.Pure ∧ pure.Ieee ∧
      ¬ Preserves pure (fun r => r ∈ getRules reduce globals ∧ r.name = "select-same-branches") := by
  refine ⟨pure_safe, pure_pure, ⟨machine_ieee.add, machine_ieee.mul⟩, ?_⟩
  refine not_preserves ⟨"select-same-branches", sel vy vy vx, vy, []⟩
    ⟨?_, rfl⟩ (fun | .x => .node (.other 2) [] | _ => ic .i32 1) (fun c hc => by cases hc) [.i .i32]
    rfl rfl rfl start ?_
  · simp only [getRules, List.mem_append]
    exact .inl (.inl (.inl (.inl (.inl (.inl (.inl (.inr (.head _))))))))
  · exact not_same_trap (b := ⟨[.i .i32 1], 5, _⟩) rfl rfl

/-- `x | x => x` and its converse evaluate an operand with a side effect, like a call, once instead
of twice. -/
theorem c33_not_or_same (reduce : Bool) (globals : Nat) :
    machine.Safe ∧ machine.Ieee ∧
      ¬ Preserves machine (fun r => r ∈ getRules reduce globals ∧ r.name = "i32.or-x-x") := by
  refine ⟨machine_safe, machine_ieee, ?_⟩
  have hne : ¬ Same (exec machine [.op (.other 1), .op (.other 1), .op (.ibin .i32 .or)] start)
      (exec machine [.op (.other 1)] start) :=
    not_same (a := ⟨[.i .i32 7], 7, _⟩) (b := ⟨[.i .i32 5], 6, _⟩) rfl rfl (.inr (show (7 : BitVec 32) ≠ 6 by decide))
  cases reduce with
  | true =>
    refine not_preserves ⟨"i32.or-x-x", ib .i32 .or vx vx, vx, []⟩
      ⟨?_, rfl⟩ (fun _ => .node (.other 1) []) (fun c hc => by cases hc) [.i .i32] rfl rfl rfl start hne
    simp only [getRules, List.mem_append]
    refine .inl (.inl (.inl (.inl (.inl (.inl (.inl (.inl ?_)))))))
    exact List.mem_append_left _ (by simp only [reduceIdentities, List.append_assoc]; exact .tail _ (.head _))
  | false =>
    refine not_preserves ⟨"i32.or-x-x", ib .i32 .or vx vx, vx, [.type .x (.i .i32)]⟩
      ⟨?_, rfl⟩ (fun _ => .node (.other 1) []) (fun c hc => ?_) [.i .i32] rfl rfl rfl start hne
    · simp only [getRules, List.mem_append]
      refine .inl (.inl (.inl (.inl (.inl (.inl (.inl (.inl ?_)))))))
      exact List.mem_append_left _ (by simp only [identities, List.append_assoc]; exact .tail _ (.head _))
    · simp only [List.mem_singleton] at hc
      subst hc
      rfl

/-! ## Examples -/

/-- `(w * 1) + 3`, with `w` the state of the world, becomes `3 + unfold(3)…`: a commuted sum whose
constant is unfolded. -/
example : ∃ b is js s t,
    Rewrites calm (Good calm false 0) (ib .i32 .add (ib .i32 .mul (.node (.other 0) []) (ic .i32 1)) (ic .i32 3)) b ∧
    typeOf calm (ib .i32 .add (ib .i32 .mul (.node (.other 0) []) (ic .i32 1)) (ic .i32 3)) = some [.i .i32] ∧
    encode (ib .i32 .add (ib .i32 .mul (.node (.other 0) []) (ic .i32 1)) (ic .i32 3)) enc = some (is, s) ∧
    encode b enc = some (js, t) ∧ is.length = 5 ∧ js.length = 5 ∧
    exec calm is start = .done ⟨[.i .i32 8], 5, start.spilled⟩ ∧ exec calm js start = .done ⟨[.i .i32 8], 5, start.spilled⟩ := by
  let w : Expr := .node (.other 0) []
  refine ⟨ib .i32 .add (.node (.unfold .i32) [ic .i32 3]) w, _, _, _, _, ?_, rfl, rfl, rfl, rfl, rfl, rfl, rfl⟩
  have good : ∀ r, r ∈ getRules false 0 → r.name ∉ wrong → Good calm false 0 r := fun r h1 h2 =>
    ⟨h1, h2, fun _ => calm_total, fun _ => ⟨⟨machine_ieee.add, machine_ieee.mul⟩, machine_oneNan⟩, fun _ => calm_pure⟩
  have h1 : Rewrites calm (Good calm false 0) (ib .i32 .mul w (ic .i32 1)) w := by
    refine .symm (.rule (r := ⟨"i32.mul-x-1", vx, ib .i32 .mul vx (ic .i32 1), [.type .x (.i .i32)]⟩)
      (σ := fun _ => w) (good _ ?_ (by decide)) ?_ (by intro h; cases h))
    · simp only [getRules, List.mem_append]
      refine .inl (.inl (.inl (.inl (.inl (.inl (.inl (.inl ?_)))))))
      exact List.mem_append_left _ (by simp [identities, rewriteBoth, rewrite, ITy.name])
    · intro c hc
      simp only [List.mem_singleton] at hc
      subst hc
      rfl
  have h2 : Rewrites calm (Good calm false 0) (ic .i32 3) (.node (.unfold .i32) [ic .i32 3]) := by
    refine .rule (r := ⟨"i32.unfold", vx, .node (.unfold .i32) [vx], [.const .x, .type .x (.i .i32)]⟩)
      (σ := fun _ => ic .i32 3) (good _ ?_ (by decide)) ?_ (by intro h; cases h)
    · simp only [getRules, List.mem_append]
      right
      simp only [Bool.false_eq_true, if_false, List.mem_append]
      exact .inl (.inr (.head _))
    · intro c hc
      simp only [List.mem_cons, List.not_mem_nil, or_false] at hc
      rcases hc with rfl | rfl
      · exact .inl ⟨_, _, rfl⟩
      · rfl
  have h3 : Rewrites calm (Good calm false 0) (ib .i32 .add w (.node (.unfold .i32) [ic .i32 3]))
      (ib .i32 .add (.node (.unfold .i32) [ic .i32 3]) w) := by
    refine .rule (r := ⟨"i32.add-commutes", ib .i32 .add vx vy, ib .i32 .add vy vx, []⟩)
      (σ := fun | .x => w | _ => .node (.unfold .i32) [ic .i32 3]) (good _ ?_ (by decide)) (fun c hc => by cases hc) ?_
    · simp only [getRules, List.mem_append]
      refine .inl (.inl (.inl (.inl (.inr ?_))))
      simp [algebra, rewriteBoth, ITy.name]
    · intro h; cases h
  refine .trans (b := ib .i32 .add w (.node (.unfold .i32) [ic .i32 3])) (.congr rfl ?_) h3
  intro p hp
  simp only [List.zip_cons_cons, List.zip_nil_right, List.mem_cons, List.not_mem_nil, or_false] at hp
  rcases hp with rfl | rfl
  · exact h1
  · exact h2

example : machine.Ieee ∧ machine.OneNan ∧ ¬ isNan .f32 (fone .f32) ∧ fone .f32 ≠ withSign .f32 true 0 :=
  ⟨machine_ieee, machine_oneNan, by decide, by decide⟩

end Verif.Peephole.Props
