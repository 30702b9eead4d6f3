import Verif.Abi.Lemmas
/-! # Lemmas for flattening -/
namespace Verif.Abi
open Spec

theorem join_core (w : Nat) (hw : w = 4 ∨ w = 8) (a b : WasmType) :
    core w (join a b) = Spec.join (core w a) (core w b) := by
  rcases hw with rfl | rfl <;> cases a <;> cases b <;> rfl

def joinW : List WasmType → List WasmType → List WasmType
  | [], ys => ys
  | xs, [] => xs
  | x :: xs, y :: ys => join x y :: joinW xs ys

theorem joinW_core (w : Nat) (hw : w = 4 ∨ w = 8) : ∀ (xs ys : List WasmType),
    (joinW xs ys).map (core w) = joinLists (xs.map (core w)) (ys.map (core w)) := by
  intro xs
  induction xs with
  | nil => intro ys; simp [joinW, joinLists]
  | cons x xs ih =>
    intro ys
    cases ys with
    | nil => simp [joinW, joinLists]
    | cons y ys => simp [joinW, joinLists, ih, join_core w hw]

theorem joinW_length : ∀ (xs ys : List WasmType), (joinW xs ys).length = max xs.length ys.length := by
  intro xs
  induction xs with
  | nil => intro ys; simp [joinW]
  | cons x xs ih =>
    intro ys
    cases ys with
    | nil => simp [joinW]
    | cons y ys => simp [joinW, ih]

mutual
def sym : VT → List WasmType
  | .int b => [if b ≤ 4 then .i32 else .i64]
  | .f32 => [.f32]
  | .f64 => [.f64]
  | .char | .word | .flags _ => [.i32]
  | .string | .list => [.pointer, .length]
  | .fixedList t n => (List.replicate n (sym t)).flatten
  | .record fs => symAll fs
  | .variant cs => .i32 :: symCases [] cs
def symAll : List VT → List WasmType
  | [] => []
  | t :: ts => sym t ++ symAll ts
def symCases (acc : List WasmType) : List (Option VT) → List WasmType
  | [] => acc
  | none :: cs => symCases acc cs
  | some t :: cs => symCases (joinW acc (sym t)) cs
end

theorem map_flatten_replicate {α β : Type} (f : α → β) (n : Nat) (l : List α) :
    ((List.replicate n l).flatten).map f = (List.replicate n (l.map f)).flatten := by
  simp [List.map_flatten]

mutual
theorem sym_core (w : Nat) (hw : w = 4 ∨ w = 8) : ∀ v : VT, (sym v).map (core w) = flatten w v
  | .int b => by simp only [sym, flatten, List.map]; split <;> rfl
  | .f32 | .f64 | .char | .word | .flags _ | .string | .list => by
    simp [sym, flatten, core]
  | .fixedList t n => by
    simp only [sym, flatten, map_flatten_replicate]
    rw [sym_core w hw t]
  | .record fs => by simp only [sym, flatten]; exact symAll_core w hw fs
  | .variant cs => by
    simp only [sym, flatten, List.map_cons]
    rw [symCases_core w hw cs []]; rfl
theorem symAll_core (w : Nat) (hw : w = 4 ∨ w = 8) : ∀ vs : List VT,
    (symAll vs).map (core w) = flattenAll w vs
  | [] => by simp [symAll, flattenAll]
  | v :: vs => by
    simp only [symAll, flattenAll, List.map_append]
    rw [sym_core w hw v, symAll_core w hw vs]
theorem symCases_core (w : Nat) (hw : w = 4 ∨ w = 8) : ∀ (cs : List (Option VT)) (acc : List WasmType),
    (symCases acc cs).map (core w) = flattenCases w (acc.map (core w)) cs
  | [], acc => by simp [symCases, flattenCases]
  | none :: cs, acc => by
    simp only [symCases, flattenCases]; exact symCases_core w hw cs acc
  | some t :: cs, acc => by
    simp only [symCases, flattenCases]
    rw [symCases_core w hw cs (joinW acc (sym t)), joinW_core w hw, sym_core w hw t]
end

/-! ## Pushing -/

/-- `p` appends `l` if there is room, and otherwise reports an overflow. -/
def Pushes (p : Push) (l : List WasmType) : Prop :=
  ∀ pre tail ov,
    (l.length ≤ tail.length → p ⟨pre ++ tail, pre.length, ov⟩
      = some (true, ⟨pre ++ (l ++ tail.drop l.length), pre.length + l.length, ov⟩)) ∧
    (tail.length < l.length → ∃ f, p ⟨pre ++ tail, pre.length, ov⟩ = some (false, f) ∧
      f.overflow = true ∧ f.types.length = pre.length + tail.length)

theorem pushes_ty (t : WasmType) : Pushes (.ty t) [t] := by
  intro pre tail ov
  constructor
  · intro h
    cases tail with
    | nil => simp at h
    | cons x xs => simp [Push.ty, Flat.push]
  · intro h
    cases tail with
    | nil => exact ⟨⟨pre ++ [], pre.length, true⟩, by simp [Push.ty, Flat.push], rfl, by simp⟩
    | cons x xs => simp at h

theorem pushes_nil : Pushes (pushList []) [] := by
  intro pre tail ov
  constructor
  · intro _; simp [pushList]
  · intro h; simp at h

theorem pushes_and {a b : Push} {la lb : List WasmType} (ha : Pushes a la) (hb : Pushes b lb) :
    Pushes (a.and b) (la ++ lb) := by
  intro pre tail ov
  obtain ⟨a1, a2⟩ := ha pre tail ov
  simp only [List.length_append]
  by_cases hl : la.length ≤ tail.length
  · have e := a1 hl
    have hpre : pre.length + la.length = (pre ++ la).length := by simp
    rw [← List.append_assoc, hpre] at e
    obtain ⟨b1, b2⟩ := hb (pre ++ la) (tail.drop la.length) ov
    simp only [List.length_drop] at b1 b2
    constructor
    · intro h
      simp only [Push.and, e]
      rw [b1 (by omega)]
      simp [List.append_assoc, Nat.add_assoc]
    · intro h
      simp only [Push.and, e]
      obtain ⟨f, f1, f2, f3⟩ := b2 (by omega)
      exact ⟨f, f1, f2, by rw [f3]; simp; omega⟩
  · constructor
    · intro h; omega
    · intro h
      obtain ⟨f, f1, f2, f3⟩ := a2 (by omega)
      exact ⟨f, by simp only [Push.and, f1], f2, f3⟩

theorem pushes_list {ps : List Push} {ls : List (List WasmType)} (h : List.Forall₂ Pushes ps ls) :
    Pushes (pushList ps) ls.flatten := by
  induction h with
  | nil => exact pushes_nil
  | cons h1 _ ih => exact pushes_and h1 ih

theorem mergeCase_ok (base : List WasmType) : ∀ (tys acc1 acc2 tail : List WasmType) (ov : Bool),
    acc1.length + tys.length ≤ acc1.length + acc2.length + tail.length →
    mergeCase base.length acc1.length tys
      ⟨base ++ (acc1 ++ (acc2 ++ tail)), base.length + (acc1.length + acc2.length), ov⟩
    = (true, ⟨base ++ (acc1 ++ (joinW acc2 tys ++ tail.drop ((joinW acc2 tys).length - acc2.length))),
        base.length + (acc1.length + (joinW acc2 tys).length), ov⟩) := by
  intro tys
  induction tys with
  | nil =>
    intro acc1 acc2 tail ov _
    have : joinW acc2 [] = acc2 := by cases acc2 <;> rfl
    simp [mergeCase, this]
  | cons ty tys ih =>
    intro acc1 acc2 tail ov h
    cases acc2 with
    | cons x xs =>
      have := ih (acc1 ++ [join x ty]) xs tail ov (by simp at h ⊢; omega)
      simp only [mergeCase, joinW]
      rw [if_pos (by simp; omega)]
      have hset : (base ++ (acc1 ++ (x :: xs ++ tail))).set (acc1.length + base.length)
          (join ((base ++ (acc1 ++ (x :: xs ++ tail))).getD (acc1.length + base.length) .i32) ty)
          = base ++ ((acc1 ++ [join x ty]) ++ (xs ++ tail)) := by
        rw [Nat.add_comm acc1.length]
        simp [List.getD, List.getElem?_append_right]
      rw [hset]
      have e1 : base.length + (acc1.length + (x :: xs).length)
          = base.length + ((acc1 ++ [join x ty]).length + xs.length) := by simp; omega
      have e2 : acc1.length + 1 = (acc1 ++ [join x ty]).length := by simp
      rw [e1, e2, this]
      simp [Nat.add_assoc, Nat.add_comm 1]
    | nil =>
      cases tail with
      | nil => simp at h; omega
      | cons y tail =>
        have := ih (acc1 ++ [ty]) [] tail ov (by simp at h ⊢; omega)
        simp only [mergeCase, joinW]
        rw [if_neg (by simp; omega), if_neg (by simp)]
        have hset : (base ++ (acc1 ++ ([] ++ y :: tail))).set (acc1.length + base.length) ty
            = base ++ ((acc1 ++ [ty]) ++ ([] ++ tail)) := by
          rw [Nat.add_comm acc1.length]
          simp
        rw [hset]
        have e1 : base.length + (acc1.length + ([] : List WasmType).length) + 1
            = base.length + ((acc1 ++ [ty]).length + ([] : List WasmType).length) := by simp; omega
        have e2 : acc1.length + 1 = (acc1 ++ [ty]).length := by simp
        rw [e1, e2, this]
        simp [joinW, Nat.add_assoc, Nat.add_comm 1]

/-- The types of all cases laid over each other. -/
def joinAll (acc : List WasmType) : List (Option (List WasmType)) → List WasmType
  | [] => acc
  | none :: ls => joinAll acc ls
  | some l :: ls => joinAll (joinW acc l) ls

theorem joinAll_length (acc : List WasmType) (ls : List (Option (List WasmType))) :
    acc.length ≤ (joinAll acc ls).length := by
  induction ls generalizing acc with
  | nil => exact Nat.le_refl _
  | cons l ls ih =>
    cases l with
    | none => exact ih acc
    | some l =>
      refine Nat.le_trans ?_ (ih _)
      rw [joinW_length]; exact Nat.le_max_left _ _

def PushesOpt : Option Push → Option (List WasmType) → Prop
  | none, none => True
  | some p, some l => Pushes p l
  | _, _ => False

theorem variantLoop_ok (base tail0 : List WasmType) {ps : List (Option Push)}
    {ls : List (Option (List WasmType))} (h : List.Forall₂ PushesOpt ps ls) :
    ∀ (acc temp : List WasmType) (ov : Bool), temp.length = tail0.length → acc.length ≤ tail0.length →
    ((joinAll acc ls).length ≤ tail0.length →
      variantLoop base.length ps ⟨temp, 0, false⟩
        ⟨base ++ (acc ++ tail0.drop acc.length), base.length + acc.length, ov⟩
      = some (true, ⟨base ++ (joinAll acc ls ++ tail0.drop (joinAll acc ls).length),
          base.length + (joinAll acc ls).length, ov⟩)) ∧
    (tail0.length < (joinAll acc ls).length → ∃ f,
      variantLoop base.length ps ⟨temp, 0, false⟩
        ⟨base ++ (acc ++ tail0.drop acc.length), base.length + acc.length, ov⟩ = some (false, f) ∧
      f.overflow = true ∧ f.types.length = base.length + tail0.length) := by
  induction h with
  | nil =>
    intro acc temp ov ht ha
    refine ⟨fun _ => rfl, fun h => ?_⟩
    simp only [joinAll] at h; omega
  | @cons p l ps ls hp hps ih =>
    intro acc temp ov ht ha
    cases p with
    | none =>
      cases l with
      | none => exact ih acc temp ov ht ha
      | some l => exact hp.elim
    | some p =>
      cases l with
      | none => exact hp.elim
      | some l =>
        have hp : Pushes p l := hp
        obtain ⟨p1, p2⟩ := hp [] temp false
        simp only [List.nil_append, List.length_nil, Nat.zero_add] at p1 p2
        by_cases hl : l.length ≤ temp.length
        · have e := p1 hl
          have ht' : (l ++ temp.drop l.length).length = tail0.length := by simp; omega
          have hj : (joinW acc l).length ≤ tail0.length := by rw [joinW_length]; omega
          have hm := mergeCase_ok base l [] acc (tail0.drop acc.length) ov (by simp; omega)
          simp only [List.nil_append, List.length_nil, Nat.zero_add, List.drop_drop] at hm
          have hge : acc.length ≤ (joinW acc l).length := by rw [joinW_length]; exact Nat.le_max_left _ _
          rw [show acc.length + ((joinW acc l).length - acc.length) = (joinW acc l).length by omega] at hm
          have ih' := ih (joinW acc l) (l ++ temp.drop l.length) ov ht' hj
          simp only [variantLoop, e, List.take_left', hm, joinAll]
          exact ih'
        · obtain ⟨f, f1, f2, f3⟩ := p2 (by omega)
          have hgt : tail0.length < (joinAll acc (some l :: ls)).length := by
            have := joinAll_length (joinW acc l) ls
            rw [joinW_length] at this
            simp only [joinAll]; omega
          refine ⟨fun h => by omega, fun _ => ?_⟩
          exact ⟨⟨base ++ (acc ++ tail0.drop acc.length), base.length + acc.length, true⟩,
            by simp only [variantLoop, f1], rfl, by simp; omega⟩

theorem pushes_variants {ps : List (Option Push)} {ls : List (Option (List WasmType))}
    (h : List.Forall₂ PushesOpt ps ls) : Pushes (pushVariants ps) (joinAll [] ls) := by
  intro pre tail ov
  have := variantLoop_ok pre tail h [] tail ov rfl (by simp)
  simp only [List.nil_append, List.length_nil, Nat.add_zero, List.drop_zero] at this
  simpa [pushVariants] using this

theorem symAll_flatten (vs : List VT) : symAll vs = (vs.map sym).flatten := by
  induction vs with
  | nil => simp [symAll]
  | cons v vs ih => simp [symAll, ih]

theorem symCases_joinAll (vs : List (Option VT)) : ∀ acc, symCases acc vs = joinAll acc (vs.map (Option.map sym)) := by
  induction vs with
  | nil => intro acc; simp [symCases, joinAll]
  | cons v vs ih => intro acc; cases v <;> simp [symCases, joinAll, ih]

theorem joinAll_replicate (acc : List WasmType) (n : Nat) :
    joinAll acc (List.replicate n none) = acc := by
  induction n with
  | zero => rfl
  | succ n ih => simpa [List.replicate_succ, joinAll] using ih

theorem tag_wasm {n : Nat} {tag : Int'} (h : discriminantType n = some tag) : tag.wasm = .i32 := by
  unfold discriminantType at h
  split at h
  · simp at h; subst h; rfl
  · dsimp only at h
    split at h
    · simp at h; subst h; rfl
    · split at h
      · simp at h; subst h; rfl
      · split at h
        · simp at h; subst h; rfl
        · simp at h

theorem pushFlat_pushes {types : List Kind} (hfew : FewCases types) :
    ∀ d ty v, unfold types d ty = some v → Pushes (pushFlat types d ty) (sym v) := by
  intro d
  induction d with
  | zero => intro ty v h; simp [unfold] at h
  | succ d ih =>
    intro ty v h
    have all : ∀ (ts : List Ty) us, ts.mapM (unfold types d) = some us →
        Pushes (pushList (ts.map (pushFlat types d))) (symAll us) := by
      intro ts us h
      rw [symAll_flatten]
      refine pushes_list ?_
      rw [List.forall₂_map_left_iff, List.forall₂_map_right_iff]
      exact (mapM_forall h).imp fun t u hu => ih t u hu
    have cases' : ∀ (ts : List (Option Ty)) us, ts.mapM (unfold.optional (unfold types d)) = some us →
        Pushes (pushVariants (ts.map (Option.map (pushFlat types d)))) (symCases [] us) := by
      intro ts us h
      rw [symCases_joinAll]
      refine pushes_variants ?_
      rw [List.forall₂_map_left_iff, List.forall₂_map_right_iff]
      refine (mapM_forall h).imp fun t u hu => ?_
      cases t with
      | none => simp [unfold.optional] at hu; subst hu; trivial
      | some t =>
        cases hx : unfold types d t with
        | none => simp [unfold.optional, hx] at hu
        | some x => simp [unfold.optional, hx] at hu; subst hu; exact ih t x hx
    cases ty with
    | id i =>
      simp only [unfold] at h
      cases hk : types[i]? with
      | none => simp [hk] at h
      | some k =>
        have hmem : k ∈ types := List.mem_of_getElem? hk
        obtain ⟨few1, few2⟩ := hfew k hmem
        rw [hk] at h
        simp only [pushFlat, hk]
        cases k with
        | resource => simp at h
        | unknown => simp at h
        | type t => exact ih t v h
        | handle => simp at h; subst h; simp only [sym]; exact pushes_ty _
        | future => simp at h; subst h; simp only [sym]; exact pushes_ty _
        | stream => simp at h; subst h; simp only [sym]; exact pushes_ty _
        | list => simp at h; subst h; simp only [sym]; exact pushes_and (pushes_ty _) (pushes_ty _)
        | map => simp at h; subst h; simp only [sym]; exact pushes_and (pushes_ty _) (pushes_ty _)
        | flags n =>
          dsimp only at h
          split at h
          · rename_i hn
            simp at h; subst h
            have hc : (flagsRepr n).count = 1 := by
              unfold flagsRepr
              rw [if_neg (by omega), alignTo_32]
              unfold alignUp
              split
              · rfl
              · split
                · rfl
                · simp only [FlagsRepr.count]; omega
            simp only [sym, hc]
            exact pushes_list (ls := [[.i32]]) (.cons (pushes_ty _) .nil)
          · simp at h
        | fixedLengthList t n =>
          dsimp only at h
          split at h
          · simp at h
          · cases hx : unfold types d t with
            | none => simp [hx] at h
            | some x =>
              simp [hx] at h; subst h
              simp only [sym]
              refine pushes_list ?_
              have := ih t x hx
              clear * - this
              induction n with
              | zero => exact .nil
              | succ n ih => rw [List.replicate_succ, List.replicate_succ]; exact .cons this ih
        | record ts =>
          dsimp only at h
          split at h
          · simp at h
          · cases hx : ts.mapM (unfold types d) with
            | none => simp [hx] at h
            | some x => simp [hx] at h; subst h; simp only [sym]; exact all ts x hx
        | tuple ts =>
          dsimp only at h
          split at h
          · simp at h
          · cases hx : ts.mapM (unfold types d) with
            | none => simp [hx] at h
            | some x => simp [hx] at h; subst h; simp only [sym]; exact all ts x hx
        | variant cs =>
          dsimp only at h
          split at h
          · simp at h
          · cases hx : cs.mapM (unfold.optional (unfold types d)) with
            | none => simp [hx] at h
            | some x =>
              simp [hx] at h; subst h
              obtain ⟨tag, ht⟩ := discriminantType_some (few1 cs rfl)
              simp only [ht, tag_wasm ht, sym]
              exact pushes_and (pushes_ty _) (cases' cs x hx)
        | enum n =>
          dsimp only at h
          split at h
          · simp at h
          · simp at h; subst h
            obtain ⟨tag, ht⟩ := discriminantType_some (few2 n rfl)
            simp only [ht, tag_wasm ht, sym, symCases_joinAll, List.map_replicate, Option.map_none,
              joinAll_replicate]
            exact pushes_ty _
        | option t =>
          cases hx : unfold types d t with
          | none => simp [hx] at h
          | some x =>
            simp [hx] at h; subst h
            simp only [sym]
            exact pushes_and (pushes_ty _) (cases' [none, some t] [none, some x]
              (by simp [unfold.optional, hx]))
        | result a b =>
          dsimp only at h
          cases hx : [a, b].mapM (unfold.optional (unfold types d)) with
          | none => rw [hx] at h; simp at h
          | some x =>
            rw [hx] at h
            simp at h; subst h
            simp only [sym]
            exact pushes_and (pushes_ty _) (cases' [a, b] x hx)
    | string => simp [unfold] at h; subst h; simp only [sym]; exact pushes_and (pushes_ty _) (pushes_ty _)
    | _ => simp [unfold] at h; subst h; simp only [sym]; exact pushes_ty _

theorem sym_ne_nil {types : List Kind} : ∀ d ty v, unfold types d ty = some v → sym v ≠ [] := by
  intro d
  induction d with
  | zero => intro ty v h; simp [unfold] at h
  | succ d ih =>
    intro ty v h
    have all : ∀ (ts : List Ty) us, ts ≠ [] → ts.mapM (unfold types d) = some us → symAll us ≠ [] := by
      intro ts us hne h
      cases mapM_forall h with
      | nil => exact absurd rfl hne
      | cons h1 _ => simp only [symAll]; intro h; exact ih _ _ h1 (List.append_eq_nil_iff.1 h).1
    cases ty with
    | id i =>
      simp only [unfold] at h
      cases hk : types[i]? with
      | none => simp [hk] at h
      | some k =>
        rw [hk] at h
        cases k with
        | resource => simp at h
        | unknown => simp at h
        | type t => exact ih t v h
        | handle => simp at h; subst h; simp [sym]
        | future => simp at h; subst h; simp [sym]
        | stream => simp at h; subst h; simp [sym]
        | list => simp at h; subst h; simp [sym]
        | map => simp at h; subst h; simp [sym]
        | flags n =>
          dsimp only at h
          split at h
          · simp at h; subst h; simp [sym]
          · simp at h
        | fixedLengthList t n =>
          dsimp only at h
          split at h
          · simp at h
          · rename_i hn
            cases hx : unfold types d t with
            | none => simp [hx] at h
            | some x =>
              simp [hx] at h; subst h
              simp only [sym]
              cases n with
              | zero => exact absurd rfl hn
              | succ n =>
                rw [List.replicate_succ, List.flatten_cons]
                intro h; exact ih _ _ hx (List.append_eq_nil_iff.1 h).1
        | record ts =>
          dsimp only at h
          split at h
          · simp at h
          · rename_i hne
            cases hx : ts.mapM (unfold types d) with
            | none => simp [hx] at h
            | some x => simp [hx] at h; subst h; simp only [sym]; exact all ts x hne hx
        | tuple ts =>
          dsimp only at h
          split at h
          · simp at h
          · rename_i hne
            cases hx : ts.mapM (unfold types d) with
            | none => simp [hx] at h
            | some x => simp [hx] at h; subst h; simp only [sym]; exact all ts x hne hx
        | variant cs =>
          dsimp only at h
          split at h
          · simp at h
          · cases hx : cs.mapM (unfold.optional (unfold types d)) with
            | none => simp [hx] at h
            | some x => simp [hx] at h; subst h; simp [sym]
        | enum n =>
          dsimp only at h
          split at h
          · simp at h
          · simp at h; subst h; simp [sym]
        | option t =>
          cases hx : unfold types d t with
          | none => simp [hx] at h
          | some x => simp [hx] at h; subst h; simp [sym]
        | result a b =>
          dsimp only at h
          cases hx : [a, b].mapM (unfold.optional (unfold types d)) with
          | none => rw [hx] at h; simp at h
          | some x => rw [hx] at h; simp at h; subst h; simp [sym]
    | _ => simp [unfold] at h; subst h; simp [sym]

/-! ## Signatures -/

/-- The most parameters passed directly. -/
def maxOf (v : AbiVariant) : Nat := if v = .guestImportAsync then 4 else 16

/-- The flat parameters before a return pointer. -/
def paramsOf (v : AbiVariant) (f : Func) (L : List WasmType) : List WasmType :=
  if maxOf v < L.length then [.pointer]
  else if exportedMethod v f then .pointer :: L.tail else L

theorem maxOf_le (v : AbiVariant) : maxOf v ≤ 16 := by unfold maxOf; split <;> omega

theorem sigParams_ok {types : List Kind} {d : Nat} {v : AbiVariant} {f : Func} {L : List WasmType}
    (h : Pushes (pushList (f.params.map (pushFlat types d))) L)
    (hm : f.method = true → ∃ l, L = .i32 :: l) :
    ∃ p, sigParams types d v f = some (p, decide (maxOf v < L.length)) ∧ p.types.length = 17 ∧
      p.cur = (paramsOf v f L).length ∧ p.cur ≤ 16 ∧ p.types.take p.cur = paramsOf v f L := by
  obtain ⟨h1, h2⟩ := h [] (List.replicate 17 .i32) false
  simp only [List.nil_append, List.length_nil, Nat.zero_add, List.length_replicate] at h1 h2
  have hle := maxOf_le v
  have hmax : (if v = .guestImportAsync then maxFlatAsyncParams else maxFlatParams) = maxOf v := rfl
  unfold sigParams
  rw [show maxFlatParams + 1 = 17 from rfl]
  by_cases hl : L.length ≤ 17
  · rw [h1 hl]
    simp only [Bool.not_false, ne_eq, not_true, if_false, hmax, Bool.true_eq_false, false_or]
    by_cases hx : maxOf v < L.length
    · rw [if_pos hx]
      simp only [paramsOf, hx, if_true, decide_true]
      refine ⟨_, rfl, ?_, rfl, ?_, ?_⟩
      · simp; omega
      · simp
      · cases L with
        | nil => simp at hx
        | cons x xs => simp
    · rw [if_neg hx]
      simp only [paramsOf, hx, if_false, decide_false]
      by_cases he : exportedMethod v f = true
      · rw [if_pos he, if_pos he]
        have hfm : f.method = true := by
          unfold exportedMethod at he; rw [Bool.and_eq_true] at he; exact he.1
        obtain ⟨l, rfl⟩ := hm hfm
        refine ⟨⟨.pointer :: (l ++ (List.replicate 16 .i32).drop l.length), l.length + 1, false⟩, by simp, ?_, ?_, ?_, ?_⟩
        · simp at hl ⊢; omega
        · simp
        · simp at hx ⊢; omega
        · simp
      · rw [if_neg he, if_neg he]
        refine ⟨_, rfl, ?_, rfl, ?_, ?_⟩
        · simp; omega
        · simp only; omega
        · simp
  · obtain ⟨g, g1, g2, g3⟩ := h2 (by omega)
    rw [g1]
    have hx : maxOf v < L.length := by omega
    simp only [g2, Bool.not_true, ne_eq, not_true, if_false, true_or, if_true, paramsOf, hx, decide_true]
    refine ⟨_, rfl, ?_, rfl, ?_, ?_⟩
    · simp [g3]
    · simp
    · obtain ⟨ts, c, o⟩ := g
      simp only at g3
      cases ts with
      | nil => simp at g3
      | cons x xs => simp

theorem assertPush_ok {p : Flat} {ty : WasmType} (h : p.cur < p.types.length) :
    ∃ q, p.assertPush ty = some q ∧ q.toVec = p.toVec ++ [ty] := by
  refine ⟨{ p with types := p.types.set p.cur ty, cur := p.cur + 1 }, by simp [Flat.assertPush, Flat.push, h], ?_⟩
  simp only [Flat.toVec]
  rw [List.take_add_one, List.take_set_of_le (Nat.le_refl _)]
  simp [h]

/-- Pushing a result on a buffer for one. -/
theorem pushResult {types : List Kind} {d : Nat} {ty : Ty} {R : List WasmType}
    (h : Pushes (pushFlat types d ty) R) :
    ∃ b g, pushFlat types d ty ⟨List.replicate maxFlatResults .i32, 0, false⟩ = some (b, g) ∧
      g.overflow = decide (1 < R.length) ∧ g.types.length = 1 ∧
      (R.length ≤ 1 → g.toVec = R) := by
  obtain ⟨h1, h2⟩ := h [] (List.replicate 1 .i32) false
  simp only [List.nil_append, List.length_nil, Nat.zero_add, List.length_replicate] at h1 h2
  rw [show maxFlatResults = 1 from rfl]
  by_cases hl : R.length ≤ 1
  · refine ⟨_, _, h1 hl, ?_, ?_, fun _ => ?_⟩
    · simp; omega
    · simp; omega
    · simp [Flat.toVec]
  · obtain ⟨g, g1, g2, g3⟩ := h2 (by omega)
    exact ⟨_, g, g1, by rw [g2]; simp; omega, g3, fun h => absurd h hl⟩

/-- The signature in terms of the symbolic flat types. -/
theorem wasmSignature_ok {types : List Kind} {d : Nat} {v : AbiVariant} {f : Func}
    {L R : List WasmType}
    (h : Pushes (pushList (f.params.map (pushFlat types d))) L)
    (hm : f.method = true → ∃ l, L = .i32 :: l)
    (hr : match f.result with
      | none => R = []
      | some ty => Pushes (pushFlat types d ty) R ∧ R ≠ []) :
    wasmSignature types d v f = some (match v with
      | .guestImport =>
        if 1 < R.length then ⟨paramsOf v f L ++ [.pointer], [], decide (maxOf v < L.length), true⟩
        else ⟨paramsOf v f L, R, decide (maxOf v < L.length), false⟩
      | .guestExport =>
        if 1 < R.length then ⟨paramsOf v f L, [.pointer], decide (maxOf v < L.length), true⟩
        else ⟨paramsOf v f L, R, decide (maxOf v < L.length), false⟩
      | .guestImportAsync =>
        if R = [] then ⟨paramsOf v f L, [.i32], decide (maxOf v < L.length), false⟩
        else ⟨paramsOf v f L ++ [.pointer], [.i32], decide (maxOf v < L.length), true⟩
      | .guestExportAsync => ⟨paramsOf v f L, [.i32], decide (maxOf v < L.length), false⟩
      | .guestExportAsyncStackful => ⟨paramsOf v f L, [], decide (maxOf v < L.length), false⟩) := by
  obtain ⟨p, hp, hlen, hcur, hle, htake⟩ := sigParams_ok (v := v) h hm
  have hvec : p.toVec = paramsOf v f L := htake
  obtain ⟨q, hq, hqv⟩ := assertPush_ok (p := p) (ty := .pointer) (by omega)
  rw [hvec] at hqv
  have hres : ∃ g, sigResults types d f.result ⟨List.replicate maxFlatResults .i32, 0, false⟩ = some g ∧
      g.overflow = decide (1 < R.length) ∧ g.types.length = 1 ∧ (R.length ≤ 1 → g.toVec = R) := by
    cases hf : f.result with
    | none => rw [hf] at hr; simp only at hr; subst hr; exact ⟨_, rfl, rfl, rfl, fun _ => rfl⟩
    | some ty =>
      rw [hf] at hr
      obtain ⟨b, g, e, e1, e2, e3⟩ := pushResult hr.1
      exact ⟨g, by simp only [sigResults, e]; rfl, e1, e2, e3⟩
  obtain ⟨g, g1, g2, g3, g4⟩ := hres
  unfold wasmSignature
  rw [hp]
  cases v with
  | guestImport =>
    simp only [Option.bind_eq_bind, Option.bind_some, g1, g2, decide_eq_true_eq]
    by_cases hR : 1 < R.length
    · simp only [hR, if_true, hq, Option.bind_some, hqv]
      simp [Flat.toVec]
    · simp only [hR, if_false, hvec, g4 (by omega)]
  | guestExport =>
    simp only [Option.bind_eq_bind, Option.bind_some, g1, g2, decide_eq_true_eq]
    by_cases hR : 1 < R.length
    · have g2' : g.overflow = true := by rw [g2]; simpa using hR
      obtain ⟨q', hq', hqv'⟩ := assertPush_ok (p := ⟨g.types, 0, true⟩) (ty := .pointer) (by simp [g3])
      simp only [hR, if_true, decide_true, hq', Option.bind_some, hvec, hqv']
      simp [Flat.toVec]
    · simp only [hR, if_false, hvec, g4 (by omega)]
  | guestImportAsync =>
    simp only [Option.bind_eq_bind, Option.bind_some]
    cases hf : f.result with
    | none =>
      rw [hf] at hr
      simp only at hr
      subst hr
      simp [Flat.assertPush, Flat.push, maxFlatResults, hvec, Flat.toVec]
      exact hvec
    | some ty =>
      rw [hf] at hr
      simp only [hr.2, if_false, Option.isSome_some, if_true, hq, Option.bind_some, hqv]
      simp [Flat.assertPush, Flat.push, maxFlatResults, Flat.toVec]
  | guestExportAsync =>
    simp [Flat.assertPush, Flat.push, maxFlatResults, hvec]
    rfl
  | guestExportAsyncStackful =>
    simp [hvec]
    rfl

end Verif.Abi
