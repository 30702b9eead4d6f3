import Verif.Valid.Loops
import Verif.TypeList.Parsed
/-! # The type section -/
namespace Verif.Valid
open Verif.Reader Verif.Items
open Spec
open Verif.Op.Typing Verif.Op.View
open Verif.TypeList (TypeList Reaches groupsOf ModOk DSub Src)
open Verif.TypeList.Spec (SubT rollAll)

variable {f : Feats}

/-- The list of types comes from a history in which the groups `gs` were added to a module, whose
types now have the identifiers `ts`. -/
def Typed (f : Feats) (T : TypeList) (ts : List Nat) (gs : List (List (SubT Nat))) : Prop :=
  ∃ ops os s, ∃ n : Nat, Reaches f.types ops os s ∧ s.types = T ∧ s.modules[n]? = some ts ∧
    (groupsOf os)[n]? = some gs

theorem Typed.hist {T : TypeList} {m : Op.Module} {gs : List (List (SubT Nat))}
    (h : Typed f T m.types gs) (hl : T.coreTypes.length ≤ 2 ^ 20) (ht : TagsOk (listOf T) m) :
    Hist f T m := by
  obtain ⟨ops, os, s, n, h1, h2, h3, -⟩ := h
  exact ⟨⟨ops, os, s, n, h1, h2, h3⟩, hl, ht⟩

theorem run_append {f : TypeList.Features} {s : TypeList.State} {a b : List TypeList.Op} :
    TypeList.run f s (a ++ b) = (TypeList.run f s a >>= fun s => TypeList.run f s b) := by
  induction a generalizing s with
  | nil => rfl
  | cons op a ih =>
    show (TypeList.step f s op >>= fun s => TypeList.run f s (a ++ b)) = _
    show _ = ((TypeList.step f s op >>= fun s => TypeList.run f s a) >>= fun s => TypeList.run f s b)
    cases TypeList.step f s op with
    | error e => rfl
    | ok s1 => exact ih

theorem reaches_snoc {f : TypeList.Features} {ops os s op o s'} (h : Reaches f ops os s)
    (ho : TypeList.OpIs op o) (hs : TypeList.step f s op = .ok s') :
    Reaches f (ops ++ [op]) (os ++ [o]) s' := by
  refine ⟨List.rel_append h.1 (.cons ho .nil), ?_⟩
  rw [run_append, h.2]
  show (TypeList.step f s op >>= fun s => TypeList.run f s []) = _
  rw [hs]
  rfl

/-- A new module has no types. -/
theorem typed_new {ops os s} (h : Reaches f.types ops os s) : Typed f s.types [] [] := by
  obtain ⟨G, -, hm⟩ := h.inv
  refine ⟨ops ++ [.newModule], os ++ [.newModule], { s with modules := s.modules ++ [[]] },
    s.modules.length, reaches_snoc h (op := .newModule) (o := .newModule) trivial rfl, rfl, ?_, ?_⟩
  · exact List.getElem?_concat_length
  · unfold groupsOf at hm ⊢
    rw [List.foldl_append, hm.length_eq]
    exact List.getElem?_concat_length

theorem Typed.add {T T' : TypeList} {ts ts' : List Nat} {gs : List (List (SubT Nat))}
    (h : Typed f T ts gs) {g : Types.RecGroup} {xs : List (SubT Nat)} (hg : Src g xs)
    (ha : TypeList.addTypes f.types T ts g = .ok (T', ts')) : Typed f T' ts' (gs ++ [xs]) := by
  obtain ⟨ops, os, s, n, h1, rfl, h3, h4⟩ := h
  refine ⟨_, _, { types := T', modules := s.modules.set n ts' }, n,
    reaches_snoc h1 (op := .add n g) (o := .add n xs) ⟨rfl, hg⟩ ?_, rfl, ?_, ?_⟩
  · show (TypeList.unwrap s.modules[n]? >>= fun m => TypeList.addTypes f.types s.types m g >>=
      fun y => pure (⟨y.1, s.modules.set n y.2⟩ : TypeList.State)) = _
    rw [h3]
    show (TypeList.addTypes f.types s.types ts g >>=
      fun y => pure (⟨y.1, s.modules.set n y.2⟩ : TypeList.State)) = _
    rw [ha]
    rfl
  · exact List.getElem?_set_self (get_lt h3)
  · unfold groupsOf at h4 ⊢
    rw [List.foldl_append]
    show (List.modify _ n _)[n]? = _
    rw [List.getElem?_modify, h4]
    simp

/-! ## Parameters -/

/-- At most 1000 parameters. -/
def FewParams (x : SubT Nat) : Prop := ∀ ps rs, x.comp = .func ps rs → ps.length ≤ 1000

theorem few_sub {t : Types.SubType} {e : Types.Enc.SubType} (h : t.Is e) (hf : e.Fits)
    {x : SubT Nat} (hx : DSub t (x.map TypeList.modIdx)) : FewParams x := by
  intro ps rs hc
  obtain ⟨-, -, hi, -⟩ := h
  obtain ⟨-, -, -, hf⟩ := hf
  obtain ⟨-, -, -, -, -, hx⟩ := hx
  have hx : TypeList.DComp t.compositeType.inner (x.comp.map TypeList.modIdx) := hx
  rw [hc] at hx
  cases h1 : t.compositeType.inner with
  | func ft =>
    rw [h1] at hx hi
    cases h2 : e.compositeType.inner with
    | func fe =>
      rw [h2] at hi hf
      obtain ⟨h3, -, h5⟩ := hi
      have h6 : ft.lenParams = (ps.map _).length := hx.2
      have := h3.length_eq
      unfold Types.FuncType.params at this
      rw [List.length_take, Nat.min_eq_left h5] at this
      have := hf.1
      rw [List.length_map] at h6
      omega
    | _ => rw [h2] at hi; exact hi.elim
  | _ => rw [h1] at hx; exact hx.elim

theorem few_list {ts : List Types.SubType} {es : List Types.Enc.SubType} {xs : List (SubT Nat)}
    (h : List.Forall₂ Types.SubType.Is ts es) (hf : ∀ e ∈ es, e.Fits)
    (hx : List.Forall₂ (fun (t : Types.SubType) (x : SubT Nat) => DSub t (x.map TypeList.modIdx)) ts xs) :
    ∀ x ∈ xs, FewParams x := by
  induction h generalizing xs with
  | nil => cases hx; exact nofun
  | @cons t e ts es h1 _ ih =>
    cases hx with
    | @cons _ x _ xs h2 h3 =>
      intro y hy
      rcases List.mem_cons.1 hy with rfl | hy
      · exact few_sub h1 (hf e (by simp)) h2
      · exact ih (fun e he => hf e (by simp [he])) h3 y hy

theorem group_few {r r' : Reader} {g : Types.RecGroup} {xs : List (SubT Nat)}
    (h : Types.readRecGroup r = .ok (g, r')) (hs : Src g xs) : ∀ x ∈ xs, FewParams x := by
  obtain ⟨hs, -⟩ := hs
  rcases Types.yields_recGroup _ _ _ h with ⟨o, t, e, rfl, h1, h2⟩ | ⟨ts, es, rfl, h1, h2, h3⟩
  · exact few_list (ts := [t]) (es := [e]) (.cons h1 .nil) (by simpa using h2) hs
  · exact few_list h1 h3 hs

/-! ## The section -/

theorem types_ok {xs : List Types.RecGroup}
    (hr : ∀ g ∈ xs, ∃ r r', Types.readRecGroup r = .ok (g, r')) :
    ∀ {T T' : TypeList} {s s' : ModuleState} {gs : List (List (SubT Nat))},
    Typed f T s.m.types gs → fold (addTypes f) xs (T, s) = .ok (T', s') →
    ∃ ys ts, List.Forall₂ Src xs ys ∧ s' = { s with m := { s.m with types := ts } } ∧
      Typed f T' ts (gs ++ ys) ∧ ∀ y ∈ ys.flatten, FewParams y := by
  induction xs with
  | nil =>
    intro T T' s s' gs ht h
    cases h
    exact ⟨[], s.m.types, .nil, rfl, by simpa using ht, nofun⟩
  | cons g xs ih =>
    intro T T' s s' gs ht h
    obtain ⟨⟨T1, s1⟩, h1, h2⟩ := fold_cons h
    obtain ⟨_, h3, h1⟩ := bind_ok h1
    obtain ⟨⟨T2, ts⟩, h4, h1⟩ := bind_ok h1
    cases pure_ok h1
    obtain ⟨r, r', hg⟩ := hr g (by simp)
    obtain ⟨y, hy⟩ := TypeList.src_group r r' g hg
    have ht1 := ht.add hy (ofList_ok h4)
    obtain ⟨ys, ts', h5, rfl, h6, h7⟩ := ih (fun g hg => hr g (by simp [hg]))
      (s := { s with m := { s.m with types := ts } }) ht1 h2
    refine ⟨y :: ys, ts', .cons hy h5, rfl, by simpa using h6, ?_⟩
    intro z hz
    rw [List.flatten_cons, List.mem_append] at hz
    rcases hz with hz | hz
    · exact group_few hg hy z hz
    · exact h7 z hz

/-! ## What a valid type section means -/

theorem modOk_scope {G : List TypeList.CGroup} {m : List Nat} {gs : List (List (SubT Nat))}
    (h : ModOk G m gs) : ∀ (k : Nat) g, gs[k]? = some g → ∀ x ∈ g, ∀ r ∈ x.refs,
      r < (gs.take (k + 1)).flatten.length := by
  induction h with
  | nil => intro k g hg; simp at hg
  | @snoc m gs k xs h1 h2 h3 ih =>
    intro j g hg x hx r hr
    by_cases hj : j < gs.length
    · rw [List.getElem?_append_left hj] at hg
      rw [List.take_append_of_le_length (by omega)]
      exact ih j g hg x hx r hr
    · have hlt := get_lt hg
      simp only [List.length_append, List.length_singleton] at hlt
      obtain rfl : j = gs.length := by omega
      rw [List.getElem?_concat_length] at hg
      cases hg
      rw [List.take_of_length_le (by simp)]
      have := h3 x hx r hr
      rw [h1.length] at this
      simpa using this

theorem Typed.typesOk {T : TypeList} {m : Op.Module} {gs : List (List (SubT Nat))}
    (h : Typed f T m.types gs) : TypesOk (ctxOf (listOf T) m) gs := by
  obtain ⟨ops, os, s, n, h1, rfl, h3, h4⟩ := h
  obtain ⟨L, hL⟩ := TypeList.reaches_view h1
  rw [listOf_of hL]
  obtain ⟨G, ⟨hi, hms⟩, -⟩ := h1.view hL
  have o : ModOk G m.types gs := by
    rcases TypeList.forall₂_get hms n with ⟨h5, _⟩ | ⟨m', gs', h5, h6, h7⟩
    · rw [h5] at h3; cases h3
    · rw [h3] at h5; rw [h4] at h6; cases h5; cases h6; exact h7
  refine ⟨o.length, modOk_scope o, ?_, ?_, ?_, ?_, ?_⟩
  · intro i x hx
    exact (TypeList.c23_types h1 hL h3 h4 i x hx).2
  · intro i j hi' he
    have roll : ∀ (i id : Nat), m.types[i]? = some id →
        (rollAll gs)[i]? = (TypeList.closeAll G)[id]? := by
      intro i id hid
      have := congrArg (fun l => l[i]?) (o.close hi.gok)
      simp only [List.getElem?_map, hid, Option.map_some] at this
      have hlt := o.lt id (List.mem_iff_getElem?.2 ⟨i, hid⟩)
      rw [← TypeList.closeAll_length] at hlt
      rw [List.getElem?_eq_getElem hlt] at this ⊢
      cases h3 : (rollAll gs)[i]? with
      | none => rw [h3] at this; cases this
      | some d => rw [h3] at this; simpa using this
    have he : m.types[i]? = m.types[j]? := he
    have hi' : i < m.types.length := hi'
    rw [roll i _ (List.getElem?_eq_getElem hi'),
      roll j _ (he ▸ List.getElem?_eq_getElem hi')]
  · intro id x j hx hj
    exact TypeList.c41_declared h1 hL hx hj
  · intro id x hx
    exact (TypeList.c43_shared h1 hL hx).1
  · intro id x j hx hj
    exact (TypeList.c43_shared h1 hL hx).2 j hj

theorem Typed.few {T : TypeList} {m : Op.Module} {gs : List (List (SubT Nat))}
    (h : Typed f T m.types gs) (hf : ∀ x ∈ gs.flatten, FewParams x) {i : BitVec 32} {x : SubT Nat}
    (hx : (ctxOf (listOf T) m).type i = some x) : FewParams x := by
  have ht := h.typesOk
  unfold Ctx.type at hx
  obtain ⟨id, h1, h2⟩ := Option.bind_eq_some_iff.1 hx
  have hlt : i.toNat < gs.flatten.length := by
    rw [← ht.length]
    exact get_lt h1
  obtain ⟨id', h3, h4⟩ := ht.defs i.toNat _ (List.getElem?_eq_getElem hlt)
  rw [h1] at h3
  cases h3
  rw [h2] at h4
  cases h4
  intro ps rs hc
  have hfew := hf _ (List.getElem_mem hlt)
  revert hfew hc
  generalize gs.flatten[i.toNat] = z
  intro hc hfew
  have hc : z.comp.map _ = .func ps rs := hc
  cases hz : z.comp with
  | func ps' rs' =>
    rw [hz] at hc
    cases hc
    have := hfew ps' rs' hz
    simpa using this
  | _ => rw [hz] at hc; cases hc

end Verif.Valid
