import Verif.Valid.CalmAdd
import Verif.Valid.Room
/-! # The type section is validated without panics -/
namespace Verif.Valid
open Verif.Reader Verif.Items
open Verif.Op.Calm
open Verif.Op.Typing Verif.Op.View
open Verif.Std (BSearch)
open Verif.TypeList (TypeList DSub Src)
open Verif.TypeList.Spec (SubT)

variable {f : Feats} {bs : BSearch} {T : TypeList} {s : ModuleState}

/-! ## Parameters and results -/

theorem small_sub {t : Types.SubType} {e : Types.Enc.SubType} (h : t.Is e) (hf : e.Fits)
    {x : SubT Nat} (hx : DSub t (x.map TypeList.modIdx)) : SmallType x := by
  intro ps rs hc
  refine ⟨few_sub h hf hx ps rs hc, ?_⟩
  obtain ⟨-, -, hi, -⟩ := h
  obtain ⟨-, -, -, hf⟩ := hf
  obtain ⟨-, -, -, -, -, hx⟩ := hx
  have hx : TypeList.DComp t.compositeType.inner (x.comp.map TypeList.modIdx) := hx
  rw [hc] at hx
  cases h1 : t.compositeType.inner with
  | func ft =>
    rw [h1] at hx hi
    cases h2 : e.compositeType.inner with
    | func fe =>
      rw [h2] at hi hf
      obtain ⟨-, h4, -⟩ := hi
      have h6 : ft.lenParams = (ps.map _).length := hx.2
      have h7 := hx.1.length_eq
      have h8 := h4.length_eq
      unfold Types.FuncType.results at h8
      have := hf.2.1
      simp only [List.length_drop, List.length_append, List.length_map] at h6 h7 h8
      omega
    | _ => rw [h2] at hi; exact hi.elim
  | _ => rw [h1] at hx; exact hx.elim

theorem small_list {ts : List Types.SubType} {es : List Types.Enc.SubType} {xs : List (SubT Nat)}
    (h : List.Forall₂ Types.SubType.Is ts es) (hf : ∀ e ∈ es, e.Fits)
    (hx : List.Forall₂ (fun (t : Types.SubType) (x : SubT Nat) => DSub t (x.map TypeList.modIdx)) ts xs) :
    ∀ x ∈ xs, SmallType x := by
  induction h generalizing xs with
  | nil => cases hx; exact nofun
  | @cons t e ts es h1 _ ih =>
    cases hx with
    | @cons _ x _ xs h2 h3 =>
      intro y hy
      rcases List.mem_cons.1 hy with rfl | hy
      · exact small_sub h1 (hf e (by simp)) h2
      · exact ih (fun e he => hf e (by simp [he])) h3 y hy

theorem group_small {r r' : Reader} {g : Types.RecGroup} {xs : List (SubT Nat)}
    (h : Types.readRecGroup r = .ok (g, r')) (hs : Src g xs) : ∀ x ∈ xs, SmallType x := by
  obtain ⟨hs, -⟩ := hs
  rcases Types.yields_recGroup _ _ _ h with ⟨o, t, e, rfl, h1, h2⟩ | ⟨ts, es, rfl, h1, h2, h3⟩
  · exact small_list (ts := [t]) (es := [e]) (.cons h1 .nil) (by simpa using h2) hs
  · exact small_list h1 h3 hs

theorem Typed.small {m : Op.Module} {gs : List (List (SubT Nat))}
    (h : Typed f T m.types gs) (hf : ∀ x ∈ gs.flatten, SmallType x) :
    ∀ id ∈ m.types, ∀ x, (listOf T)[id]? = some x → SmallType x := by
  intro id hid x hx
  obtain ⟨i, hi⟩ := List.mem_iff_getElem?.1 hid
  have ht := h.typesOk
  have hlt : i < gs.flatten.length := by
    rw [← ht.length]
    exact get_lt hi
  obtain ⟨id', h3, h4⟩ := ht.defs i _ (List.getElem?_eq_getElem hlt)
  have h3 : m.types[i]? = some id' := h3
  rw [hi] at h3
  cases h3
  have h4 : (listOf T)[id]? = _ := h4
  rw [hx] at h4
  cases h4
  intro ps rs hc
  have hs := hf _ (List.getElem_mem hlt)
  revert hs hc
  generalize gs.flatten[i] = z
  intro hc hs
  have hc : z.comp.map _ = .func ps rs := hc
  cases hz : z.comp with
  | func ps' rs' =>
    rw [hz] at hc
    cases hc
    have := hs ps' rs' hz
    simpa using this
  | _ => rw [hz] at hc; cases hc

/-! ## The loop -/

/-- A module with only types; the list has at most `n` other types. -/
structure Young (f : Feats) (n : Nat) (T : TypeList) (s : ModuleState) : Prop where
  typed : ∃ gs, Typed f T s.m.types gs ∧ ∀ x ∈ gs.flatten, SmallType x
  len : T.coreTypes.length ≤ n + s.m.types.length
  max : s.m.types.length ≤ 1000000
  only : s = { ModuleState.new with m := { ModuleState.new.m with types := s.m.types } }

theorem young_new {ops os z} (h : TypeList.Reaches f.types ops os z) :
    Young f z.types.coreTypes.length z.types .new :=
  ⟨⟨[], typed_new h, nofun⟩, Nat.le_add_right _ _, Nat.zero_le _, rfl⟩

theorem add_calm {ts : List Nat} {gs : List (List (SubT Nat))} {g : Types.RecGroup}
    {xs : List (SubT Nat)} (h : Typed f T ts gs) (hg : Src g xs)
    (hr : T.coreTypes.length + xs.length ≤ 2 ^ 20) :
    TypeList.addTypes f.types T ts g ≠ .error .panic ∧
      TypeList.addTypes f.types T ts g ≠ .error .diverges := by
  obtain ⟨ops, os, s, n, h1, rfl, h3, -⟩ := h
  have hc := TypeList.c42_no_panic_partial h1 (op := .add n g) (o := .add n xs) ⟨rfl, hg⟩
    ⟨get_lt h3, hr⟩
  have e : TypeList.step f.types s (.add n g) = (TypeList.addTypes f.types s.types ts g >>=
      fun y => pure (⟨y.1, s.modules.set n y.2⟩ : TypeList.State)) := by
    show (TypeList.unwrap s.modules[n]? >>= fun m => TypeList.addTypes f.types s.types m g >>=
      fun y => pure (⟨y.1, s.modules.set n y.2⟩ : TypeList.State)) = _
    rw [h3]
    rfl
  rw [e] at hc
  refine ⟨fun he => hc.1 ?_, fun he => hc.2 ?_⟩ <;> rw [he] <;> rfl

theorem require_false {ts : List Nat} {g : Types.RecGroup}
    (h : ¬ ts.length + g.types.length ≤ 1000000) (hm : ts.length ≤ 1000000) :
    ∃ e, TypeList.addTypes f.types T ts g = .error (.error e) := by
  unfold TypeList.addTypes TypeList.require
  have hw : Verif.Types.maxWasmTypes = 1000000 := rfl
  rw [if_neg (by rw [decide_eq_true_eq]; omega)]
  exact ⟨_, rfl⟩

theorem addTypes_calm {n : Nat} (hn : n + 1000000 ≤ 2 ^ 20) {g : Types.RecGroup}
    (hg : ∃ r r', Types.readRecGroup r = .ok (g, r')) (h : Young f n T s) :
    NoPanic (addTypes f (T, s) g) fun x => Young f n x.1 x.2 := by
  obtain ⟨⟨gs, ht, hs⟩, hl, hm, ho⟩ := h
  obtain ⟨r, r', hg⟩ := hg
  obtain ⟨y, hy⟩ := TypeList.src_group r r' g hg
  have hyl := hy.1.length_eq
  refine (assertMut_calm (by rw [ho]; rfl)).bind fun _ _ _ => ?_
  by_cases hc : s.m.types.length + g.types.length ≤ 1000000
  · have hp := add_calm ht hy (by omega)
    refine (ofList_calm (Q := fun a => TypeList.addTypes f.types T s.m.types g = .ok a) hp.1 hp.2
      fun _ h => h).bind fun z _ hz => .pure ?_
    obtain ⟨T', ts'⟩ := z
    have ht1 := ht.add hy hz
    have b1 := (Typed.typesOk (m := s.m) ht).length
    have b2 := (Typed.typesOk (m := { s.m with types := ts' }) ht1).length
    have b1 : s.m.types.length = gs.flatten.length := b1
    have b2 : ts'.length = (gs ++ [y]).flatten.length := b2
    have b4 := (addTypes_len hz).2
    simp only [List.flatten_append, List.length_append, List.flatten_cons, List.flatten_nil,
      List.length_nil] at b2
    refine ⟨⟨gs ++ [y], ht1, ?_⟩, ?_, ?_, ?_⟩
    · intro z hz
      rw [List.flatten_append, List.mem_append] at hz
      rcases hz with hz | hz
      · exact hs z hz
      · exact group_small hg hy z (by simpa using hz)
    · show T'.coreTypes.length ≤ n + ts'.length
      omega
    · show ts'.length ≤ _
      omega
    · show { s with m := { s.m with types := ts' } } = _
      rw [ho]
  · obtain ⟨e, he⟩ := require_false (f := f) (T := T) hc hm
    rw [he]
    exact .err

theorem Young.inv {n : Nat} (hn : n + 1000000 ≤ 2 ^ 20) (h : Young f n T s) :
    Inv f T ⟨true, none, none, 0⟩ s := by
  obtain ⟨⟨gs, ht, hs⟩, hl, hm, ho⟩ := h
  have e1 : s.m.tags = [] := by rw [ho]; rfl
  have e2 : s.m.globals = [] := by rw [ho]; rfl
  have e3 : s.m.tables = [] := by rw [ho]; rfl
  have e4 : s.m.elementTypes = [] := by rw [ho]; rfl
  have e5 : s.m.functions = [] := by rw [ho]; rfl
  have e6 : s.m.numImportedFunctions = 0 := by rw [ho]; rfl
  refine ⟨⟨ht.hist (by omega) ?_, ⟨?_, ?_, ?_, ?_⟩, ht.small hs, ?_⟩, ?_, ?_, ?_, ?_⟩
  · intro id hid; rw [e1] at hid; cases hid
  · intro id hid; rw [e2] at hid; cases hid
  · intro id hid; rw [e3] at hid; cases hid
  · intro id hid; rw [e4] at hid; cases hid
  · intro id hid; rw [e5] at hid; cases hid
  · intro id hid; rw [e1] at hid; cases hid
  · rw [ho]; rfl
  · rw [ho]; rfl
  · rw [ho]; rfl
  · rw [e5, e6]; rfl

/-! ## The function section -/

/-- Loops with an invariant that counts the items. -/
theorem NoPanic.eachCount {α σ : Type} {item : R α} {g : σ → α → X σ} {I : Nat → σ → Prop}
    (h : ∀ j s a, I j s → NoPanic (g s a) (I (j + 1))) :
    ∀ (n j : Nat) (r : Reader) (s : σ), I j s → NoPanic (Valid.eachFrom item g n r s) (I (j + n))
  | 0, _, _, _, hs => NoPanic.need.bind fun _ _ _ => .pure hs
  | n + 1, j, r, s, hs => NoPanic.ofRead.bind fun x _ _ =>
    (h j s x.1 hs).bind fun s' _ hs' => by
      have := NoPanic.eachCount (item := item) h n (j + 1) x.2 s' hs'
      rwa [Nat.add_assoc, Nat.add_comm 1 n] at this

end Verif.Valid
