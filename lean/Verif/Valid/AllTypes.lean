import Verif.Valid.AllSpec
import Verif.Valid.Room
import Verif.TypeList.Again
/-! # The types of a valid module are accepted -/
namespace Verif.Valid
open Verif.Reader Verif.Items
open Spec
open Verif.Op.Typing Verif.Op.View
open Verif.TypeList (TypeList Numbered Inv ModOk Src canon flat total DeclsOk Cut declsOf CGroup)
open Verif.TypeList.Spec (SubT rollAll Comp)
open Verif.TypeList.Accept (Addable withGroup idsAfter TypeOk Okay)

variable {f : Feats}

/-- Where the validator is after the groups `gs`. -/
def Stage (f : Feats) (T : TypeList) (m : List Nat) (gs : List (List (SubT Nat))) : Prop :=
  ∃ G, Inv f.types T G (total G) ∧ ModOk G m gs ∧ Numbered (rollAll gs) m (total G)

theorem declsOk_of {C : Ctx} {gs : List (List (SubT Nat))} (h : TypesOk C gs) :
    DeclsOk C.decls := by
  intro i j hij
  obtain ⟨x, hx, hj⟩ := Option.bind_eq_some_iff.1 hij
  obtain ⟨h1, y, hy, -, h2, h3⟩ := h.super i x j hx hj
  refine ⟨h1, (x.shared, x.comp.kind), ?_, ?_⟩
  · show (C.defs i).map _ = _
    rw [hx]; rfl
  · show (C.defs j).map _ = _
    rw [hy, h2, TypeList.compSub_kind h3]; rfl

theorem rollAll_prefix (gs hs : List (List (SubT Nat))) :
    ∃ es, rollAll (gs ++ hs) = rollAll gs ++ es := by
  induction hs using List.reverseRecOn with
  | nil => exact ⟨[], by simp⟩
  | append_singleton hs h ih =>
    obtain ⟨es, ih⟩ := ih
    refine ⟨es ++ TypeList.Spec.roll (rollAll (gs ++ hs)) h, ?_⟩
    rw [← List.append_assoc, TypeList.rollAll_snoc, ih, List.append_assoc]

/-- The identifiers of the first groups. -/
theorem ids_prefix {C : Ctx} {gs hs : List (List (SubT Nat))} {n : Nat}
    (h : Numbered (rollAll (gs ++ hs)) C.types n) {m : List Nat} {k : Nat}
    (hm : Numbered (rollAll gs) m k) : (∃ b, C.types = m ++ b) ∧ k ≤ n := by
  obtain ⟨es, he⟩ := rollAll_prefix gs hs
  rw [he] at h
  obtain ⟨a, b, k', h1, h2, h3⟩ := h.prefix
  obtain ⟨rfl, rfl⟩ := h2.det hm
  exact ⟨⟨b, h1⟩, h3⟩

section
variable {C : Ctx} {gs rest : List (List (SubT Nat))} {xs : List (SubT Nat)}

theorem get_flat (h : TypesOk C (gs ++ xs :: rest)) {m : List Nat}
    (hl : m.length = gs.flatten.length) {p : Nat} {x : SubT Nat} (hp : xs[p]? = some x) :
    ∃ id, C.types[m.length + p]? = some id ∧
      C.defs id = some (x.map fun r => (C.types[r]?).getD 0) := by
  refine h.defs (m.length + p) x ?_
  rw [List.flatten_append, List.getElem?_append_right (by omega), hl, Nat.add_sub_cancel_left,
    List.flatten_cons, List.getElem?_append_left (get_lt hp)]
  exact hp

theorem scope_of (h : TypesOk C (gs ++ xs :: rest)) {m : List Nat}
    (hl : m.length = gs.flatten.length) :
    ∀ x ∈ xs, ∀ r ∈ x.refs, r < m.length + xs.length := by
  intro x hx r hr
  have := h.scope gs.length xs (by simp) x hx r hr
  rw [List.take_append] at this
  simp only [Nat.add_sub_cancel_left, List.take_succ_cons, List.take_zero, List.flatten_append,
    List.flatten_cons, List.flatten_nil, List.append_nil, List.length_append,
    List.take_of_length_le (Nat.le_succ gs.length)] at this
  omega

/-- The definitions that are there are those of the context. -/
theorem defs_old (h : TypesOk C (gs ++ rest)) {G : List CGroup} {m b : List Nat}
    (hm : ModOk G m gs) (hn : Numbered (rollAll gs) m (total G)) (hb : C.types = m ++ b) :
    ∀ i, i < total G → (flat 0 G)[i]? = C.defs i := by
  intro i hi
  obtain ⟨p, hp⟩ := List.mem_iff_getElem?.1 (hn.surj i hi)
  have hpl : p < gs.flatten.length := by rw [← hm.length]; exact get_lt hp
  obtain ⟨h1, h2⟩ := hm.types p _ i (List.getElem?_eq_getElem hpl) hp
  obtain ⟨id, h3, h4⟩ := h.defs p _ (by
    rw [List.flatten_append, List.getElem?_append_left hpl]; exact List.getElem?_eq_getElem hpl)
  rw [hb, List.getElem?_append_left (get_lt hp), hp] at h3
  cases h3
  rw [h2, h4]
  congr 1
  refine TypeList.Spec.SubT.map_congr fun r hr => ?_
  rw [hb, List.getElem?_append_left (h1 r hr)]

/-- Supertypes come first. -/
theorem earlier_of (h : TypesOk C (gs ++ xs :: rest)) {m b : List Nat} {s : Nat}
    (hl : m.length = gs.flatten.length) (hb : C.types = (m ++ List.range' s xs.length) ++ b)
    (hd : ∀ x ∈ xs, x.describes = none) :
    ∀ p x, xs[p]? = some x → ∀ r, x.supertype = some r ∨ x.describes = some r →
      r < m.length + p := by
  intro p x hp r hr
  have hx : x ∈ xs := List.mem_iff_getElem?.2 ⟨p, hp⟩
  have hr : x.supertype = some r := by
    rcases hr with hr | hr
    · exact hr
    · rw [hd x hx] at hr; cases hr
  have hpl := get_lt hp
  obtain ⟨id, h1, h2⟩ := get_flat h hl hp
  have get : ∀ q, q < xs.length → C.types[m.length + q]? = some (s + q) := by
    intro q hq
    rw [hb, List.append_assoc, List.getElem?_append_right (by omega), Nat.add_sub_cancel_left,
      List.getElem?_append_left (by simpa using hq), List.getElem?_range' hq, Nat.one_mul]
  rw [get p hpl] at h1
  cases h1
  have hlt := scope_of h hl x hx r (by unfold SubT.refs; simp [hr])
  by_contra hge
  have hs := (h.super (s + p) _ ((C.types[r]?).getD 0) h2 (by
    show x.supertype.map _ = _
    rw [hr]; rfl)).1
  have := get (r - m.length) (by omega)
  rw [show m.length + (r - m.length) = r by omega] at this
  rw [this] at hs
  simp only [Option.getD_some] at hs
  omega

/-- The definitions with a new group. -/
theorem defs_new (h : TypesOk C (gs ++ xs :: rest)) {G : List CGroup} {m b : List Nat}
    (hm : ModOk G m gs) (hn : Numbered (rollAll gs) m (total G))
    (hb : C.types = (m ++ List.range' (total G) xs.length) ++ b) :
    ∀ i, i < total G + xs.length → (withGroup (flat 0 G) m xs)[i]? = C.defs i := by
  intro i hi
  unfold withGroup
  by_cases hlt : i < total G
  · rw [List.getElem?_append_left (by rwa [TypeList.flat_length])]
    exact defs_old h hm hn (hb.trans (List.append_assoc _ _ _)) i hlt
  · rw [List.getElem?_append_right (by rw [TypeList.flat_length]; omega), TypeList.flat_length,
      List.getElem?_map]
    have hp : i - total G < xs.length := by omega
    obtain ⟨id, h1, h2⟩ := get_flat h hm.length (List.getElem?_eq_getElem hp)
    have hid : id = i := by
      rw [hb, List.append_assoc, List.getElem?_append_right (by omega), Nat.add_sub_cancel_left,
        List.getElem?_append_left (by simpa using hp), List.getElem?_range' hp, Nat.one_mul] at h1
      cases h1; omega
    subst hid
    rw [h2, List.getElem?_eq_getElem hp, Option.map_some]
    congr 1
    refine TypeList.Spec.SubT.map_congr fun r hr => ?_
    have := scope_of h hm.length _ (List.getElem_mem hp) r hr
    unfold idsAfter
    rw [TypeList.flat_length, hb,
      List.getElem?_append_left (l₁ := m ++ List.range' (total G) xs.length) (by simpa using this)]

theorem withGroup_refs (h : TypesOk C (gs ++ xs :: rest)) {G : List CGroup} {m : List Nat}
    (hG : TypeList.GroupsOk G) (hm : ModOk G m gs) {i : Nat} {x : SubT Nat}
    (hx : (withGroup (flat 0 G) m xs)[i]? = some x) :
    ∀ r ∈ x.refs, r < total G + xs.length := by
  intro r hr
  unfold withGroup at hx
  by_cases hlt : i < total G
  · rw [List.getElem?_append_left (by rwa [TypeList.flat_length])] at hx
    have := ((TypeList.flat_refs hG hx).1 r hr).2
    omega
  · rw [List.getElem?_append_right (by rw [TypeList.flat_length]; omega), TypeList.flat_length,
      List.getElem?_map] at hx
    obtain ⟨y, hy, rfl⟩ := Option.map_eq_some_iff.1 hx
    rw [TypeList.Spec.SubT.refs_map] at hr
    obtain ⟨q, hq, rfl⟩ := List.mem_map.1 hr
    have hs := scope_of h hm.length y (List.mem_iff_getElem?.2 ⟨_, hy⟩) q hq
    unfold idsAfter
    by_cases hqm : q < m.length
    · rw [List.getElem?_append_left hqm, List.getElem?_eq_getElem hqm]
      have := hm.lt _ (List.getElem_mem hqm)
      simp only [Option.getD_some]
      omega
    · rw [List.getElem?_append_right (by omega), List.getElem?_range' (by omega),
        TypeList.flat_length]
      simp only [Option.getD_some]
      omega

theorem _root_.Verif.Valid.Spec.TypesFit.plain {gs : List (List (SubT Nat))}
    (hf : TypesFit f C gs) (h : TypesOk C gs) {i : Nat} {x : SubT Nat} (hx : C.defs i = some x) :
    x.descriptor = none ∧ x.describes = none := by
  obtain ⟨n, hn, hlt⟩ := hf.numbered
  obtain ⟨p, hp⟩ := List.mem_iff_getElem?.1 (hn.surj i (hlt i x hx))
  have hpl : p < gs.flatten.length := by rw [← h.length]; exact get_lt hp
  obtain ⟨id, h1, h2⟩ := h.defs p _ (List.getElem?_eq_getElem hpl)
  rw [hp] at h1
  cases h1
  rw [hx] at h2
  cases h2
  obtain ⟨-, a2, a3⟩ := hf.feats _ (List.getElem_mem hpl)
  constructor
  · show Option.map _ _ = _
    rw [a2]; rfl
  · show Option.map _ _ = _
    rw [a3]; rfl

/-- A new group of a valid module may be added. -/
theorem addable_of (h : TypesOk C (gs ++ xs :: rest)) (hf : TypesFit f C (gs ++ xs :: rest))
    {G : List CGroup} {m b : List Nat} (hG : TypeList.GroupsOk G)
    (hm : ModOk G m gs) (hn : Numbered (rollAll gs) m (total G))
    (hb : C.types = (m ++ List.range' (total G) xs.length) ++ b) :
    Addable f.types (flat 0 G) m xs := by
  have hmem : ∀ x ∈ xs, x ∈ (gs ++ xs :: rest).flatten := by
    intro x hx
    simp [hx]
  have hdefs := defs_new h hm hn hb
  have hwl : (withGroup (flat 0 G) m xs).length = total G + xs.length := by
    simp [withGroup, TypeList.flat_length]
  have hrefs : ∀ {i : Nat} {x : SubT Nat}, i < total G + xs.length → C.defs i = some x →
      ∀ r ∈ x.refs, r < total G + xs.length ∧ (C.decls.info r).isSome := by
    intro i x hi hx r hr
    rw [← hdefs i hi] at hx
    have hlt := withGroup_refs h hG hm hx r hr
    refine ⟨hlt, ?_⟩
    show ((C.defs r).map _).isSome = true
    rw [← hdefs r hlt, List.getElem?_eq_getElem (by omega)]
    rfl
  have hcut : Cut C.decls (declsOf (withGroup (flat 0 G) m xs)) (total G + xs.length) := by
    intro i hi
    constructor
    · show ((withGroup (flat 0 G) m xs)[i]?).map _ = (C.defs i).map _
      rw [hdefs i hi]
    · show ((withGroup (flat 0 G) m xs)[i]?).bind _ = (C.defs i).bind _
      rw [hdefs i hi]
  have hD := declsOk_of h
  have comp : ∀ {x : SubT Nat}, ∀ r ∈ x.comp.refs, r ∈ x.refs := by
    intro x r hr; unfold SubT.refs; simp [hr]
  have noDesc : ∀ {i : Nat} {x : SubT Nat}, total G ≤ i → i < total G + xs.length →
      C.defs i = some x →
      TypeList.Spec.SubFeats f.types x ∧ x.descriptor = none ∧ x.describes = none := by
    intro i x hge hi hx
    rw [← hdefs i hi] at hx
    unfold withGroup at hx
    rw [List.getElem?_append_right (by rw [TypeList.flat_length]; omega), TypeList.flat_length,
      List.getElem?_map] at hx
    obtain ⟨y, hy, rfl⟩ := Option.map_eq_some_iff.1 hx
    obtain ⟨a1, a2, a3⟩ := hf.feats y (hmem y (List.mem_iff_getElem?.2 ⟨_, hy⟩))
    refine ⟨(TypeList.subFeats_map _ _).2 a1, ?_, ?_⟩
    · show y.descriptor.map _ = _
      rw [a2]; rfl
    · show y.describes.map _ = _
      rw [a3]; rfl
  refine ⟨scope_of h hm.length, earlier_of h hm.length hb fun x hx => (hf.feats x (hmem x hx)).2.2,
    ?_, ?_⟩
  · intro i x hge hx
    rw [TypeList.flat_length] at hge
    have hi := get_lt hx
    rw [hwl] at hi
    rw [hdefs i hi] at hx
    obtain ⟨f1, f2, f3⟩ := noDesc hge hi hx
    refine ⟨?_, ?_, ?_, ?_, f1, by rw [f2, f3]; simp⟩
    · intro j hj
      obtain ⟨h1, y, hy, h2, h3, h4⟩ := h.super i x j hx hj
      refine ⟨y, by rw [hdefs j (by omega)]; exact hy, h2, h3, ?_⟩
      exact TypeList.compSub_cut hD hcut (fun r hr => hrefs hi hx r (comp r hr))
        (fun r hr => hrefs (by omega) hy r (comp r hr)) h4
    · intro hs
      exact TypeList.compShared_cut hcut (fun r hr => (hrefs hi hx r (comp r hr)).1)
        (h.shared i x hx hs)
    · intro j hj
      obtain ⟨y, ps, rs, hy, hc⟩ := h.cont i x j hx hj
      have := (hrefs hi hx j (comp j (by rw [hj]; simp [Comp.refs]))).1
      refine ⟨y, by rw [hdefs j this]; exact hy, by rw [hc]; rfl⟩
    · refine ⟨by rw [f2, f3]; simp, by rw [f2]; nofun, by rw [f3]; nofun, ?_⟩
      intro j y hj hy
      have hjl := get_lt hy
      rw [hwl] at hjl
      rw [hdefs j hjl] at hy
      obtain ⟨g2, g3⟩ := hf.plain h hy
      exact ⟨by rw [g2]; nofun, by rw [g3]; nofun, fun _ => f3⟩
  · intro i hge hi
    rw [TypeList.flat_length] at hge hi
    have : (withGroup (flat 0 G) m xs)[i]?.isSome := by
      rw [List.getElem?_eq_getElem (by omega)]; rfl
    rw [hdefs i hi] at this
    obtain ⟨x, hx⟩ := Option.isSome_iff_exists.1 this
    obtain ⟨d, hd, ha⟩ := hf.depth i x hx
    refine ⟨d, hd, ?_⟩
    clear hx hd hge this
    induction ha with
    | @top i x hx hs => exact .top ((hdefs i hi).trans hx) hs
    | @sub i x j d hx hs _ ih =>
      exact .sub ((hdefs i hi).trans hx) hs (ih (by
        have := (h.super i x j hx hs).1
        omega))

end

theorem Stage.add {C : Ctx} {gs rest : List (List (SubT Nat))} {xs : List (SubT Nat)}
    (hgc : f.types.gc = true)
    (h : TypesOk C (gs ++ xs :: rest)) (hf : TypesFit f C (gs ++ xs :: rest)) {T : TypeList}
    {m : List Nat} (hs : Stage f T m gs) {g : Types.RecGroup} (hg : Src g xs) :
    ∃ T' m', TypeList.addTypes f.types T m g = .ok (T', m') ∧ Stage f T' m' (gs ++ [xs]) := by
  obtain ⟨G, hi, hm, hn⟩ := hs
  have hcf : f.types.needsTypeCanonicalization = true := by
    unfold TypeList.Features.needsTypeCanonicalization; simp [hgc]
  have hnd := hi.nodup hcf
  obtain ⟨N, hN, -⟩ := hf.numbered
  have hfew := hf.few
  simp only [List.flatten_append, List.length_append, List.flatten_cons] at hfew
  have hml := hm.length
  have htot : total G ≤ m.length := hn.le
  have hN' : Numbered (rollAll ((gs ++ [xs]) ++ rest)) C.types N := by simpa using hN
  have hd : ∀ x ∈ xs, x.describes = none := fun x hx => (hf.feats x (by simp [hx])).2.2
  have hok : Okay (TypeList.addTypes f.types T m g) := by
    by_cases hin : xs.map (SubT.map (canon m)) ∈ G
    · obtain ⟨k, hk⟩ := List.mem_iff_getElem?.1 hin
      obtain ⟨⟨b, hb⟩, -⟩ := ids_prefix hN' (TypeList.numbered_old hi.gok hnd hm hn hk)
      exact TypeList.Accept.add_ok' hgc hi hm.lt hg (by omega)
        (by show _ ≤ 1000000; omega) (scope_of h hml)
        (earlier_of h hml hb hd) fun hc => absurd hin hc
    · obtain ⟨⟨b, hb⟩, -⟩ := ids_prefix hN' (TypeList.numbered_new hi.gok hnd hm hn hin)
      exact TypeList.Accept.add_ok' hgc hi hm.lt hg (by omega)
        (by show _ ≤ 1000000; omega) (scope_of h hml)
        (earlier_of h hml hb hd) fun _ => addable_of h hf hi.gok hm hn hb
  obtain ⟨⟨T', m'⟩, hok⟩ := hok
  refine ⟨T', m', hok, ?_⟩
  have hlen := (addTypes_len hok).2
  rw [hg.1.length_eq] at hlen
  obtain ⟨H, h1, h2, h3⟩ := TypeList.added_cases hgc hi hm hg (by omega) hok hlen
  refine ⟨H, h1, h2, ?_⟩
  rcases h3 with ⟨k, hk, rfl, h4⟩ | ⟨hk, rfl, h4⟩
  · rw [h4]; exact TypeList.numbered_old hi.gok hnd hm hn hk
  · rw [h4]; exact TypeList.numbered_new hi.gok hnd hm hn hk

/-- All groups. -/
theorem types_run {C : Ctx} (hgc : f.types.gc = true) {xs : List Types.RecGroup} :
    ∀ {rest gs : List (List (SubT Nat))} {T : TypeList} {s : ModuleState},
    TypesOk C (gs ++ rest) → TypesFit f C (gs ++ rest) → List.Forall₂ Src xs rest →
    Typed f T s.m.types gs → Stage f T s.m.types gs → s.owned = true →
    ∃ T' ts, fold (addTypes f) xs (T, s) = .ok (T', { s with m := { s.m with types := ts } }) ∧
      Typed f T' ts (gs ++ rest) ∧ Stage f T' ts (gs ++ rest) := by
  induction xs with
  | nil =>
    intro rest gs T s _ _ hx ht hs _
    cases hx
    exact ⟨T, s.m.types, rfl, by simpa using ht, by simpa using hs⟩
  | cons g xs ih =>
    intro rest gs T s h hf hx ht hs ho
    cases hx with
    | @cons _ y _ rest hy hx =>
      obtain ⟨T1, m1, h1, h2⟩ := hs.add hgc h hf hy
      have e1 : addTypes f (T, s) g = .ok (T1, { s with m := { s.m with types := m1 } }) := by
        show (s.assertMut >>= fun _ => ofList (TypeList.addTypes f.types T s.m.types g) >>= fun y =>
          pure (y.1, { s with m := { s.m with types := y.2 } })) = _
        rw [h1]
        unfold ModuleState.assertMut
        rw [if_pos ho]
        rfl
      obtain ⟨T', ts, h3, h4, h5⟩ := ih (rest := rest) (gs := gs ++ [y])
        (s := { s with m := { s.m with types := m1 } }) (by simpa using h) (by simpa using hf) hx
        (ht.add hy h1) h2 ho
      refine ⟨T', ts, ?_, by simpa using h4, by simpa using h5⟩
      show (addTypes f (T, s) g >>= fun s => fold (addTypes f) xs s) = _
      rw [e1]
      exact h3

/-- The identifiers and definitions are those of the context. -/
theorem Stage.done {C : Ctx} {gs : List (List (SubT Nat))} {T : TypeList} {m : List Nat}
    (hs : Stage f T m gs) (h : TypesOk C gs) (hf : TypesFit f C gs) :
    C.types = m ∧ ∀ i, C.defs i = (listOf T)[i]? := by
  obtain ⟨G, hi, hm, hn⟩ := hs
  obtain ⟨N, hN, hlt⟩ := hf.numbered
  obtain ⟨rfl, rfl⟩ := hN.det hn
  refine ⟨rfl, fun i => ?_⟩
  rw [listOf_of hi.toStatic.view]
  by_cases hi' : i < total G
  · exact (defs_old (rest := []) (by simpa using h) hm hn (b := []) (by simp) i hi').symm
  · rw [List.getElem?_eq_none (by rw [TypeList.flat_length]; omega)]
    cases hd : C.defs i with
    | none => rfl
    | some x => exact absurd (hlt i x hd) hi'

end Verif.Valid
