import Verif.TypeList.HistSpec
/-! # The invariant holds throughout a history -/
namespace Verif.TypeList
open Verif.Types
open Spec (SubT Comp Heap Ref Val Storage Field Kind Decls CompSub Comp.kind)

variable {sz : Prop} {f : Features}

/-- The invariant of a validator. -/
def HInv (f : Features) (s : State) (ms : List (List (List (SubT Nat)))) (G : List CGroup) :
    Prop := Inv f s.types G (total G) ∧ List.Forall₂ (ModOk G) s.modules ms

theorem step_spec {s : State} {ms : List (List (List (SubT Nat)))} {G : List CGroup}
    (h : HInv f s ms G) {op : Op} {o : SrcOp} (ho : OpIs op o) (hz : sz → Room s o) :
    Res sz (step f s op) fun s' => ∃ G', HInv f s' (groupsStep ms o) (G ++ G') := by
  obtain ⟨hi, hm⟩ := h
  cases op with
  | newModule =>
    cases o with
    | add => exact ho.elim
    | newModule =>
      refine .pure ⟨[], by simpa using hi, ?_⟩
      simp only [List.append_nil]
      exact List.rel_append hm (.cons .nil .nil)
  | add n g =>
    cases o with
    | newModule => exact ho.elim
    | add n' xs =>
      obtain ⟨rfl, hg⟩ := ho
      unfold step
      rcases forall₂_get hm n with ⟨h1, _⟩ | ⟨m, gs, h1, h2, h3⟩
      · refine ⟨?_, ?_⟩
        · intro a ha; simp [h1, unwrap] at ha
        · intro _ z
          have := (hz z).1
          rw [List.getElem?_eq_none_iff] at h1
          omega
      · simp only [h1, unwrap, ok_bind]
        refine (addTypes_spec hi h3.lt hg fun z => by
          have := (hz z).2; rwa [hi.toStatic.length] at this).bind ?_
        rintro ⟨T', m'⟩ ⟨G', k, a1, a2, a3, a4⟩
        refine .pure ⟨G', a1, ?_⟩
        simp only [groupsStep]
        simp only at a3
        subst a3
        have : ∀ (l : List (List Nat)) (l' : List (List (List (SubT Nat)))) (n : Nat),
            List.Forall₂ (ModOk G) l l' → l[n]? = some m → l'[n]? = some gs →
            List.Forall₂ (ModOk (G ++ G')) (l.set n (m ++ List.range' (startOf (G ++ G') k) xs.length))
              (l'.modify n (· ++ [xs])) := by
          intro l l' n hl
          induction hl generalizing n with
          | nil => simp
          | cons h5 h6 ih =>
            cases n with
            | zero =>
              intro e1 e2
              simp at e1 e2
              subst e1; subst e2
              simp only [List.set_cons_zero, List.modify_zero_cons]
              exact .cons (.snoc (h5.mono G') a2 a4) (h6.imp fun _ _ h => h.mono G')
            | succ n =>
              intro e1 e2
              simp only [List.set_cons_succ, List.modify_succ_cons]
              exact .cons (h5.mono G') (ih n (by simpa using e1) (by simpa using e2))
        exact this _ _ _ hm h1 h2

theorem run_spec {s s' : State} {ms : List (List (List (SubT Nat)))} {G : List CGroup}
    (h : HInv f s ms G) {ops : List Op} {os : List SrcOp} (ho : List.Forall₂ OpIs ops os)
    (hr : run f s ops = .ok s') : ∃ G', HInv f s' (os.foldl groupsStep ms) (G ++ G') := by
  induction ho generalizing s ms G with
  | nil => cases hr; exact ⟨[], by simpa using h⟩
  | @cons op o ops os h1 _ ih =>
    unfold run at hr
    cases hs : step f s op with
    | error e => rw [hs] at hr; cases hr
    | ok s1 =>
      rw [hs] at hr
      obtain ⟨G1, h2⟩ := (step_spec (sz := False) h h1 nofun).1 s1 hs
      obtain ⟨G2, h3⟩ := ih h2 hr
      exact ⟨G1 ++ G2, by rw [← List.append_assoc]; exact h3⟩

theorem Reaches.inv {ops : List Op} {os : List SrcOp} {s : State} (h : Reaches f ops os s) :
    ∃ G, HInv f s (groupsOf os) G := by
  obtain ⟨G, hG⟩ := run_spec (G := []) (ms := []) ⟨Inv.init f, .nil⟩ h.1 h.2
  exact ⟨G, hG⟩

/-! ## The view -/

theorem Static.view {T : TypeList} {G : List CGroup} (h : Static f T G) : View T (flat 0 G) := by
  refine ⟨h.types, fun x hx r hr => ?_⟩
  obtain ⟨i, hi⟩ := List.mem_iff_getElem?.1 hx
  rw [flat_length]
  exact (flat_refs h.gok hi).1 r hr

theorem View.unique {T : TypeList} {L L' : List (SubT Nat)} (h : View T L) (h' : View T L') :
    L = L' := by
  obtain ⟨h1, h2⟩ := h
  obtain ⟨h3, h4⟩ := h'
  generalize hn : L.length = n at h2
  generalize hn' : L'.length = n' at h4
  clear hn hn'
  generalize T.coreTypes = l at h1 h3
  induction h1 generalizing L' with
  | nil => cases h3; rfl
  | @cons t x l L ht _ ih =>
    cases h3 with
    | cons ht' h3 =>
      rw [ih (fun y hy => h2 y (by simp [hy])) (fun y hy => h4 y (by simp [hy])) h3]
      congr 1
      have := DSub.right ht ht'
      exact SubT.map_inj (fun r hr s hs e => idx_inj (h2 x (by simp) r hr).1
        (h4 _ (by simp) s hs).1 e) this

theorem compSub_kind {D : Decls} {a b : Comp Nat} (h : CompSub D a b) : a.kind = b.kind := by
  cases h <;> rfl

theorem Inv.declsOk {T : TypeList} {G : List CGroup} (h : Inv f T G (total G)) :
    DeclsOk (declsG G) := by
  intro i j hij
  simp only [declsG, Option.bind_eq_some_iff] at hij
  obtain ⟨x, hx, hj⟩ := hij
  refine ⟨(flat_refs h.gok hx).2 j hj, (x.shared, x.comp.kind), ?_, ?_⟩
  · simp [declsG, hx]
  · obtain ⟨y, d, hy, _, h3, h4, _⟩ := (h.sub i x (flat_lt hx) hx).2.1 j hj
    simp [declsG, hy, h3, compSub_kind h4]

theorem declsOf_flat (G : List CGroup) : declsOf (flat 0 G) = declsG G := rfl

/-- Everything about a reachable state, in terms of its view. -/
theorem Reaches.view {ops : List Op} {os : List SrcOp} {s : State} (h : Reaches f ops os s)
    {L : List (SubT Nat)} (hL : View s.types L) :
    ∃ G, HInv f s (groupsOf os) G ∧ L = flat 0 G := by
  obtain ⟨G, hG⟩ := h.inv
  exact ⟨G, hG, hL.unique hG.1.toStatic.view⟩

/-- The types of a module, in the list. -/
theorem ModOk.types {G : List CGroup} {m : List Nat} {gs : List (List (SubT Nat))}
    (h : ModOk G m gs) : ∀ (i : Nat) x id, gs.flatten[i]? = some x → m[i]? = some id →
      (∀ r ∈ x.refs, r < m.length) ∧ (flat 0 G)[id]? = some (x.map fun r => (m[r]?).getD 0) := by
  induction h with
  | nil => simp
  | @snoc m gs k xs h hk hr ih =>
    have hl := h.length
    intro i x id hx hid
    rw [List.flatten_append] at hx
    by_cases hi : i < m.length
    · rw [List.getElem?_append_left (by omega)] at hx
      rw [List.getElem?_append_left hi] at hid
      obtain ⟨h1, h2⟩ := ih i x id hx hid
      refine ⟨fun r hr' => by have := h1 r hr'; simp; omega, ?_⟩
      rw [h2]
      congr 1
      refine SubT.map_congr fun r hr' => ?_
      rw [List.getElem?_append_left (h1 r hr')]
    · rw [List.getElem?_append_right (by omega)] at hx
      rw [List.getElem?_append_right (by omega)] at hid
      simp only [List.flatten_cons, List.flatten_nil, List.append_nil] at hx
      rw [← hl] at hx
      generalize hp : i - m.length = p at hx hid
      have hp' : p < xs.length := (List.getElem?_eq_some_iff.1 hx).1
      rw [List.getElem?_range' hp'] at hid
      simp only [Nat.one_mul, Option.some.injEq] at hid
      subst hid
      have hxm : x ∈ xs := List.mem_iff_getElem?.2 ⟨p, hx⟩
      refine ⟨fun r hr' => by have := hr x hxm r hr'; simp; omega, ?_⟩
      rw [flat_get hk 0 p (by simpa using hp'), List.getElem?_map, hx]
      simp only [Option.map_some, SubT.map_map]
      congr 1
      refine SubT.map_congr fun r hr' => ?_
      have hlt := hr x hxm r hr'
      rcases canon_cases (m := m) (r := r) with ⟨h1, h2⟩ | ⟨h1, h2⟩
      · rw [h2, List.getElem?_append_left h1, List.getElem?_eq_getElem h1]; rfl
      · rw [h2, List.getElem?_append_right h1, List.getElem?_range' (by omega)]
        simp [toId]

/-! ## Small facts -/

theorem view_in {L : List (SubT Nat)} {G : List CGroup} (hL : L = flat 0 G) {l : List Nat}
    (h : ∀ r ∈ l, r < 2 ^ 20 ∧ r < L.length) : In G l := by
  subst hL
  intro r hr
  have := h r hr
  rwa [flat_length] at this

theorem abs_top_max (a b : AbsHeap) (h : absIsSubtypeOf a b = true) :
    absIsSubtypeOf b (absTop a) = true := by
  cases a <;> cases b <;> first | rfl | exact absurd h (by decide)

theorem alg_shared {D : Decls} (hD : DeclsOk D) {x y : Heap Nat} (h : Alg D x y) :
    heapShared D x = heapShared D y := by
  cases x with
  | abs s a =>
    cases y with
    | abs s' b => obtain ⟨rfl, _⟩ := h; rfl
    | concrete j => obtain ⟨k, hk, _⟩ := h; simp [heapShared, hk]
    | exact j => obtain ⟨k, hk, _⟩ := h; simp [heapShared, hk]
  | concrete i =>
    cases y with
    | abs s' b => obtain ⟨k, hk, _⟩ := h; simp [heapShared, hk]
    | concrete j =>
      have : Chain D i j := h
      simp [heapShared, chain_info_eq hD this]
    | exact j => exact h.elim
  | exact i =>
    cases y with
    | abs s' b => obtain ⟨k, hk, _⟩ := h; simp [heapShared, hk]
    | concrete j =>
      have : Chain D i j := h
      simp [heapShared, chain_info_eq hD this]
    | exact j => have h : i = j := h; rw [h]

theorem run_append (f : Features) (s : State) (ops ops' : List Op) :
    run f s (ops ++ ops') = run f s ops >>= fun s' => run f s' ops' := by
  induction ops generalizing s with
  | nil => rfl
  | cons op ops ih =>
    simp only [List.cons_append, run]
    cases step f s op with
    | error e => rfl
    | ok s1 => exact ih s1

theorem flat_prefix (G G' : List CGroup) : flat 0 G <+: flat 0 (G ++ G') := by
  induction G' using List.reverseRecOn with
  | nil => simp
  | append_singleton G' c ih =>
    rw [← List.append_assoc, flat_append]
    exact ih.trans (List.prefix_append _ _)

/-- The types of the list only use features that are on. -/
theorem reaches_feats (h : Reaches f ops os s) {L : List (SubT Nat)} (hL : View s.types L) {i : Nat}
    {x : SubT Nat} (hx : L[i]? = some x) : Spec.SubFeats f x := by
  obtain ⟨G, ⟨hi, _⟩, rfl⟩ := h.view hL
  exact (hi.sub i x (flat_lt hx) hx).2.2.2.2

end Verif.TypeList
