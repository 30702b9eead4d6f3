import Verif.Compose.Spec
/-! The composition graph stays sound. -/
namespace Verif.Compose
open Spec

theorem set_eq [DecidableEq κ] {f : κ → Option α} {k x : κ} {a b : α} :
    set f k a x = some b ↔ x = k ∧ a = b ∨ x ≠ k ∧ f x = some b := by
  unfold set
  split <;> simp_all

theorem unset_eq [DecidableEq κ] {f : κ → Option α} {k x : κ} {b : α} :
    unset f k x = some b ↔ x ≠ k ∧ f x = some b := by
  unfold unset
  split <;> simp_all

/-- Ids that are not in use. -/
structure Inv (st : St) : Prop extends Sound st where
  freshC : ∀ c x, st.components c = some x → c < st.nextComponent
  freshI : ∀ i x, st.instances i = some x → i < st.nextInstance

theorem inv_start : Inv {} where
  names := by simp
  instances := by simp
  ends := by simp [Connected]
  edges := by simp
  connected := by simp
  one := by simp [Connected]
  freshC := by simp
  freshI := by simp

theorem mem_keys {e : Edge} {i : Nat} : i ∈ e.keys ↔ ∃ x, (i, x) ∈ e.map := by
  simp [Edge.keys]

/-! ### Adding -/

theorem inv_add {st : St} (h : Inv st) (name : String) :
    addComponent name st = .error .refused ∨ ∃ st', addComponent name st = .ok st' ∧ Inv st' ∧
      st'.graph = st.graph := by
  unfold addComponent
  cases hn : st.names name with
  | some c => exact .inl rfl
  | none =>
    refine .inr ?_
    cases hc : st.components st.nextComponent with
    | some x => exact absurd (h.freshC _ _ hc) (Nat.lt_irrefl _)
    | none =>
      simp only [hc]
      refine ⟨_, rfl, ?_, rfl⟩
      have hno : ∀ c x, st.components c = some x → x.name ≠ name := fun c x hx e => by
        have := (h.names name c).2 ⟨x, hx, e⟩
        rw [hn] at this
        cases this
      constructor
      · constructor
        · intro n c
          simp only [set_eq, h.names]
          grind
        · intro c i
          rw [← h.instances]
          simp only [set_eq]
          grind
        · exact h.ends
        · exact h.edges
        · exact h.connected
        · exact h.one
      · intro c x hx
        simp only [set_eq] at hx
        rcases hx with ⟨rfl, -⟩ | ⟨-, hx⟩
        · exact Nat.lt_succ_self _
        · exact Nat.lt_succ_of_lt (h.freshC _ _ hx)
      · exact h.freshI

theorem inv_instantiate {st : St} (h : Inv st) (id : Nat) :
    instantiate id st = .error .refused ∨ ∃ st', instantiate id st = .ok st' ∧ Inv st' ∧
      st'.graph = st.graph := by
  unfold instantiate
  cases hc : st.components id with
  | none => exact .inl rfl
  | some entry =>
    refine .inr ⟨_, rfl, ?_, rfl⟩
    have hnew : st.instances st.nextInstance = none := by
      cases hi : st.instances st.nextInstance with
      | none => rfl
      | some x => exact absurd (h.freshI _ _ hi) (Nat.lt_irrefl _)
    have hno : ∀ s e t i, Connected st s e t i → s ≠ st.nextInstance ∧ t ≠ st.nextInstance := by
      intro s e t i hx
      obtain ⟨-, ⟨x, h1⟩, y, h2⟩ := h.ends _ _ _ _ hx
      exact ⟨Nat.ne_of_lt (h.freshI _ _ h1), Nat.ne_of_lt (h.freshI _ _ h2)⟩
    constructor
    · constructor
      · intro n c
        rw [h.names]
        simp only [set_eq]
        grind
      · intro c i
        have hh := h.instances c i
        have hh2 := h.instances id i
        simp only [set_eq]
        by_cases hi : i = st.nextInstance
        · subst hi
          simp only [hnew] at hh hh2
          grind
        · by_cases hcc : c = id
          · subst hcc
            simp only [hc] at hh
            grind
          · grind
      · intro s e t i hx
        obtain ⟨h1, ⟨x, h2⟩, y, h3⟩ := h.ends s e t i hx
        obtain ⟨n1, n2⟩ := hno _ _ _ _ hx
        exact ⟨h1, ⟨x, set_eq.2 (.inr ⟨n1, h2⟩)⟩, y, set_eq.2 (.inr ⟨n2, h3⟩)⟩
      · exact h.edges
      · intro t x i hx
        rcases set_eq.1 hx with ⟨rfl, rfl⟩ | ⟨-, hx⟩
        · constructor
          · intro hm; cases hm
          · rintro ⟨s, e, hs⟩
            exact absurd rfl (hno _ _ _ _ hs).2
        · exact h.connected t x i hx
      · exact h.one
    · intro c x hx
      rcases set_eq.1 hx with ⟨rfl, -⟩ | ⟨-, hx⟩
      · exact h.freshC _ _ hc
      · exact h.freshC _ _ hx
    · intro i x hx
      rcases set_eq.1 hx with ⟨rfl, -⟩ | ⟨-, hx⟩
      · exact Nat.lt_succ_self _
      · exact Nat.lt_succ_of_lt (h.freshI _ _ hx)

/-! ### Removing -/

theorem unlink_ok : ∀ {es : List Edge} {f : Nat → Option Inst},
    (∀ e ∈ es, ∃ x, f e.target = some x) → ∃ f', unlink es f = .ok f' ∧
      ∀ t, (f t = none → f' t = none) ∧ ∀ x, f t = some x → ∃ x', f' t = some x' ∧
        x'.component = x.component ∧
        ∀ i, i ∈ x'.connected ↔ i ∈ x.connected ∧ ∀ e ∈ es, e.target = t → i ∉ e.keys
  | [], f, _ => ⟨f, rfl, fun t => ⟨id, fun x hx => ⟨x, hx, rfl, by simp⟩⟩⟩
  | e :: es, f, h => by
    obtain ⟨x, hx⟩ := h e (List.mem_cons_self ..)
    obtain ⟨f', h1, h2⟩ := unlink_ok (es := es)
      (f := set f e.target { x with connected := x.connected.filter (· ∉ e.keys) }) (fun e' he' => by
        obtain ⟨y, hy⟩ := h e' (List.mem_cons_of_mem _ he')
        by_cases ht : e'.target = e.target
        · exact ⟨_, set_eq.2 (.inl ⟨ht, rfl⟩)⟩
        · exact ⟨y, set_eq.2 (.inr ⟨ht, hy⟩)⟩)
    refine ⟨f', by unfold unlink; rw [hx]; exact h1, fun t => ⟨fun ht => ?_, fun y hy => ?_⟩⟩
    · refine (h2 t).1 ?_
      unfold set
      split
      · next e => rw [e, hx] at ht; cases ht
      · exact ht
    · by_cases ht : t = e.target
      · subst ht
        rw [hx] at hy
        cases hy
        obtain ⟨x', k1, k2, k3⟩ := (h2 e.target).2 _ (set_eq.2 (.inl ⟨rfl, rfl⟩))
        refine ⟨x', k1, k2, fun i => ?_⟩
        rw [k3]
        simp
        grind
      · obtain ⟨x', k1, k2, k3⟩ := (h2 t).2 y (set_eq.2 (.inr ⟨ht, hy⟩))
        refine ⟨x', k1, k2, fun i => ?_⟩
        rw [k3]
        simp
        grind

theorem connected_removeNode {st st' : St} {id : Nat} (hg : st'.graph = removeNode id st.graph)
    {s e t i} : Connected st' s e t i ↔ Connected st s e t i ∧ s ≠ id ∧ t ≠ id := by
  unfold Connected
  rw [hg]
  unfold removeNode
  simp only [List.mem_filter, decide_eq_true_eq]
  constructor
  · rintro ⟨x, ⟨h1, h2, h3⟩, rfl, rfl, h4⟩
    exact ⟨⟨x, h1, rfl, rfl, h4⟩, h2, h3⟩
  · rintro ⟨⟨x, h1, rfl, rfl, h4⟩, h2, h3⟩
    exact ⟨x, ⟨h1, h2, h3⟩, rfl, rfl, h4⟩

/-- All but what links components and instances. -/
structure Links (st : St) : Prop where
  ends : ∀ s e t i, Connected st s e t i → s ≠ t ∧ (∃ x, st.instances s = some x) ∧
    ∃ x, st.instances t = some x
  edges : ∀ x ∈ st.graph, ∃ e i, Connected st x.source e x.target i
  connected : ∀ t x i, st.instances t = some x → (i ∈ x.connected ↔ ∃ s e, Connected st s e t i)
  one : ∀ s s' e e' t i, Connected st s e t i → Connected st s' e' t i → s = s' ∧ e = e'

theorem Inv.links {st : St} (h : Inv st) : Links st := ⟨h.ends, h.edges, h.connected, h.one⟩

/-- Removing an instance with its edges. -/
theorem links_remove {st : St} (h : Links st) (id : Nat) :
    ∃ f, unlink (st.graph.filter (·.source = id)) (unset st.instances id) = .ok f ∧
      (∀ c t, (∃ x, f t = some x ∧ x.component = c) ↔
        t ≠ id ∧ ∃ x, st.instances t = some x ∧ x.component = c) ∧
      ∀ st', st'.instances = f → st'.graph = removeNode id st.graph → Links st' := by
  have hends : ∀ x ∈ st.graph, x.source ≠ x.target ∧ (∃ y, st.instances x.source = some y) ∧
      ∃ y, st.instances x.target = some y := fun x hx => by
    obtain ⟨e, i, hc⟩ := h.edges x hx
    exact h.ends _ _ _ _ hc
  obtain ⟨f, h1, h2⟩ := unlink_ok (es := st.graph.filter (·.source = id))
    (f := unset st.instances id) (fun e he => by
      simp only [List.mem_filter, decide_eq_true_eq] at he
      obtain ⟨k1, k2, y, k3⟩ := hends e he.1
      exact ⟨y, unset_eq.2 ⟨by rw [← he.2]; exact k1.symm, k3⟩⟩)
  have hsome : ∀ t x, st.instances t = some x → t ≠ id → ∃ x', f t = some x' ∧
      x'.component = x.component ∧ ∀ i, i ∈ x'.connected ↔ i ∈ x.connected ∧
        ∀ e ∈ st.graph, e.source = id → e.target = t → i ∉ e.keys := fun t x hx ht => by
    obtain ⟨x', k1, k2, k3⟩ := (h2 t).2 x (unset_eq.2 ⟨ht, hx⟩)
    refine ⟨x', k1, k2, fun i => ?_⟩
    rw [k3]
    simp only [List.mem_filter, decide_eq_true_eq, and_imp]
  have hback : ∀ t x', f t = some x' → t ≠ id ∧ ∃ x, st.instances t = some x := fun t x' hx => by
    cases hu : unset st.instances id t with
    | none => rw [(h2 t).1 hu] at hx; cases hx
    | some x => exact ⟨(unset_eq.1 hu).1, x, (unset_eq.1 hu).2⟩
  refine ⟨f, h1, fun c t => ?_, fun st' hi hg => ⟨?_, ?_, ?_, ?_⟩⟩
  · constructor
    · rintro ⟨x', k1, k2⟩
      obtain ⟨k3, x, k4⟩ := hback t x' k1
      obtain ⟨x'', k5, k6, -⟩ := hsome t x k4 k3
      rw [k1] at k5
      cases k5
      exact ⟨k3, x, k4, by rw [← k6]; exact k2⟩
    · rintro ⟨k1, x, k2, k3⟩
      obtain ⟨x', k4, k5, -⟩ := hsome t x k2 k1
      exact ⟨x', k4, by rw [k5]; exact k3⟩
  · intro s e t i hx
    obtain ⟨k1, k2, k3⟩ := (connected_removeNode hg).1 hx
    obtain ⟨k4, ⟨x, k5⟩, y, k6⟩ := h.ends _ _ _ _ k1
    obtain ⟨x', k7, -⟩ := hsome s x k5 k2
    obtain ⟨y', k8, -⟩ := hsome t y k6 k3
    exact ⟨k4, ⟨x', by rw [hi]; exact k7⟩, y', by rw [hi]; exact k8⟩
  · intro x hx
    have hm := hx
    rw [hg] at hm
    simp only [removeNode, List.mem_filter, decide_eq_true_eq] at hm
    obtain ⟨e, i, k⟩ := h.edges x hm.1
    exact ⟨e, i, (connected_removeNode hg).2 ⟨k, hm.2⟩⟩
  · intro t x' i hx
    rw [hi] at hx
    obtain ⟨k1, x, k2⟩ := hback t x' hx
    obtain ⟨x'', k3, -, k4⟩ := hsome t x k2 k1
    rw [hx] at k3
    cases k3
    rw [k4, h.connected t x i k2]
    constructor
    · rintro ⟨⟨s, e, k5⟩, k6⟩
      refine ⟨s, e, (connected_removeNode hg).2 ⟨k5, ?_, k1⟩⟩
      rintro rfl
      obtain ⟨y, k7, k8, k9, k10⟩ := k5
      exact k6 y k7 k8 k9 (mem_keys.2 ⟨e, k10⟩)
    · rintro ⟨s, e, k5⟩
      obtain ⟨k6, k7, -⟩ := (connected_removeNode hg).1 k5
      refine ⟨⟨s, e, k6⟩, fun y k8 k9 k10 k11 => ?_⟩
      obtain ⟨e', k12⟩ := mem_keys.1 k11
      exact k7 (h.one s id e e' t i k6 ⟨y, k8, k9, k10, k12⟩).1
  · intro s s' e e' t i k1 k2
    exact h.one _ _ _ _ _ _ ((connected_removeNode hg).1 k1).1 ((connected_removeNode hg).1 k2).1

theorem inv_removeInstance {st : St} (h : Inv st) (id : Nat) :
    ∃ st', removeInstance id st = .ok st' ∧ Inv st' ∧
      ∀ s e t i, Connected st' s e t i ↔ Connected st s e t i ∧ s ≠ id ∧ t ≠ id := by
  unfold removeInstance
  cases hi : st.instances id with
  | none =>
    refine ⟨st, rfl, h, fun s e t i => ⟨fun k => ⟨k, ?_, ?_⟩, fun k => k.1⟩⟩
    · rintro rfl
      obtain ⟨-, ⟨x, k1⟩, -⟩ := h.ends _ _ _ _ k
      rw [hi] at k1
      cases k1
    · rintro rfl
      obtain ⟨-, -, x, k1⟩ := h.ends _ _ _ _ k
      rw [hi] at k1
      cases k1
  | some inst =>
    obtain ⟨entry, hc, hm⟩ := (h.instances inst.component id).2 ⟨inst, hi, rfl⟩
    obtain ⟨f, h1, h2, h3⟩ := links_remove h.links id
    simp only [hc, h1]
    refine ⟨_, rfl, ?_, fun s e t i => connected_removeNode rfl⟩
    have hl := h3 { st with
      components := set st.components inst.component
        { entry with instances := entry.instances.filter (· ≠ id) }
      instances := f
      graph := removeNode id st.graph } rfl rfl
    constructor
    · constructor
      · intro n c
        rw [h.names]
        simp only [set_eq]
        grind
      · intro c i
        refine Iff.trans ?_ (h2 c i).symm
        rw [← h.instances c i]
        have hid : ∀ c' x, st.components c' = some x → id ∈ x.instances → c' = inst.component :=
          fun c' x k1 k2 => by
            obtain ⟨y, k3, k4⟩ := (h.instances c' id).1 ⟨x, k1, k2⟩
            rw [hi] at k3
            cases k3
            exact k4.symm
        simp only [set_eq]
        grind
      · exact hl.ends
      · exact hl.edges
      · exact hl.connected
      · exact hl.one
    · intro c x hx
      rcases set_eq.1 hx with ⟨rfl, -⟩ | ⟨-, hx⟩
      · exact h.freshC _ _ hc
      · exact h.freshC _ _ hx
    · intro i x hx
      obtain ⟨-, y, k, -⟩ := (h2 x.component i).1 ⟨x, hx, rfl⟩
      exact h.freshI _ _ k

theorem removeInstances_ok : ∀ (ids : List Nat) {st : St}, Links st →
    ∃ st', removeInstances ids st = .ok st' ∧ Links st' ∧ st'.names = st.names ∧
      st'.components = st.components ∧ st'.nextComponent = st.nextComponent ∧
      st'.nextInstance = st.nextInstance ∧
      (∀ c t, (∃ x, st'.instances t = some x ∧ x.component = c) ↔
        t ∉ ids ∧ ∃ x, st.instances t = some x ∧ x.component = c) ∧
      ∀ s e t i, Connected st' s e t i ↔ Connected st s e t i ∧ s ∉ ids ∧ t ∉ ids
  | [], st, h => ⟨st, rfl, h, rfl, rfl, rfl, rfl, by simp, by simp⟩
  | id :: ids, st, h => by
    obtain ⟨f, h1, h2, h3⟩ := links_remove h id
    obtain ⟨st', k1, k2, k3, k4, k5, k6, k7, k8⟩ := removeInstances_ok ids
      (h3 { st with instances := f, graph := removeNode id st.graph } rfl rfl)
    refine ⟨st', by unfold removeInstances; rw [h1]; exact k1, k2, k3, k4, k5, k6, fun c t => ?_,
      fun s e t i => ?_⟩
    · rw [k7]
      simp only [h2, List.mem_cons, not_or]
      grind
    · rw [k8, connected_removeNode (st := st) (id := id) rfl]
      simp only [List.mem_cons, not_or]
      grind

theorem inv_removeComponent {st : St} {order : List Nat → List Nat} (ho : Visits order)
    (h : Inv st) (id : Nat) :
    ∃ st', removeComponent order id st = .ok st' ∧ Inv st' ∧
      ∀ s e t i, Connected st' s e t i ↔ Connected st s e t i ∧
        ∀ x, (st.instances s = some x ∨ st.instances t = some x) → x.component ≠ id := by
  unfold removeComponent
  cases hc : st.components id with
  | none =>
    refine ⟨st, rfl, h, fun s e t i => ⟨fun k => ⟨k, fun x hx e => ?_⟩, fun k => k.1⟩⟩
    rcases hx with hx | hx
    · obtain ⟨y, k1, -⟩ := (h.instances id s).2 ⟨x, hx, e⟩
      rw [hc] at k1
      cases k1
    · obtain ⟨y, k1, -⟩ := (h.instances id t).2 ⟨x, hx, e⟩
      rw [hc] at k1
      cases k1
  | some entry =>
    have hn := (h.names entry.name id).2 ⟨entry, hc, rfl⟩
    have hl : Links { st with
        components := unset st.components id
        names := unset st.names entry.name } := ⟨h.ends, h.edges, h.connected, h.one⟩
    obtain ⟨st', k1, k2, k3, k4, k5, k6, k7, k8⟩ := removeInstances_ok (order entry.instances) hl
    have hof : ∀ i, i ∈ order entry.instances ↔ ∃ x, st.instances i = some x ∧ x.component = id :=
      fun i => by
        rw [ho, ← h.instances id i]
        constructor
        · exact fun k => ⟨entry, hc, k⟩
        · rintro ⟨x, hx, k⟩
          rw [hc] at hx
          cases hx
          exact k
    simp only [hn]
    refine ⟨st', k1, ?_, fun s e t i => ?_⟩
    · constructor
      · constructor
        · intro n c
          have hone : ∀ c' x, st.components c' = some x → x.name = entry.name → c' = id :=
            fun c' x j1 j2 => by
              have := (h.names entry.name c').2 ⟨x, j1, j2⟩
              rw [hn] at this
              cases this
              rfl
          rw [k3, k4]
          simp only [unset_eq, h.names]
          grind
        · intro c i
          rw [k7, k4, hof]
          simp only [unset_eq]
          have j := h.instances c i
          grind
        · exact k2.ends
        · exact k2.edges
        · exact k2.connected
        · exact k2.one
      · intro c x hx
        rw [k4] at hx
        rw [k5]
        exact h.freshC _ _ (unset_eq.1 hx).2
      · intro i x hx
        obtain ⟨-, y, k, -⟩ := (k7 x.component i).1 ⟨x, hx, rfl⟩
        rw [k6]
        exact h.freshI _ _ k
    · rw [k8]
      simp only [hof]
      refine and_congr Iff.rfl ?_
      grind

/-! ### Connecting -/

theorem addEdge_ok {g : List Edge} {s t i : Nat} {e : Option Nat}
    (h : ∀ x ∈ g, x.source = s → x.target = t → i ∉ x.keys) :
    ∃ g', addEdge s t i e g = .ok g' ∧
      (∀ x' ∈ g', (x' ∈ g ∨ x'.source = s ∧ x'.target = t)) ∧
      ∀ s' e' t' i', (∃ x ∈ g', x.source = s' ∧ x.target = t' ∧ (i', e') ∈ x.map) ↔
        (∃ x ∈ g, x.source = s' ∧ x.target = t' ∧ (i', e') ∈ x.map) ∨
          s' = s ∧ e' = e ∧ t' = t ∧ i' = i := by
  unfold addEdge
  split
  · next ha =>
    simp only [List.any_eq_true, decide_eq_true_eq] at ha
    obtain ⟨y, hy, hs, ht⟩ := ha
    rw [if_neg (by
      simp only [List.any_eq_true, decide_eq_true_eq]
      rintro ⟨x, h1, h2, h3, h4⟩
      exact h x h1 h2 h3 h4)]
    refine ⟨_, rfl, ?_, ?_⟩
    · intro x' hx'
      obtain ⟨x, hx, rfl⟩ := List.mem_map.1 hx'
      split
      · next hh => exact .inr hh
      · exact .inl hx
    · intro s' e' t' i'
      constructor
      · rintro ⟨x', hx', h1, h2, h3⟩
        obtain ⟨x, hx, rfl⟩ := List.mem_map.1 hx'
        split at h1
        · next hh =>
          rw [if_pos hh] at h2 h3
          simp only [List.mem_append, List.mem_singleton, Prod.mk.injEq] at h1 h2 h3
          rcases h3 with h3 | ⟨rfl, rfl⟩
          · exact .inl ⟨x, hx, h1, h2, h3⟩
          · exact .inr ⟨by rw [← h1]; exact hh.1, rfl, by rw [← h2]; exact hh.2, rfl⟩
        · next hh =>
          rw [if_neg hh] at h2 h3
          exact .inl ⟨x, hx, h1, h2, h3⟩
      · rintro (⟨x, hx, h1, h2, h3⟩ | ⟨rfl, rfl, rfl, rfl⟩)
        · refine ⟨_, List.mem_map.2 ⟨x, hx, rfl⟩, ?_⟩
          split
          · exact ⟨h1, h2, List.mem_append_left _ h3⟩
          · exact ⟨h1, h2, h3⟩
        · refine ⟨_, List.mem_map.2 ⟨y, hy, rfl⟩, ?_⟩
          rw [if_pos ⟨hs, ht⟩]
          exact ⟨hs, ht, by simp⟩
  · refine ⟨_, rfl, ?_, ?_⟩
    · intro x' hx'
      rcases List.mem_append.1 hx' with k | k
      · exact .inl k
      · rw [List.mem_singleton.1 k]
        exact .inr ⟨rfl, rfl⟩
    · intro s' e' t' i'
      simp only [List.mem_append, List.mem_singleton]
      constructor
      · rintro ⟨x, hx | rfl, h1, h2, h3⟩
        · exact .inl ⟨x, hx, h1, h2, h3⟩
        · simp only [List.mem_singleton, Prod.mk.injEq] at h3
          exact .inr ⟨h1.symm, h3.2, h2.symm, h3.1⟩
      · rintro (⟨x, hx, h1, h2, h3⟩ | ⟨rfl, rfl, rfl, rfl⟩)
        · exact ⟨x, .inl hx, h1, h2, h3⟩
        · exact ⟨_, .inr rfl, rfl, rfl, by simp⟩

theorem validate_ok {st : St} (h : Inv st) (s t i : Nat) (fits : Bool) :
    (validateConnection s t i fits st = .ok () ∧ s ≠ t ∧ (∃ x, st.instances s = some x) ∧
      (∃ x, st.instances t = some x) ∧ (∀ s' e', ¬ Connected st s' e' t i) ∧ fits = true) ∨
    (validateConnection s t i fits st = .error .refused ∧ ¬ (s ≠ t ∧
      (∃ x, st.instances s = some x) ∧ (∃ x, st.instances t = some x) ∧
      (∀ s' e', ¬ Connected st s' e' t i) ∧ fits = true)) := by
  unfold validateConnection
  by_cases hst : s = t
  · rw [if_pos hst]
    exact .inr ⟨rfl, fun k => k.1 hst⟩
  · rw [if_neg hst]
    cases hs : st.instances s with
    | none => exact .inr ⟨rfl, by rintro ⟨-, ⟨x, k⟩, -⟩; cases k⟩
    | some x =>
      obtain ⟨c, hc, -⟩ := (h.instances x.component s).2 ⟨x, hs, rfl⟩
      simp only [hc]
      cases ht : st.instances t with
      | none => exact .inr ⟨rfl, by rintro ⟨-, -, ⟨x, k⟩, -⟩; cases k⟩
      | some y =>
        obtain ⟨d, hd, -⟩ := (h.instances y.component t).2 ⟨y, ht, rfl⟩
        simp only [hd]
        have hcon := h.connected t y i ht
        by_cases hi : i ∈ y.connected
        · rw [if_pos hi]
          obtain ⟨s', e', k⟩ := hcon.1 hi
          exact .inr ⟨rfl, fun j => j.2.2.2.1 s' e' k⟩
        · rw [if_neg hi]
          cases fits with
          | false => exact .inr ⟨rfl, fun j => by cases j.2.2.2.2⟩
          | true => exact .inl ⟨rfl, hst, ⟨x, rfl⟩, ⟨y, rfl⟩, fun s' e' k => hi (hcon.2 ⟨s', e', k⟩), rfl⟩

theorem inv_connect {st : St} (h : Inv st) (s : Nat) (e : Option Nat) (t i : Nat) (fits : Bool) :
    (connect s e t i fits st = .error .refused ∧ ¬ (s ≠ t ∧
      (∃ x, st.instances s = some x) ∧ (∃ x, st.instances t = some x) ∧
      (∀ s' e', ¬ Connected st s' e' t i) ∧ fits = true)) ∨
    ((s ≠ t ∧ (∃ x, st.instances s = some x) ∧ (∃ x, st.instances t = some x) ∧
      (∀ s' e', ¬ Connected st s' e' t i) ∧ fits = true) ∧
      ∃ st', connect s e t i fits st = .ok st' ∧ Inv st' ∧
      ∀ s' e' t' i', Connected st' s' e' t' i' ↔ Connected st s' e' t' i' ∨
        s' = s ∧ e' = e ∧ t' = t ∧ i' = i) := by
  unfold connect
  rcases validate_ok h s t i fits with ⟨hv, hok⟩ | ⟨hv, hno⟩
  · refine .inr ⟨hok, ?_⟩
    obtain ⟨hst, ⟨x, hs⟩, ⟨y, ht⟩, hfree, -⟩ := hok
    obtain ⟨g, g1, g2, g3⟩ := addEdge_ok (g := st.graph) (s := s) (t := t) (i := i) (e := e)
      (fun x hx k1 k2 k3 => by
        obtain ⟨e', k4⟩ := mem_keys.1 k3
        exact hfree s e' ⟨x, hx, k1, k2, k4⟩)
    simp only [hv, ht, g1]
    have hcon : ∀ (st' : St), st'.graph = g → ∀ s' e' t' i', Connected st' s' e' t' i' ↔
        Connected st s' e' t' i' ∨ s' = s ∧ e' = e ∧ t' = t ∧ i' = i := fun st' hg s' e' t' i' => by
      unfold Connected
      rw [hg]
      exact g3 s' e' t' i'
    refine ⟨_, rfl, ?_, hcon _ rfl⟩
    have hset : ∀ j z, st.instances j = some z → ∃ z', set st.instances t
        { y with connected := i :: y.connected } j = some z' ∧ z'.component = z.component :=
      fun j z hz => by
        by_cases hj : j = t
        · subst hj
          rw [ht] at hz
          cases hz
          exact ⟨_, set_eq.2 (.inl ⟨rfl, rfl⟩), rfl⟩
        · exact ⟨z, set_eq.2 (.inr ⟨hj, hz⟩), rfl⟩
    constructor
    · constructor
      · exact h.names
      · intro c j
        refine (h.instances c j).trans ⟨?_, ?_⟩
        · rintro ⟨z, hz, hzc⟩
          obtain ⟨z', k1, k2⟩ := hset j z hz
          exact ⟨z', k1, by rw [k2]; exact hzc⟩
        · rintro ⟨z, hz, hzc⟩
          rcases set_eq.1 hz with ⟨rfl, rfl⟩ | ⟨-, hz⟩
          · exact ⟨y, ht, hzc⟩
          · exact ⟨z, hz, hzc⟩
      · intro s' e' t' i' k
        rcases (hcon _ (by rfl) s' e' t' i').1 k with k | ⟨rfl, -, rfl, -⟩
        · obtain ⟨k1, ⟨a, k2⟩, b, k3⟩ := h.ends _ _ _ _ k
          obtain ⟨a', k4, -⟩ := hset _ _ k2
          obtain ⟨b', k5, -⟩ := hset _ _ k3
          exact ⟨k1, ⟨a', k4⟩, b', k5⟩
        · obtain ⟨a', k4, -⟩ := hset _ _ hs
          obtain ⟨b', k5, -⟩ := hset _ _ ht
          exact ⟨hst, ⟨a', k4⟩, b', k5⟩
      · intro z hz
        rcases g2 z hz with k | ⟨k1, k2⟩
        · obtain ⟨e', i', k⟩ := h.edges z k
          exact ⟨e', i', (hcon _ (by rfl) _ _ _ _).2 (.inl k)⟩
        · exact ⟨e, i, (hcon _ (by rfl) _ _ _ _).2 (.inr ⟨k1, rfl, k2, rfl⟩)⟩
      · intro t' z i' hz
        simp only [hcon _ (by rfl : St.graph { st with instances := _, graph := g } = g)]
        rcases set_eq.1 hz with ⟨rfl, rfl⟩ | ⟨hne, hz⟩
        · have := h.connected t' y i' ht
          simp only [List.mem_cons, this]
          grind
        · rw [h.connected t' z i' hz]
          grind
      · intro s1 s2 e1 e2 t' i' k1 k2
        rcases (hcon _ (by rfl) _ _ _ _).1 k1 with j1 | ⟨rfl, rfl, rfl, rfl⟩
        · rcases (hcon _ (by rfl) _ _ _ _).1 k2 with j2 | ⟨rfl, rfl, rfl, rfl⟩
          · exact h.one _ _ _ _ _ _ j1 j2
          · exact absurd j1 (hfree _ _)
        · rcases (hcon _ (by rfl) _ _ _ _).1 k2 with j2 | ⟨rfl, rfl, -, -⟩
          · exact absurd j2 (hfree _ _)
          · exact ⟨rfl, rfl⟩
    · exact h.freshC
    · intro j z hz
      rcases set_eq.1 hz with ⟨rfl, rfl⟩ | ⟨-, hz⟩
      · exact h.freshI _ _ ht
      · exact h.freshI _ _ hz
  · exact .inl ⟨by rw [hv], hno⟩

theorem inv_disconnect {st : St} (h : Inv st) (s t i : Nat)
    (hf : ∀ s' e, Connected st s' e t i → s' = s) :
    disconnect s t i st = .error .refused ∨ ∃ st', disconnect s t i st = .ok st' ∧ Inv st' ∧
      ∀ s' e' t' i', Connected st' s' e' t' i' ↔ Connected st s' e' t' i' ∧
        ¬ (s' = s ∧ t' = t ∧ i' = i) := by
  unfold disconnect
  cases hs : st.instances s with
  | none => exact .inl rfl
  | some x =>
    cases ht : st.instances t with
    | none => exact .inl rfl
    | some y =>
      refine .inr ?_
      have hcon : ∀ (st' : St), st'.graph = ((st.graph.map fun e =>
            if e.source = s ∧ e.target = t then
              { e with map := e.map.filter (·.1 ≠ i) } else e).filter fun e =>
            ¬ (e.source = s ∧ e.target = t ∧ e.map = [])) →
          ∀ s' e' t' i', Connected st' s' e' t' i' ↔ Connected st s' e' t' i' ∧
            ¬ (s' = s ∧ t' = t ∧ i' = i) := fun st' hg s' e' t' i' => by
        unfold Connected
        rw [hg]
        constructor
        · rintro ⟨z', hz', h1, h2, h3⟩
          obtain ⟨z, hz, rfl⟩ := List.mem_map.1 (List.mem_filter.1 hz').1
          by_cases hh : z.source = s ∧ z.target = t
          · rw [if_pos hh] at h1 h2 h3
            simp only [List.mem_filter, decide_eq_true_eq] at h1 h2 h3
            exact ⟨⟨z, hz, h1, h2, h3.1⟩, fun k => h3.2 k.2.2⟩
          · rw [if_neg hh] at h1 h2 h3
            exact ⟨⟨z, hz, h1, h2, h3⟩, fun k => hh ⟨h1.trans k.1, h2.trans k.2.1⟩⟩
        · rintro ⟨⟨z, hz, h1, h2, h3⟩, hne⟩
          by_cases hh : z.source = s ∧ z.target = t
          · have hm : (i', e') ∈ z.map.filter (·.1 ≠ i) := by
              simp only [List.mem_filter, decide_eq_true_eq]
              exact ⟨h3, fun k => hne ⟨h1.symm.trans hh.1, h2.symm.trans hh.2, k⟩⟩
            refine ⟨{ z with map := z.map.filter (·.1 ≠ i) }, List.mem_filter.2
              ⟨List.mem_map.2 ⟨z, hz, by rw [if_pos hh]⟩, ?_⟩, h1, h2, hm⟩
            simp only [decide_eq_true_eq]
            rintro ⟨-, -, k⟩
            rw [k] at hm
            cases hm
          · refine ⟨z, List.mem_filter.2 ⟨List.mem_map.2 ⟨z, hz, by rw [if_neg hh]⟩, ?_⟩, h1, h2, h3⟩
            simp only [decide_eq_true_eq]
            exact fun k => hh ⟨k.1, k.2.1⟩
      refine ⟨_, rfl, ?_, hcon _ rfl⟩
      have hset : ∀ j z, st.instances j = some z → ∃ z', set st.instances t
          { y with connected := y.connected.filter (· ≠ i) } j = some z' ∧
            z'.component = z.component := fun j z hz => by
        by_cases hj : j = t
        · subst hj
          rw [ht] at hz
          cases hz
          exact ⟨_, set_eq.2 (.inl ⟨rfl, rfl⟩), rfl⟩
        · exact ⟨z, set_eq.2 (.inr ⟨hj, hz⟩), rfl⟩
      constructor
      · constructor
        · exact h.names
        · intro c j
          refine (h.instances c j).trans ⟨?_, ?_⟩
          · rintro ⟨z, hz, hzc⟩
            obtain ⟨z', k1, k2⟩ := hset j z hz
            exact ⟨z', k1, by rw [k2]; exact hzc⟩
          · rintro ⟨z, hz, hzc⟩
            rcases set_eq.1 hz with ⟨rfl, rfl⟩ | ⟨-, hz⟩
            · exact ⟨y, ht, hzc⟩
            · exact ⟨z, hz, hzc⟩
        · intro s' e' t' i' k
          obtain ⟨k, -⟩ := (hcon _ (by rfl) s' e' t' i').1 k
          obtain ⟨k1, ⟨a, k2⟩, b, k3⟩ := h.ends _ _ _ _ k
          obtain ⟨a', k4, -⟩ := hset _ _ k2
          obtain ⟨b', k5, -⟩ := hset _ _ k3
          exact ⟨k1, ⟨a', k4⟩, b', k5⟩
        · intro z' hz'
          have hz2 := List.mem_filter.1 hz'
          obtain ⟨z, hz, hzz⟩ := List.mem_map.1 hz2.1
          by_cases hh : z.source = s ∧ z.target = t
          · rw [if_pos hh] at hzz
            have hk := hz2.2
            simp only [decide_eq_true_eq] at hk
            cases hm : z'.map with
            | nil =>
              refine absurd ⟨?_, ?_, hm⟩ hk
              · rw [← hzz]; exact hh.1
              · rw [← hzz]; exact hh.2
            | cons p ps => exact ⟨p.2, p.1, z', hz', rfl, rfl, by rw [hm]; exact List.mem_cons_self ..⟩
          · rw [if_neg hh] at hzz
            subst hzz
            obtain ⟨e', i', k⟩ := h.edges z hz
            exact ⟨e', i', (hcon _ (by rfl) _ _ _ _).2 ⟨k, fun j => hh ⟨j.1, j.2.1⟩⟩⟩
        · intro t' z i' hz
          simp only [hcon _ (by rfl : St.graph { st with instances := _, graph := _ } = _)]
          rcases set_eq.1 hz with ⟨rfl, rfl⟩ | ⟨hne, hz⟩
          · have := h.connected t' y i' ht
            simp only [List.mem_filter, decide_eq_true_eq, this]
            constructor
            · rintro ⟨⟨s', e', k⟩, hi⟩
              exact ⟨s', e', k, fun j => hi j.2.2⟩
            · rintro ⟨s', e', k, hi⟩
              refine ⟨⟨s', e', k⟩, ?_⟩
              rintro rfl
              have hs' := hf _ _ k
              simp_all
          · rw [h.connected t' z i' hz]
            grind
        · intro s1 s2 e1 e2 t' i' k1 k2
          exact h.one _ _ _ _ _ _ ((hcon _ (by rfl) _ _ _ _).1 k1).1 ((hcon _ (by rfl) _ _ _ _).1 k2).1
      · exact h.freshC
      · intro j z hz
        rcases set_eq.1 hz with ⟨rfl, rfl⟩ | ⟨-, hz⟩
        · exact h.freshI _ _ ht
        · exact h.freshI _ _ hz

end Verif.Compose
