import Verif.Lookup.Spec
import Verif.Semver.Props
/-! What the searches find. -/
namespace Verif.Lookup
open Verif.Semver (Version PackageName Key track)
open Verif.Semver.Spec (Compatible)
open Spec

abbrev Items := List (Key × Verif.Semver.Item)

theorem bare_iff {m : String} : ∀ {items : Items}, (items.map (·.1)).Nodup → ∀ {id : Nat},
    bare m items = some id ↔ ByName items m id
  | [], _, id => by simp [bare, ByName]
  | (k, item) :: xs, h, id => by
    have h' := List.nodup_cons.1 h
    unfold bare
    have ih := bare_iff (m := m) h'.2 (id := id)
    unfold ByName at ih ⊢
    by_cases hk : k = .name m
    · subst hk
      rw [if_pos rfl]
      have hno : ∀ y, (Key.name m, y) ∉ xs := fun y hy => h'.1 (List.mem_map.2 ⟨_, hy, rfl⟩)
      cases item with
      | iface j =>
        simp only [Option.some.injEq, List.mem_cons, Prod.mk.injEq, true_and, hno, or_false,
          Verif.Semver.Item.iface.injEq]
        exact eq_comm
      | other => simp [hno]
    · rw [if_neg hk, ih]
      simp only [List.mem_cons, Prod.mk.injEq]
      grind

theorem first_nil {P : Nat → Prop} {id : Nat} : ¬ First [] P id := by
  rintro ⟨before, item, after, h, -⟩
  cases before <;> cases h

theorem first_name {P : Nat → Prop} {id : Nat} {s x} {xs : Items} :
    First ((.name s, x) :: xs) P id ↔ First xs P id := by
  constructor
  · rintro ⟨before, item, after, h, h1, h2⟩
    cases before with
    | nil => cases h
    | cons b bs =>
      cases h
      exact ⟨bs, item, after, rfl, h1, fun i y hy => h2 i y (List.mem_cons_of_mem _ hy)⟩
  · rintro ⟨before, item, after, rfl, h1, h2⟩
    refine ⟨(.name s, x) :: before, item, after, rfl, h1, fun i y hy => ?_⟩
    rcases List.mem_cons.1 hy with hy | hy
    · cases hy
    · exact h2 i y hy

theorem first_yes {P : Nat → Prop} {id j : Nat} {x} {xs : Items} (hp : P j) :
    First ((.iface j, x) :: xs) P id ↔ j = id := by
  constructor
  · rintro ⟨before, item, after, h, h1, h2⟩
    cases before with
    | nil => cases h; rfl
    | cons b bs =>
      cases h
      exact absurd hp (h2 j x (List.mem_cons_self ..))
  · rintro rfl
    exact ⟨[], x, xs, rfl, hp, by simp⟩

theorem first_no {P : Nat → Prop} {id j : Nat} {x} {xs : Items} (hp : ¬ P j) :
    First ((.iface j, x) :: xs) P id ↔ First xs P id := by
  constructor
  · rintro ⟨before, item, after, h, h1, h2⟩
    cases before with
    | nil => cases h; exact absurd h1 hp
    | cons b bs =>
      cases h
      exact ⟨bs, item, after, rfl, h1, fun i y hy => h2 i y (List.mem_cons_of_mem _ hy)⟩
  · rintro ⟨before, item, after, rfl, h1, h2⟩
    refine ⟨(.iface j, x) :: before, item, after, rfl, h1, fun i y hy => ?_⟩
    rcases List.mem_cons.1 hy with hy | hy
    · cases hy
      exact hp
    · exact h2 i y hy

theorem clone_iff {R : Res} {of_ : Nat} : ∀ {items : Items} {id : Nat},
    clone R of_ items = some id ↔ First items (CloneOf R of_) id
  | [], id => by simp [clone, first_nil]
  | (.name s, x) :: xs, id => by
    unfold clone
    rw [first_name]
    exact clone_iff
  | (.iface j, x) :: xs, id => by
    unfold clone
    by_cases hp : CloneOf R of_ j
    · rw [first_yes hp, if_pos (show (R.ifaces j).cloneOf = some of_ from hp)]
      simp
    · rw [first_no hp, if_neg (show ¬ (R.ifaces j).cloneOf = some of_ from hp)]
      exact clone_iff

theorem first_none {P : Nat → Prop} : ∀ {items : Items}, (∀ id, ¬ First items P id) →
    ∀ i, Offered items i → ¬ P i
  | [], _, i, ⟨x, hx⟩ => by cases hx
  | (.name s, x) :: xs, h, i, ⟨y, hy⟩ => by
    rcases List.mem_cons.1 hy with hy | hy
    · cases hy
    · exact first_none (items := xs) (fun id k => h id (first_name.2 k)) i ⟨y, hy⟩
  | (.iface j, x) :: xs, h, i, ⟨y, hy⟩ => by
    have hj : ¬ P j := fun hp => h j ((first_yes hp).2 rfl)
    rcases List.mem_cons.1 hy with hy | hy
    · cases hy
      exact hj
    · exact first_none (items := xs) (fun id k => h id ((first_no hj).2 k)) i ⟨y, hy⟩

theorem first_item {P : Nat → Prop} {items : Items} {id : Nat} (h : First items P id) :
    Offered items id ∧ P id := by
  obtain ⟨b, x, a, rfl, hp, -⟩ := h
  exact ⟨⟨x, by simp⟩, hp⟩

theorem first_unique {P : Nat → Prop} : ∀ {items : Items} {i j : Nat}, First items P i →
    First items P j → i = j
  | [], _, _, h, _ => absurd h first_nil
  | (.name s, x) :: xs, _, _, h1, h2 => first_unique (first_name.1 h1) (first_name.1 h2)
  | (.iface k, x) :: xs, i, j, h1, h2 => by
    by_cases hp : P k
    · rw [← (first_yes hp).1 h1, ← (first_yes hp).1 h2]
    · exact first_unique ((first_no hp).1 h1) ((first_no hp).1 h2)

theorem compat_iff {R : Res} {parse : String → Parsed} {m ns pkg name : String}
    {version : Option Version} (hm : parse m = .interface ns pkg name version) :
    ∀ {items : Items}, Named R items →
      (∃ id, compat R ns pkg name version items = .ok (.iface id, id) ∧
        First items (Fits R parse m) id) ∨
      (compat R ns pkg name version items = .error .refused ∧
        ∀ id, ¬ First items (Fits R parse m) id)
  | [], _ => .inr ⟨rfl, fun _ => first_nil⟩
  | (.name s, x) :: xs, h => by
    unfold compat
    simp only [first_name]
    exact compat_iff hm fun i y hy => h i y (List.mem_cons_of_mem _ hy)
  | (.iface j, x) :: xs, h => by
    obtain ⟨⟨p, hp⟩, n, hn⟩ := h j x (List.mem_cons_self ..)
    have ih := compat_iff hm (items := xs) fun i y hy => h i y (List.mem_cons_of_mem _ hy)
    have skip : ¬ Fits R parse m j →
        ((∃ id, compat R ns pkg name version xs = .ok (.iface id, id) ∧
          First ((.iface j, x) :: xs) (Fits R parse m) id) ∨
        (compat R ns pkg name version xs = .error .refused ∧
          ∀ id, ¬ First ((.iface j, x) :: xs) (Fits R parse m) id)) := fun hno => by
      simp only [first_no hno]
      exact ih
    have hfits : Fits R parse m j ↔ n = name ∧ p.namespace_ = ns ∧ p.name = pkg ∧
        ∃ v w, version = some v ∧ p.version = some w ∧ track v = track w := by
      unfold Fits
      rw [hm, hp, hn]
      simp only [Verif.Semver.track_iff]
      constructor
      · rintro ⟨ns', p', n', v, w, h1, h2, h3, h4⟩
        cases h1
        cases h2
        cases h3
        exact ⟨rfl, rfl, rfl, v, w, rfl, rfl, h4⟩
      · rintro ⟨rfl, rfl, rfl, v, w, rfl, h5, h6⟩
        refine ⟨_, _, _, v, w, rfl, ?_, rfl, h6⟩
        rw [← h5]
    unfold compat
    simp only [hn, hp]
    by_cases h1 : n = name
    · rw [if_neg (by simp [h1])]
      by_cases h2 : p.namespace_ ≠ ns ∨ p.name ≠ pkg
      · rw [if_pos h2]
        exact skip fun k => by
          have := hfits.1 k
          grind
      · rw [if_neg h2]
        cases version with
        | none => exact skip fun k => by have := hfits.1 k; grind
        | some v =>
          cases hw : p.version with
          | none => exact skip fun k => by have := hfits.1 k; grind
          | some w =>
            simp only
            by_cases h3 : track v = track w
            · rw [if_pos h3]
              have hf : Fits R parse m j := hfits.2 ⟨h1, by grind, by grind, v, w, rfl, hw, h3⟩
              exact .inl ⟨j, rfl, (first_yes hf).2 rfl⟩
            · rw [if_neg h3]
              exact skip fun k => by have := hfits.1 k; grind
    · rw [if_pos h1]
      exact skip fun k => h1 (hfits.1 k).1

theorem item_iff {items : Items} {id : Nat} :
    (items.any fun x => x.1 = .iface id) = true ↔ Offered items id := by
  unfold Offered
  simp only [List.any_eq_true, decide_eq_true_eq]
  constructor
  · rintro ⟨⟨k, x⟩, h1, h2⟩
    cases h2
    exact ⟨x, h1⟩
  · rintro ⟨x, h⟩
    exact ⟨_, h, rfl⟩

theorem found_unique {R : Res} {parse : String → Parsed} {m : String} {items : Items}
    (hn : (items.map (·.1)).Nodup) {k k' : Key} {id id' : Nat}
    (h : Found R parse m items k id) (h' : Found R parse m items k' id') : k = k' ∧ id = id' := by
  have hb : ∀ {i j}, ByName items m i → ByName items m j → i = j := fun h1 h2 => by
    rw [← bare_iff hn] at h1 h2
    rw [h1] at h2
    cases h2
    rfl
  have hmean : ∀ {i j}, Means R parse m i → Means R parse m j → i = j := by
    rintro i j ⟨ns, p, n, v, h1, h2⟩ ⟨ns', p', n', v', h3, h4⟩
    rw [h1] at h3
    cases h3
    rw [h2] at h4
    cases h4
    rfl
  cases h with
  | name h1 =>
    cases h' with
    | name k1 => exact ⟨rfl, hb h1 k1⟩
    | same k1 => exact absurd ⟨_, h1⟩ k1
    | clone k1 => exact absurd ⟨_, h1⟩ k1
    | compatible k1 => exact absurd ⟨_, h1⟩ k1
  | same h1 h2 h3 =>
    cases h' with
    | name k1 => exact absurd ⟨_, k1⟩ h1
    | same k1 k2 k3 => cases hmean h2 k2; exact ⟨rfl, rfl⟩
    | clone k1 k2 k3 k4 => cases hmean h2 k2; exact absurd h3 k3
    | compatible k1 k2 k3 => exact absurd h3 (k2 _ h2).1
  | clone h1 h2 h3 h4 =>
    cases h' with
    | name k1 => exact absurd ⟨_, k1⟩ h1
    | same k1 k2 k3 => cases hmean h2 k2; exact absurd k3 h3
    | clone k1 k2 k3 k4 =>
      cases hmean h2 k2
      cases first_unique h4 k4
      exact ⟨rfl, rfl⟩
    | compatible k1 k2 k3 => exact absurd (first_item h4).2 ((k2 _ h2).2 _ (first_item h4).1)
  | compatible h1 h2 h3 =>
    cases h' with
    | name k1 => exact absurd ⟨_, k1⟩ h1
    | same k1 k2 k3 => exact absurd k3 (h2 _ k2).1
    | clone k1 k2 k3 k4 => exact absurd (first_item k4).2 ((h2 _ k2).2 _ (first_item k4).1)
    | compatible k1 k2 k3 =>
      cases first_unique h3 k3
      exact ⟨rfl, rfl⟩

/-- The search succeeds with what is to be found, or there is nothing to be found. -/
theorem lookup_cases {R : Res} {parse : String → Parsed} {m : String} {items : Items}
    (hn : (items.map (·.1)).Nodup) (hw : Named R items) :
    (∃ k id, moduleToInterface R parse m items = .ok (k, id) ∧ Found R parse m items k id) ∨
    (moduleToInterface R parse m items = .error .refused ∧ ∀ k id, ¬ Found R parse m items k id) := by
  unfold moduleToInterface
  cases hb : bare m items with
  | some id => exact .inl ⟨_, _, rfl, .name ((bare_iff hn).1 hb)⟩
  | none =>
    have hno : ¬ ∃ i, ByName items m i := by
      rintro ⟨i, hi⟩
      rw [← bare_iff hn, hb] at hi
      cases hi
    have hfit : ∀ id, First items (Fits R parse m) id → ∃ ns p n v, parse m = .interface ns p n v :=
      fun id hf => by
        obtain ⟨-, ns, p, n, v, w, h, -⟩ := first_item hf
        exact ⟨ns, p, n, _, h⟩
    have hnone : (∀ ns p n v, parse m ≠ .interface ns p n v) → ∀ k id,
        ¬ Found R parse m items k id := fun hp k id hf => by
      cases hf with
      | name h => exact hno ⟨_, h⟩
      | same _ h => obtain ⟨ns, p, n, v, h, -⟩ := h; exact hp _ _ _ _ h
      | clone _ h => obtain ⟨ns, p, n, v, h, -⟩ := h; exact hp _ _ _ _ h
      | compatible _ _ h => obtain ⟨ns, p, n, v, h⟩ := hfit _ h; exact hp _ _ _ _ h
    cases hp : parse m with
    | notInterface => exact .inr ⟨rfl, hnone fun ns p n v h => by rw [hp] at h; cases h⟩
    | badVersion => exact .inr ⟨rfl, hnone fun ns p n v h => by rw [hp] at h; cases h⟩
    | interface ns pkg name version =>
      simp only
      have hmeans : ∀ id, Means R parse m id ↔ R.named ⟨ns, pkg, version⟩ name = some id :=
        fun id => by
          unfold Means
          rw [hp]
          constructor
          · rintro ⟨_, _, _, _, h1, h2⟩
            cases h1
            exact h2
          · exact fun h => ⟨_, _, _, _, rfl, h⟩
      have rest : (∀ of_, Means R parse m of_ → ¬ Offered items of_ ∧
            ∀ i, Offered items i → ¬ CloneOf R of_ i) →
          ((∃ k id, compat R ns pkg name version items = .ok (k, id) ∧
              Found R parse m items k id) ∨
            (compat R ns pkg name version items = .error .refused ∧
              ∀ k id, ¬ Found R parse m items k id)) := fun hrest => by
        rcases compat_iff hp hw with ⟨id, h1, h2⟩ | ⟨h1, h2⟩
        · exact .inl ⟨_, id, h1, .compatible hno hrest h2⟩
        · refine .inr ⟨h1, fun k id hf => ?_⟩
          cases hf with
          | name h => exact hno ⟨_, h⟩
          | same _ h h' => exact (hrest _ h).1 h'
          | clone _ h _ h' => exact (hrest _ h).2 _ (first_item h').1 (first_item h').2
          | compatible _ _ h => exact h2 _ h
      unfold exact
      cases hr : R.named ⟨ns, pkg, version⟩ name with
      | none =>
        exact rest fun of_ h => by
          rw [hmeans, hr] at h
          cases h
      | some of_ =>
        simp only
        have hof : Means R parse m of_ := (hmeans _).2 hr
        by_cases hi : Offered items of_
        · rw [if_pos (item_iff.2 hi)]
          exact .inl ⟨_, _, rfl, .same hno hof hi⟩
        · rw [if_neg (fun k => hi (item_iff.1 k))]
          cases hc : clone R of_ items with
          | some id => exact .inl ⟨_, _, rfl, .clone hno hof hi (clone_iff.1 hc)⟩
          | none =>
            refine rest fun of' h => ?_
            rw [hmeans, hr] at h
            cases h
            refine ⟨hi, first_none fun id k => ?_⟩
            rw [← clone_iff, hc] at k
            cases k

end Verif.Lookup
