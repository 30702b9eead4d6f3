import Verif.TypeList.Restrict
import Verif.TypeList.NumberedSpec
/-! # Identifiers in the order in which defined types appear -/
namespace Verif.TypeList
open Spec (SubT DefType rollAll roll)

theorem Numbered.length {ds : List DefType} {ids : List Nat} {n : Nat} (h : Numbered ds ids n) :
    ds.length = ids.length := by
  induction h with
  | nil => rfl
  | old _ _ _ ih | new _ _ ih => simp [ih]

theorem snoc_get {α : Type} {l : List α} {a b : α} {i : Nat} (h : (l ++ [a])[i]? = some b) :
    l[i]? = some b ∨ i = l.length ∧ b = a := by
  by_cases hi : i < l.length
  · rw [List.getElem?_append_left hi] at h; exact .inl h
  · rw [List.getElem?_append_right (by omega)] at h
    have : i - l.length = 0 := by
      by_contra hne
      rw [List.getElem?_eq_none (by simp; omega)] at h; cases h
    rw [this] at h
    simp at h
    exact .inr ⟨by omega, h.symm⟩

theorem Numbered.lt {ds : List DefType} {ids : List Nat} {n : Nat} (h : Numbered ds ids n) :
    ∀ id ∈ ids, id < n := by
  induction h with
  | nil => nofun
  | @old ds ids n d id i _ _ h2 ih =>
    intro x hx
    rcases List.mem_append.1 hx with hx | hx
    · exact ih x hx
    · obtain rfl := List.mem_singleton.1 hx
      exact ih _ (List.mem_iff_getElem?.2 ⟨i, h2⟩)
  | @new ds ids n d _ _ ih =>
    intro x hx
    rcases List.mem_append.1 hx with hx | hx
    · have := ih x hx; omega
    · obtain rfl := List.mem_singleton.1 hx; omega

theorem Numbered.le {ds : List DefType} {ids : List Nat} {n : Nat} (h : Numbered ds ids n) :
    n ≤ ids.length := by
  induction h with
  | nil => exact Nat.le_refl _
  | old _ _ _ ih | new _ _ ih => simp; omega

theorem Numbered.surj {ds : List DefType} {ids : List Nat} {n : Nat} (h : Numbered ds ids n) :
    ∀ id, id < n → id ∈ ids := by
  induction h with
  | nil => intro id h; omega
  | old _ _ _ ih => intro id h; exact List.mem_append_left _ (ih id h)
  | @new ds ids n d _ _ ih =>
    intro id h
    by_cases he : id = n
    · subst he; simp
    · exact List.mem_append_left _ (ih id (by omega))

/-- A defined type has one identifier. -/
theorem Numbered.same {ds : List DefType} {ids : List Nat} {n : Nat} (h : Numbered ds ids n) :
    ∀ {i j : Nat} {d : DefType}, ds[i]? = some d → ds[j]? = some d → ids[i]? = ids[j]? := by
  induction h with
  | nil => intro i j d h; simp at h
  | @old ds ids n e id k h0 h1 h2 ih =>
    have hl := h0.length
    have key : ∀ {i : Nat} {d : DefType}, (ds ++ [e])[i]? = some d →
        ∃ i' : Nat, ds[i']? = some d ∧ (ids ++ [id])[i]? = ids[i']? := by
      intro i d hi
      rcases snoc_get hi with hi | ⟨rfl, rfl⟩
      · refine ⟨i, hi, List.getElem?_append_left ?_⟩
        rw [← hl]; exact (List.getElem?_eq_some_iff.1 hi).1
      · exact ⟨k, h1, by rw [hl, List.getElem?_concat_length, h2]⟩
    intro i j d hi hj
    obtain ⟨i', hi, ei⟩ := key hi
    obtain ⟨j', hj, ej⟩ := key hj
    rw [ei, ej, ih hi hj]
  | @new ds ids n e h0 h1 ih =>
    have hl := h0.length
    intro i j d hi hj
    have get : ∀ {i : Nat}, ds[i]? = some d → (ids ++ [n])[i]? = ids[i]? := by
      intro i hi
      refine List.getElem?_append_left ?_
      rw [← hl]; exact (List.getElem?_eq_some_iff.1 hi).1
    rcases snoc_get hi with a | ⟨a, a'⟩
    · rcases snoc_get hj with b | ⟨b, b'⟩
      · rw [get a, get b, ih a b]
      · exact absurd (List.mem_iff_getElem?.2 ⟨i, b' ▸ a⟩) h1
    · rcases snoc_get hj with b | ⟨b, -⟩
      · exact absurd (List.mem_iff_getElem?.2 ⟨j, a' ▸ b⟩) h1
      · rw [a, b]

/-- There is one numbering. -/
theorem Numbered.det {ds : List DefType} {ids ids' : List Nat} {n n' : Nat}
    (h : Numbered ds ids n) (h' : Numbered ds ids' n') : ids = ids' ∧ n = n' := by
  induction h generalizing ids' n' with
  | nil =>
    generalize he : ([] : List DefType) = es at h'
    cases h' with
    | nil => exact ⟨rfl, rfl⟩
    | old | new => simp at he
  | @old ds ids n d id i h0 h1 h2 ih =>
    generalize he : ds ++ [d] = es at h'
    cases h' with
    | nil => simp at he
    | @old ds' ids' n' d' id' j g0 g1 g2 =>
      obtain ⟨rfl, hd⟩ := List.append_inj' he rfl
      cases hd
      obtain ⟨rfl, rfl⟩ := ih g0
      have := h0.same h1 g1
      rw [h2, g2] at this
      cases this
      exact ⟨rfl, rfl⟩
    | @new ds' ids' n' d' g0 g1 =>
      obtain ⟨rfl, hd⟩ := List.append_inj' he rfl
      cases hd
      exact absurd (List.mem_iff_getElem?.2 ⟨i, h1⟩) g1
  | @new ds ids n d h0 h1 ih =>
    generalize he : ds ++ [d] = es at h'
    cases h' with
    | nil => simp at he
    | @old ds' ids' n' d' id' j g0 g1 g2 =>
      obtain ⟨rfl, hd⟩ := List.append_inj' he rfl
      cases hd
      exact absurd (List.mem_iff_getElem?.2 ⟨j, g1⟩) h1
    | @new ds' ids' n' d' g0 g1 =>
      obtain ⟨rfl, hd⟩ := List.append_inj' he rfl
      cases hd
      obtain ⟨rfl, rfl⟩ := ih g0
      exact ⟨rfl, rfl⟩

theorem Numbered.prefix {ds es : List DefType} {ids : List Nat} {n : Nat}
    (h : Numbered (ds ++ es) ids n) :
    ∃ a b k, ids = a ++ b ∧ Numbered ds a k ∧ k ≤ n := by
  induction es using List.reverseRecOn generalizing ids n with
  | nil => exact ⟨ids, [], n, by simp, by simpa using h, Nat.le_refl _⟩
  | append_singleton es e ih =>
    rw [← List.append_assoc] at h
    generalize he : ds ++ es ++ [e] = l at h
    cases h with
    | nil => simp at he
    | @old ds' ids' n' d' id' j g0 g1 g2 =>
      obtain ⟨rfl, he⟩ := List.append_inj' he rfl
      obtain ⟨a, b, k, rfl, h1, h2⟩ := ih g0
      exact ⟨a, b ++ [id'], k, by simp, h1, h2⟩
    | @new ds' ids' n' d' g0 g1 =>
      obtain ⟨rfl, he⟩ := List.append_inj' he rfl
      obtain ⟨a, b, k, rfl, h1, h2⟩ := ih g0
      exact ⟨a, b ++ [n'], k, by simp, h1, by omega⟩

/-- The identifiers are positions in a list without duplicates. -/
def Posn (D ds : List DefType) (ids : List Nat) : Prop := ds.map some = ids.map fun i => D[i]?

theorem Posn.get {D ds : List DefType} {ids : List Nat} (h : Posn D ds ids) {i id : Nat}
    (hi : ids[i]? = some id) : ds[i]? = D[id]? := by
  have := congrArg (fun l => l[i]?) h
  simp only [List.getElem?_map, hi, Option.map_some] at this
  cases h1 : ds[i]? with
  | none => rw [h1] at this; cases this
  | some d => rw [h1] at this; simpa using this

theorem Numbered.step {D ds : List DefType} {ids : List Nat} {n : Nat} (h : Numbered ds ids n)
    (hD : D.Nodup) (hp : Posn D ds ids) {id : Nat} {d : DefType} (hd : D[id]? = some d)
    (hi : id ≤ n) : Numbered (ds ++ [d]) (ids ++ [id]) (max n (id + 1)) := by
  by_cases hlt : id < n
  · rw [Nat.max_eq_left (by omega)]
    obtain ⟨i, h1⟩ := List.mem_iff_getElem?.1 (h.surj id hlt)
    exact .old h (by rw [hp.get h1, hd]) h1
  · obtain rfl : id = n := by omega
    rw [Nat.max_eq_right (by omega)]
    refine .new h fun hm => ?_
    obtain ⟨i, h1⟩ := List.mem_iff_getElem?.1 hm
    have hil : i < ids.length := by rw [← h.length]; exact (List.getElem?_eq_some_iff.1 h1).1
    have h2 := hp.get (List.getElem?_eq_getElem hil)
    have h3 := h.lt _ (List.getElem_mem hil)
    rw [h1] at h2
    obtain ⟨k1, e1⟩ := List.getElem?_eq_some_iff.1 h2.symm
    obtain ⟨k2, e2⟩ := List.getElem?_eq_some_iff.1 hd
    have := (List.Nodup.getElem_inj_iff hD).1 (e1.trans e2.symm)
    omega

theorem Numbered.range {D : List DefType} (hD : D.Nodup) {es : List DefType} :
    ∀ {ds : List DefType} {ids : List Nat} {n s : Nat}, Numbered ds ids n → Posn D ds ids →
    s ≤ n → Posn D es (List.range' s es.length) →
    Numbered (ds ++ es) (ids ++ List.range' s es.length) (max n (s + es.length)) := by
  induction es with
  | nil =>
    intro ds ids n s h _ hs _
    rw [show max n (s + ([] : List DefType).length) = n from Nat.max_eq_left hs]
    simpa using h
  | cons d es ih =>
    intro ds ids n s h hp hs he
    simp only [Posn, List.length_cons, List.range'_succ, List.map_cons, List.cons.injEq] at he
    have h1 := h.step hD hp he.1.symm hs
    have := ih h1 (by
      show (ds ++ [d]).map some = (ids ++ [s]).map fun i => D[i]?
      have hp : ds.map some = ids.map fun i => D[i]? := hp
      rw [List.map_append, List.map_append, hp, List.map_singleton, List.map_singleton, he.1])
      (Nat.le_max_right _ _) he.2
    rw [List.append_assoc, List.append_assoc] at this
    rw [List.length_cons, List.range'_succ]
    rw [show max (max n (s + 1)) (s + 1 + es.length) = max n (s + (es.length + 1)) by omega] at this
    exact this

/-! ## Numbering one more group -/

theorem posn_of {G : List CGroup} (hG : GroupsOk G) {m : List Nat} {gs : List (List (SubT Nat))}
    (h : ModOk G m gs) : Posn (closeAll G) (rollAll gs) m := h.close hG

/-- The defined types of a group, from its canonical form. -/
theorem roll_close {G : List CGroup} (hG : GroupsOk G) {m : List Nat}
    {gs : List (List (SubT Nat))} (h : ModOk G m gs) (xs : List (SubT Nat)) :
    roll (rollAll gs) xs = closeG (closeAll G) (xs.map (SubT.map (canon m))) := by
  have ih := h.close hG
  have hlen : (rollAll gs).length = m.length := by
    have := congrArg List.length ih; simpa using this
  have hget : ∀ i : Nat, (rollAll gs)[i]? = (m[i]?).bind fun j => (closeAll G)[j]? := by
    intro i
    have := congrArg (fun l => l[i]?) ih
    simp only [List.getElem?_map] at this
    cases h1 : (rollAll gs)[i]? <;> cases h2 : m[i]? <;> simp_all
  have hmap : (xs.map (SubT.map (canon m))).map (SubT.map (cl (closeAll G))) =
      xs.map (SubT.map fun i => match (rollAll gs)[i]? with
        | some d => .inr d
        | none => .inl (i - (rollAll gs).length)) := by
    rw [List.map_map]
    refine List.map_congr_left fun x _ => ?_
    simp only [Function.comp_apply, SubT.map_map]
    refine SubT.map_congr fun r _ => ?_
    rw [hget r, hlen]
    unfold canon
    cases h1 : m[r]? with
    | none => simp [cl]
    | some j =>
      have hj : (closeAll G)[j]?.isSome := by
        have h2 : r < (rollAll gs).length := by rw [hlen]; exact (List.getElem?_eq_some_iff.1 h1).1
        have h3 := hget r
        rw [h1, List.getElem?_eq_getElem h2] at h3
        simp at h3
        rw [← h3]; rfl
      obtain ⟨d, hd⟩ := Option.isSome_iff_exists.1 hj
      simp [cl, hd]
  unfold closeG roll
  rw [hmap, List.length_map]
  rfl

theorem closeAll_snoc_nodup {G : List CGroup} (hG : GroupsOk G) (h : G.Nodup) {c : CGroup}
    (hc : IdsBelow (total G) c) (hn : c ∉ G) : (closeAll G ++ closeG (closeAll G) c).Nodup := by
  have ih := closeAll_nodup hG h
  rw [List.nodup_append]
  refine ⟨ih, ?_, ?_⟩
  · refine List.Nodup.map (fun i j hij => ?_) List.nodup_range
    injection hij
  · rintro d hd e he rfl
    obtain ⟨i, hi⟩ := List.mem_iff_getElem?.1 hd
    have hlt : i < total G := by
      rw [← closeAll_length]; exact (List.getElem?_eq_some_iff.1 hi).1
    obtain ⟨k, c', p, hk, hp, rfl⟩ := locate hlt
    rw [closeAll_get hG hk hp] at hi
    simp only [closeG, List.mem_map, List.mem_range] at he
    obtain ⟨q, hq, rfl⟩ := he
    simp only [Option.some.injEq, DefType.mk.injEq] at hi
    have hkl := startOf_add_le hk
    have hids := (hG.get hk).ids (n := (closeAll G).length) (by rw [closeAll_length]; omega)
    rw [← closeAll_length] at hc
    have : c' = c := by
      refine Spec.group_map_inj (g := cl (closeAll G)) ?_ hi.1
      intro r hr s hs e
      obtain ⟨x, hx, hr⟩ := List.mem_flatMap.1 hr
      obtain ⟨y, hy, hs⟩ := List.mem_flatMap.1 hs
      exact cl_inj ih (hids x hx r hr) (hc y hy s hs) e
    subst this
    exact hn (List.mem_iff_getElem?.2 ⟨k, hk⟩)

theorem canon_below {G : List CGroup} {m : List Nat} {gs : List (List (SubT Nat))}
    (h : ModOk G m gs) (xs : List (SubT Nat)) :
    IdsBelow (total G) (xs.map (SubT.map (canon m))) := by
  intro x hx r hr j hj
  obtain ⟨y, hy, rfl⟩ := List.mem_map.1 hx
  rw [Spec.SubT.refs_map] at hr
  obtain ⟨q, hq, rfl⟩ := List.mem_map.1 hr
  rcases canon_cases (m := m) (r := q) with ⟨h1, e⟩ | ⟨h1, e⟩
  · rw [e] at hj
    cases hj
    exact h.lt _ (List.getElem_mem h1)
  · rw [e] at hj; cases hj

/-- A group that is there already. -/
theorem numbered_old {G : List CGroup} (hG : GroupsOk G) (hn : G.Nodup) {m : List Nat}
    {gs : List (List (SubT Nat))} (h : ModOk G m gs) (hd : Numbered (rollAll gs) m (total G))
    {xs : List (SubT Nat)} {k : Nat} (hk : G[k]? = some (xs.map (SubT.map (canon m)))) :
    Numbered (rollAll (gs ++ [xs])) (m ++ List.range' (startOf G k) xs.length) (total G) := by
  have hle := startOf_add_le hk
  rw [List.length_map] at hle
  have hr := roll_close hG h xs
  have hl : (roll (rollAll gs) xs).length = xs.length := by simp [roll]
  have := hd.range (closeAll_nodup hG hn) (es := roll (rollAll gs) xs) (s := startOf G k)
    (posn_of hG h) (by omega) (by
      unfold Posn
      rw [hl, hr]
      apply List.ext_getElem?
      intro p
      simp only [List.getElem?_map]
      by_cases hp : p < xs.length
      · rw [closeG_get _ _ _ (by simpa using hp), List.getElem?_range' hp]
        simp only [Option.map_some, Nat.one_mul]
        rw [closeAll_get hG hk (by simpa using hp)]
      · rw [List.getElem?_eq_none (by simpa [closeG] using hp),
          List.getElem?_eq_none (by simpa using hp)]
        rfl)
  rw [hl, Nat.max_eq_left (by omega)] at this
  rw [rollAll_snoc]
  exact this

/-- A new group. -/
theorem numbered_new {G : List CGroup} (hG : GroupsOk G) (hn : G.Nodup) {m : List Nat}
    {gs : List (List (SubT Nat))} (h : ModOk G m gs) (hd : Numbered (rollAll gs) m (total G))
    {xs : List (SubT Nat)} (hk : xs.map (SubT.map (canon m)) ∉ G) :
    Numbered (rollAll (gs ++ [xs])) (m ++ List.range' (total G) xs.length)
      (total G + xs.length) := by
  have hr := roll_close hG h xs
  have hl : (roll (rollAll gs) xs).length = xs.length := by simp [roll]
  have hp := posn_of hG h
  have := hd.range (closeAll_snoc_nodup hG hn (canon_below h xs) hk)
    (es := roll (rollAll gs) xs) (s := total G) (by
      unfold Posn at hp ⊢
      rw [hp]
      refine List.map_congr_left fun i hi => ?_
      rw [List.getElem?_append_left (by rw [closeAll_length]; exact h.lt i hi)])
    (Nat.le_refl _) (by
      unfold Posn
      rw [hl, hr]
      apply List.ext_getElem?
      intro p
      simp only [List.getElem?_map]
      by_cases hp : p < xs.length
      · rw [closeG_get _ _ _ (by simpa using hp), List.getElem?_range' hp]
        simp only [Option.map_some, Nat.one_mul]
        rw [List.getElem?_append_right (by rw [closeAll_length]; omega), closeAll_length,
          Nat.add_sub_cancel_left, closeG_get _ _ _ (by simpa using hp)]
      · rw [List.getElem?_eq_none (by simpa [closeG] using hp),
          List.getElem?_eq_none (by simpa using hp)]
        rfl)
  rw [hl, Nat.max_eq_right (by omega)] at this
  rw [rollAll_snoc]
  exact this

end Verif.TypeList
