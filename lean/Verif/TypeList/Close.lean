import Mathlib.Data.List.Nodup
import Mathlib.Data.List.Induction
import Verif.TypeList.MapLemmas
/-!
# Canonical groups

The list of types is described by the list of canonical groups it was made of. A reference in
one of them is a position in the group (`inl`) or the identifier of an earlier type (`inr`).
-/
namespace Verif.TypeList
open Spec

abbrev CRef := Nat ⊕ Nat
abbrev CGroup := List (SubT CRef)

/-- How many types there are. -/
def total : List CGroup → Nat
  | [] => 0
  | c :: G => c.length + total G

/-- The identifier of the first type of a group. -/
def startOf (G : List CGroup) (k : Nat) : Nat := total (G.take k)

/-- A canonical reference as an identifier. -/
def toId (s : Nat) : CRef → Nat
  | .inl i => s + i
  | .inr j => j

/-- All types, with identifiers for references. -/
def flat : Nat → List CGroup → List (SubT Nat)
  | _, [] => []
  | s, c :: G => c.map (SubT.map (toId s)) ++ flat (s + c.length) G

/-- The group of each type. -/
def gids : Nat → List CGroup → List Nat
  | _, [] => []
  | k, c :: G => List.replicate c.length k ++ gids (k + 1) G

/-- The range of each group. -/
def elems : Nat → List CGroup → List (Nat × Nat)
  | _, [] => []
  | s, c :: G => (s, s + c.length) :: elems (s + c.length) G

theorem total_snoc (G : List CGroup) (c : CGroup) : total (G ++ [c]) = total G + c.length := by
  induction G with
  | nil => simp [total]
  | cons d G ih => simp only [List.cons_append, total, ih]; omega

theorem flat_snoc (s : Nat) (G : List CGroup) (c : CGroup) :
    flat s (G ++ [c]) = flat s G ++ c.map (SubT.map (toId (s + total G))) := by
  induction G generalizing s with
  | nil => simp [flat, total]
  | cons d G ih => simp [flat, ih, total, Nat.add_assoc]

theorem gids_snoc (s : Nat) (G : List CGroup) (c : CGroup) :
    gids s (G ++ [c]) = gids s G ++ List.replicate c.length (s + G.length) := by
  induction G generalizing s with
  | nil => simp [gids]
  | cons d G ih =>
    simp only [List.cons_append, gids, ih, List.append_assoc, List.length_cons]
    rw [show s + 1 + G.length = s + (G.length + 1) by omega]

theorem elems_snoc (s : Nat) (G : List CGroup) (c : CGroup) :
    elems s (G ++ [c]) = elems s G ++ [(s + total G, s + total G + c.length)] := by
  induction G generalizing s with
  | nil => simp [elems, total]
  | cons d G ih => simp [elems, ih, total, Nat.add_assoc]

theorem flat_length (s : Nat) (G : List CGroup) : (flat s G).length = total G := by
  induction G generalizing s with
  | nil => rfl
  | cons d G ih => simp [flat, total, ih]

theorem gids_length (s : Nat) (G : List CGroup) : (gids s G).length = total G := by
  induction G generalizing s with
  | nil => rfl
  | cons d G ih => simp [gids, total, ih]

theorem elems_length (s : Nat) (G : List CGroup) : (elems s G).length = G.length := by
  induction G generalizing s with
  | nil => rfl
  | cons d G ih => simp [elems, ih]

theorem elems_get (s : Nat) (G : List CGroup) (k : Nat) :
    (elems s G)[k]? = (G[k]?).map fun c => (s + startOf G k, s + startOf G k + c.length) := by
  induction G generalizing s k with
  | nil => simp [elems]
  | cons d G ih =>
    cases k with
    | zero => simp [elems, startOf, total]
    | succ k => simp [elems, ih, startOf, total, Nat.add_assoc]

theorem flat_get {G : List CGroup} {k : Nat} {c : CGroup} (h : G[k]? = some c) (s p : Nat)
    (hp : p < c.length) :
    (flat s G)[startOf G k + p]? = (c[p]?).map (SubT.map (toId (s + startOf G k))) := by
  induction G generalizing s k with
  | nil => simp at h
  | cons d G ih =>
    cases k with
    | zero =>
      simp only [List.getElem?_cons_zero, Option.some.injEq] at h
      subst h
      simp only [flat, startOf, List.take_zero, total, Nat.zero_add, Nat.add_zero]
      rw [List.getElem?_append_left (by simpa using hp)]
      simp
    | succ k =>
      simp only [List.getElem?_cons_succ] at h
      have := ih h (s + d.length)
      simp only [flat, startOf, List.take_succ_cons, total]
      rw [List.getElem?_append_right (by simp; omega)]
      simp only [List.length_map]
      rw [show d.length + total (G.take k) + p - d.length = startOf G k + p by
        unfold startOf; omega, this]
      unfold startOf
      rw [Nat.add_assoc]

theorem gids_get {G : List CGroup} {k : Nat} {c : CGroup} (h : G[k]? = some c) (s p : Nat)
    (hp : p < c.length) : (gids s G)[startOf G k + p]? = some (s + k) := by
  induction G generalizing s k with
  | nil => simp at h
  | cons d G ih =>
    cases k with
    | zero =>
      simp only [List.getElem?_cons_zero, Option.some.injEq] at h
      subst h
      simp only [gids, startOf, List.take_zero, total, Nat.zero_add, Nat.add_zero]
      rw [List.getElem?_append_left (by simpa using hp)]
      simp [hp]
    | succ k =>
      simp only [List.getElem?_cons_succ] at h
      have := ih h (s + 1)
      simp only [gids, startOf, List.take_succ_cons, total]
      rw [List.getElem?_append_right (by simp; omega)]
      simp only [List.length_replicate]
      rw [show d.length + total (G.take k) + p - d.length = startOf G k + p by
        unfold startOf; omega, this]
      congr 1; omega

theorem startOf_add_le {G : List CGroup} {k : Nat} {c : CGroup} (h : G[k]? = some c) :
    startOf G k + c.length ≤ total G := by
  induction G generalizing k with
  | nil => simp at h
  | cons d G ih =>
    cases k with
    | zero => simp at h; subst h; simp [startOf, total]
    | succ k =>
      have := ih (k := k) (by simpa using h)
      simp only [startOf, List.take_succ_cons, total] at this ⊢
      omega

theorem locate {G : List CGroup} {i : Nat} (h : i < total G) :
    ∃ k c p, G[k]? = some c ∧ p < c.length ∧ i = startOf G k + p := by
  induction G generalizing i with
  | nil => simp [total] at h
  | cons d G ih =>
    by_cases hi : i < d.length
    · exact ⟨0, d, i, rfl, hi, by simp [startOf, total]⟩
    · obtain ⟨k, c, p, h1, h2, h3⟩ := ih (i := i - d.length) (by simp [total] at h; omega)
      refine ⟨k + 1, c, p, by simpa using h1, h2, ?_⟩
      simp only [startOf, List.take_succ_cons, total] at h3 ⊢
      omega

theorem startOf_append {G : List CGroup} (G' : List CGroup) {k : Nat} (h : k ≤ G.length) :
    startOf (G ++ G') k = startOf G k := by
  unfold startOf
  rw [List.take_append_of_le_length h]

theorem startOf_length (G : List CGroup) : startOf G G.length = total G := by simp [startOf]

/-! ## References are in range -/

/-- A reference of a group of `len` types whose first identifier is `s`. -/
def RefOk (s len : Nat) : CRef → Prop
  | .inl i => i < len ∧ s + i < 2 ^ 20
  | .inr j => j < s ∧ j < 2 ^ 20

/-- A supertype reference at position `p`. -/
def SupOk (p : Nat) : CRef → Prop
  | .inl i => i < p
  | .inr _ => True

/-- One group after `s` other types. -/
def GroupOk (s : Nat) (c : CGroup) : Prop :=
  (∀ x ∈ c, ∀ r ∈ x.refs, RefOk s c.length r) ∧
  (∀ p x, c[p]? = some x → ∀ r ∈ x.supertype, SupOk p r)

inductive GroupsOk : List CGroup → Prop
  | nil : GroupsOk []
  | snoc {G c} : GroupsOk G → GroupOk (total G) c → GroupsOk (G ++ [c])

theorem GroupsOk.get {G : List CGroup} (h : GroupsOk G) {k : Nat} {c : CGroup}
    (hk : G[k]? = some c) : GroupOk (startOf G k) c := by
  induction h with
  | nil => simp at hk
  | @snoc G d hG hd ih =>
    by_cases hl : k < G.length
    · rw [List.getElem?_append_left hl] at hk
      rw [startOf_append _ (by omega)]
      exact ih hk
    · have : k = G.length := by
        by_contra hne
        rw [List.getElem?_eq_none (by simp; omega)] at hk
        cases hk
      subst this
      simp at hk
      subst hk
      rw [startOf_append _ (Nat.le_refl _), startOf_length]
      exact hd

/-! ## Closing the references -/

/-- A canonical reference with the defined types of all identifiers known. -/
def cl (ds : List DefType) : CRef → Nat ⊕ DefType
  | .inl i => .inl i
  | .inr j => match ds[j]? with
    | some d => .inr d
    | none => .inl 0

/-- The defined types of a canonical group. -/
def closeG (ds : List DefType) (c : CGroup) : List DefType :=
  (List.range c.length).map (DefType.mk (c.map (SubT.map (cl ds))))

/-- The defined types of all identifiers. -/
def closeAll (G : List CGroup) : List DefType := G.foldl (fun ds c => ds ++ closeG ds c) []

theorem closeAll_snoc (G : List CGroup) (c : CGroup) :
    closeAll (G ++ [c]) = closeAll G ++ closeG (closeAll G) c := by
  simp [closeAll, List.foldl_append]

theorem closeAll_length (G : List CGroup) : (closeAll G).length = total G := by
  induction G using List.reverseRecOn with
  | nil => rfl
  | append_singleton G c ih => simp [closeAll_snoc, total_snoc, ih, closeG]

/-- Identifiers are below the number of types. -/
def IdsBelow (n : Nat) (c : CGroup) : Prop := ∀ x ∈ c, ∀ r ∈ x.refs, ∀ j, r = .inr j → j < n

theorem GroupOk.ids {s n : Nat} {c : CGroup} (h : GroupOk s c) (hs : s ≤ n) : IdsBelow n c := by
  rintro x hx r hr j rfl
  have := (h.1 x hx _ hr).1
  omega

theorem close_append' {ds : List DefType} (es : List DefType) {c : CGroup}
    (h : IdsBelow ds.length c) :
    c.map (SubT.map (cl (ds ++ es))) = c.map (SubT.map (cl ds)) := by
  refine group_map_congr fun r hr => ?_
  obtain ⟨x, hx, hr⟩ := List.mem_flatMap.1 hr
  cases r with
  | inl i => rfl
  | inr j => simp only [cl]; rw [List.getElem?_append_left (h x hx _ hr j rfl)]

theorem closeG_append' {ds : List DefType} (es : List DefType) {c : CGroup}
    (h : IdsBelow ds.length c) : closeG (ds ++ es) c = closeG ds c := by
  unfold closeG; rw [close_append' es h]

theorem closeG_get (ds : List DefType) (c : CGroup) (p : Nat) (hp : p < c.length) :
    (closeG ds c)[p]? = some (.mk (c.map (SubT.map (cl ds))) p) := by
  simp [closeG, hp]

theorem closeAll_get {G : List CGroup} (hG : GroupsOk G) {k : Nat} {c : CGroup}
    (hk : G[k]? = some c) {p : Nat} (hp : p < c.length) :
    (closeAll G)[startOf G k + p]? = some (.mk (c.map (SubT.map (cl (closeAll G)))) p) := by
  induction hG with
  | nil => simp at hk
  | @snoc G d hG hd ih =>
    rw [closeAll_snoc]
    by_cases hl : k < G.length
    · rw [List.getElem?_append_left hl] at hk
      rw [startOf_append _ (by omega)]
      have := startOf_add_le hk
      rw [List.getElem?_append_left (by rw [closeAll_length]; omega), ih hk]
      rw [close_append' _ ((hG.get hk).ids (by rw [closeAll_length]; omega))]
    · have : k = G.length := by
        by_contra hne
        rw [List.getElem?_eq_none (by simp; omega)] at hk
        cases hk
      subst this
      simp at hk
      subst hk
      rw [startOf_append _ (Nat.le_refl _), startOf_length,
        List.getElem?_append_right (by rw [closeAll_length]; omega), closeAll_length,
        Nat.add_sub_cancel_left, closeG_get _ _ _ hp,
        close_append' _ (hd.ids (Nat.le_of_eq (closeAll_length _).symm))]

theorem cl_inj {ds : List DefType} (h : ds.Nodup) {r s : CRef}
    (hr : ∀ j, r = .inr j → j < ds.length) (hs : ∀ j, s = .inr j → j < ds.length)
    (e : cl ds r = cl ds s) : r = s := by
  cases r with
  | inl i =>
    cases s with
    | inl j => simpa [cl] using e
    | inr j =>
      have := hs j rfl
      simp [cl, List.getElem?_eq_getElem this] at e
  | inr i =>
    have h1 := hr i rfl
    cases s with
    | inl j => simp [cl, List.getElem?_eq_getElem h1] at e
    | inr j =>
      have h2 := hs j rfl
      simp only [cl, List.getElem?_eq_getElem h1, List.getElem?_eq_getElem h2, Sum.inr.injEq] at e
      rw [(List.Nodup.getElem_inj_iff h).1 e]

/-- Different canonical groups close to different defined types. -/
theorem closeAll_nodup {G : List CGroup} (hG : GroupsOk G) (h : G.Nodup) : (closeAll G).Nodup := by
  induction hG with
  | nil => simp [closeAll]
  | @snoc G c hG hc ih =>
    rw [List.nodup_append] at h
    obtain ⟨h1, _, h3⟩ := h
    rw [closeAll_snoc, List.nodup_append]
    refine ⟨ih h1, ?_, ?_⟩
    · refine List.Nodup.map (fun i j hij => ?_) List.nodup_range
      injection hij
    · rintro d hd e he rfl
      obtain ⟨i, hi⟩ := List.mem_iff_getElem?.1 hd
      have hlt : i < total G := by
        rw [← closeAll_length]; exact (List.getElem?_eq_some_iff.1 hi).1
      obtain ⟨k, c', p, hk, hp, rfl⟩ := locate hlt
      rw [closeAll_get hG hk hp] at hi
      simp only [closeG, List.mem_map, List.mem_range] at he
      obtain ⟨q, hq, rfl⟩ := he
      simp only [Option.some.injEq, DefType.mk.injEq] at hi
      have hkl := startOf_add_le hk
      have hids := (hG.get hk).ids (n := (closeAll G).length) (by rw [closeAll_length]; omega)
      have hids' := hc.ids (n := (closeAll G).length) (Nat.le_of_eq (closeAll_length _).symm)
      have : c' = c := by
        refine group_map_inj (g := cl (closeAll G)) ?_ hi.1
        intro r hr s hs e
        obtain ⟨x, hx, hr⟩ := List.mem_flatMap.1 hr
        obtain ⟨y, hy, hs⟩ := List.mem_flatMap.1 hs
        exact cl_inj (ih h1) (hids x hx r hr) (hids' y hy s hs) e
      subst this
      exact h3 c' (List.mem_iff_getElem?.2 ⟨k, hk⟩) c' (by simp) rfl

/-! ## Modules -/

/-- A module's index as a canonical reference. -/
def canon (m : List Nat) (i : Nat) : CRef :=
  match m[i]? with
  | some id => .inr id
  | none => .inl (i - m.length)

/-- The groups `gs` of a module have been canonicalized to groups of `G`, and `m` are the
resulting identifiers. -/
inductive ModOk (G : List CGroup) : List Nat → List (List (SubT Nat)) → Prop
  | nil : ModOk G [] []
  | snoc {m gs k xs} : ModOk G m gs → G[k]? = some (xs.map (SubT.map (canon m))) →
      (∀ x ∈ xs, ∀ r ∈ x.refs, r < m.length + xs.length) →
      ModOk G (m ++ List.range' (startOf G k) xs.length) (gs ++ [xs])

theorem ModOk.mono {G : List CGroup} (G' : List CGroup) {m : List Nat}
    {gs : List (List (SubT Nat))} (h : ModOk G m gs) : ModOk (G ++ G') m gs := by
  induction h with
  | nil => exact .nil
  | @snoc m gs k xs _ hk hr ih =>
    have hl := (List.getElem?_eq_some_iff.1 hk).1
    rw [← startOf_append G' (Nat.le_of_lt hl)]
    exact .snoc ih (by rw [List.getElem?_append_left hl]; exact hk) hr

theorem rollAll_snoc (gs : List (List (SubT Nat))) (g : List (SubT Nat)) :
    rollAll (gs ++ [g]) = rollAll gs ++ roll (rollAll gs) g := by
  simp [rollAll, List.foldl_append]

theorem ModOk.length {G : List CGroup} {m : List Nat} {gs : List (List (SubT Nat))}
    (h : ModOk G m gs) : m.length = gs.flatten.length := by
  induction h with
  | nil => rfl
  | snoc _ _ _ ih => simp [ih]

theorem ModOk.lt {G : List CGroup} {m : List Nat} {gs : List (List (SubT Nat))}
    (h : ModOk G m gs) : ∀ id ∈ m, id < total G := by
  induction h with
  | nil => simp
  | snoc _ hk _ ih =>
    intro id hid
    rcases List.mem_append.1 hid with hid | hid
    · exact ih id hid
    · have := startOf_add_le hk
      simp at hid this
      omega

/-- The identifiers of a module stand for the defined types of the specification. -/
theorem ModOk.close {G : List CGroup} (hG : GroupsOk G) {m : List Nat}
    {gs : List (List (SubT Nat))} (h : ModOk G m gs) :
    (rollAll gs).map some = m.map fun i => (closeAll G)[i]? := by
  induction h with
  | nil => rfl
  | @snoc m gs k xs _ hk _ ih =>
    rw [rollAll_snoc, List.map_append, List.map_append, ih]
    congr 1
    have hlen : (rollAll gs).length = m.length := by
      have := congrArg List.length ih; simpa using this
    have hget : ∀ i : Nat, (rollAll gs)[i]? = (m[i]?).bind fun j => (closeAll G)[j]? := by
      intro i
      have := congrArg (fun l => l[i]?) ih
      simp only [List.getElem?_map] at this
      cases h1 : (rollAll gs)[i]? <;> cases h2 : m[i]? <;> simp_all
    have hmap : (xs.map (SubT.map (canon m))).map (SubT.map (cl (closeAll G))) =
        xs.map (SubT.map fun i => match (rollAll gs)[i]? with
          | some d => .inr d
          | none => .inl (i - (rollAll gs).length)) := by
      rw [List.map_map]
      refine List.map_congr_left fun x _ => ?_
      simp only [Function.comp_apply, SubT.map_map]
      refine SubT.map_congr fun r _ => ?_
      rw [hget r, hlen]
      unfold canon
      cases h1 : m[r]? with
      | none => simp [cl]
      | some j =>
        have hj : (closeAll G)[j]?.isSome := by
          have h2 : r < (rollAll gs).length := by rw [hlen]; exact (List.getElem?_eq_some_iff.1 h1).1
          have h3 := hget r
          rw [h1, List.getElem?_eq_getElem h2] at h3
          simp at h3
          rw [← h3]; rfl
        obtain ⟨d, hd⟩ := Option.isSome_iff_exists.1 hj
        simp [cl, hd]
    apply List.ext_getElem?
    intro p
    simp only [List.getElem?_map, roll, List.map_map]
    by_cases hp : p < xs.length
    · rw [List.getElem?_range hp, List.getElem?_range' hp]
      simp only [Option.map_some, Function.comp_apply, Nat.one_mul]
      rw [closeAll_get hG hk (by simpa using hp), hmap]
      rfl
    · rw [List.getElem?_eq_none (by simpa using hp), List.getElem?_eq_none (by simpa using hp)]
      rfl

end Verif.TypeList
