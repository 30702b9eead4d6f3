import Verif.TypeList.Big
import Verif.TypeList.Parsed
/-!
# Properties of the validator's list of types (C13, C23, C41, C42, C43)

`Reaches f ops os s`: a validator with features `f` did `ops` (starting modules, and adding
recursion groups to any of them), whose sources are `os`, without an error, and its state is
`s`. `View s.types L`: the packed types in its list stand for `L`.
-/
namespace Verif.TypeList
open Verif.Types Verif.Reader Spec

variable {f : Features} {ops : List Op} {os : List SrcOp} {s : State} {L : List (SubT Nat)}

/-! ## The hypotheses can be met -/

/-- Every recursion group the parser reads has a source, and so has every history of parsed
groups. -/
theorem parsed_source (r r' : Reader) (g : RecGroup) (h : readRecGroup r = .ok (g, r')) :
    ∃ xs, Src g xs := src_group r r' g h

/-- The list of types after a history always stands for some list. -/
theorem reaches_view (h : Reaches f ops os s) : ∃ L, View s.types L := by
  obtain ⟨G, hG⟩ := h.inv
  exact ⟨_, hG.1.toStatic.view⟩

/-- It stands for only one. -/
theorem view_unique {T : TypeList} {L L' : List (SubT Nat)} (h : View T L) (h' : View T L') :
    L = L' := h.unique h'

/-! ## C13: subtyping -/

/-- **C13.** `reftype_is_subtype` never stops early on types of the list, and its answer is
subtyping of the specification: the closure of the axioms under reflexivity and transitivity,
for the declarations in the list. -/
theorem c13_ref (h : Reaches f ops os s) (hL : View s.types L) {a b : RefType} {x y : Ref Nat}
    (ha : RefIs L a x) (hb : RefIs L b y) :
    ∃ r, reftypeIsSubtype s.types a b = .ok r ∧ (r = true ↔ RefSub (declsOf L) x y) := by
  obtain ⟨G, ⟨hi, _⟩, e⟩ := h.view hL
  obtain ⟨r, h1, h2, h3⟩ := refDecides hi.toStatic ha.1 hb.1 (view_in e ha.2) (view_in e hb.2)
    none none
  subst e
  exact ⟨r, h1, h2, fun hs => h3 hi.declsOk hs⟩

/-- **C13** for value types. -/
theorem c13_val (h : Reaches f ops os s) (hL : View s.types L) {a b : ValType} {x y : Val Nat}
    (ha : ValIs L a x) (hb : ValIs L b y) :
    ∃ r, valtypeIsSubtype s.types a b = .ok r ∧ (r = true ↔ ValSub (declsOf L) x y) := by
  have hxy : a = b → x = y := by
    rintro rfl
    exact Val.map_inj (fun r hr s hs e => idx_inj (ha.2 r hr).1 (hb.2 s hs).1 e)
      (DVal.right ha.1 hb.1)
  unfold valtypeIsSubtype
  by_cases hab : a = b
  · rw [if_pos hab, hxy hab]
    exact ⟨true, rfl, fun _ => .refl, fun _ => rfl⟩
  · rw [if_neg hab]
    have hne : x ≠ y := by
      rintro rfl
      exact hab (DVal.left ha.1 hb.1)
    obtain ⟨ha1, ha2⟩ := ha
    obtain ⟨hb1, hb2⟩ := hb
    have hno : (∀ p, x ≠ .ref p) ∨ (∀ p, y ≠ .ref p) → ¬ ValSub (declsOf L) x y := by
      rintro hp hs
      cases hs with
      | refl => exact hne rfl
      | ref => exact hp.elim (fun h => h _ rfl) (fun h => h _ rfl)
    cases a <;> cases x <;> simp only [Val.map, DVal] at ha1 <;>
      cases b <;> cases y <;> simp only [Val.map, DVal] at hb1 <;>
      first
      | exact absurd rfl hab
      | (refine ⟨false, rfl, nofun, fun hs => (hno (.inl fun _ => ?_) hs).elim⟩; simp; done)
      | (refine ⟨false, rfl, nofun, fun hs => (hno (.inr fun _ => ?_) hs).elim⟩; simp; done)
      | skip
    obtain ⟨r, h1, h2⟩ := c13_ref h hL ⟨ha1, ha2⟩ ⟨hb1, hb2⟩
    exact ⟨r, h1, by rw [h2, ValSub.ref_iff]⟩

/-- **C13.** Subtyping is a partial order on the value types over the list. -/
theorem c13_order (h : Reaches f ops os s) (hL : View s.types L) {a b c : ValType}
    {x y z : Val Nat} (ha : ValIs L a x) (hb : ValIs L b y) (hc : ValIs L c z) :
    valtypeIsSubtype s.types a a = .ok true ∧
    (valtypeIsSubtype s.types a b = .ok true → valtypeIsSubtype s.types b c = .ok true →
      valtypeIsSubtype s.types a c = .ok true) ∧
    (valtypeIsSubtype s.types a b = .ok true → valtypeIsSubtype s.types b a = .ok true →
      a = b) := by
  have key : ∀ {a b : ValType} {x y : Val Nat}, ValIs L a x → ValIs L b y →
      (valtypeIsSubtype s.types a b = .ok true ↔ ValSub (declsOf L) x y) := by
    intro a b x y ha hb
    obtain ⟨r, h1, h2⟩ := c13_val h hL ha hb
    rw [h1, ← h2]
    simp
  refine ⟨(key ha ha).2 .refl, ?_, ?_⟩
  · rw [key ha hb, key hb hc, key ha hc]
    exact ValSub.trans
  · rw [key ha hb, key hb ha]
    intro h1 h2
    obtain ⟨G, ⟨hi, _⟩, e⟩ := h.view hL
    have hxy : x = y := by
      cases h1 with
      | refl => rfl
      | @ref p q h1 =>
        rw [ValSub.ref_iff] at h2
        subst e
        have e1 := Alg.antisymm hi.declsOk (.complete hi.declsOk h1.2) (.complete hi.declsOk h2.2)
        obtain ⟨n, p⟩ := p
        obtain ⟨n', q⟩ := q
        have e2 : n = n' := by
          have h3 := h1.1; have h4 := h2.1
          simp only at h3 h4
          cases n <;> cases n' <;> simp_all
        simp only at e1
        rw [e1, e2]
    subst hxy
    exact DVal.left ha.1 hb.1

/-- **C13.** `top_type` returns an abstract type above everything that is above its argument.
-/
theorem c13_top (h : Reaches f ops os s) (hL : View s.types L) {a : RefType} {x : Ref Nat}
    (ha : RefIs L a x) : ∃ ah sh t, a.heapType = some ah ∧
      topType s.types ah = .ok (.abstract sh t) ∧
      ∀ y, HeapSub (declsOf L) x.heap y → HeapSub (declsOf L) y (.abs sh t) := by
  obtain ⟨G, ⟨hi, _⟩, e⟩ := h.view hL
  obtain ⟨_, h1⟩ := ha.1.view
  have hin := view_in e ha.2
  subst e
  obtain ⟨n, x⟩ := x
  have conc : ∀ i : Nat, In G [i] → ∃ sh t, topType s.types (.concrete (idx i)) =
      .ok (.abstract sh t) ∧ topType s.types (.exact (idx i)) = .ok (.abstract sh t) ∧
      (∃ k, (declsG G).info i = some (sh, k) ∧ absTop k.top = t) := by
    intro i hin
    have hi' := hin i (by simp)
    obtain ⟨t, z, h2, h3, h4⟩ := hi.toStatic.at hi'.2
    obtain ⟨_, _, hs, _, _, hd⟩ := h4
    refine ⟨z.shared, absTop z.comp.kind.top, ?_, ?_, z.comp.kind, by simp [declsG, h3], rfl⟩ <;>
    · simp only [topType, idx, toNat_small hi'.1, typeAt, h2, unwrap, ok_bind]
      have hs : t.compositeType.shared = z.shared := hs
      rw [hs]
      have hd : DComp t.compositeType.inner (z.comp.map idx) := hd
      generalize t.compositeType.inner = c at hd
      generalize z.comp = w at hd ⊢
      cases c <;> cases w <;> simp only [Comp.map, DComp] at hd <;> rfl
  have maxi : ∀ (i : Nat) (sh : Bool) (k : Kind) (y : Heap Nat), (declsG G).info i = some (sh, k) →
      Alg (declsG G) (.concrete i) y ∨ Alg (declsG G) (.exact i) y →
      HeapSub (declsG G) y (.abs sh (absTop k.top)) := by
    intro i sh k y hk hy
    cases y with
    | abs s' b =>
      have : ∃ k, (declsG G).info i = some (s', k) ∧ below k b = true := hy.elim id id
      obtain ⟨k', e1, e2⟩ := this
      rw [hk] at e1
      cases e1
      exact abs_heapSub (abs_top_max _ _ e2)
    | concrete j =>
      have hc : Chain (declsG G) i j := hy.elim id id
      rw [chain_info_eq hi.declsOk hc] at hk
      refine .head (.top hk) (abs_heapSub ?_)
      cases k <;> rfl
    | exact j =>
      rcases hy with hy | hy
      · exact hy.elim
      · have hy : i = j := hy
        subst hy
        refine .head (.exact hk) (.head (.top hk) (abs_heapSub ?_))
        cases k <;> rfl
  cases x with
  | abs sh t =>
    refine ⟨_, sh, absTop t, h1, rfl, fun y hy => ?_⟩
    have hy : Alg (declsG G) (.abs sh t) y := Alg.complete hi.declsOk hy
    cases y with
    | abs s' b =>
      obtain ⟨e1, e2⟩ := hy
      subst e1
      exact abs_heapSub (abs_top_max _ _ e2)
    | concrete j =>
      obtain ⟨k, hk, rfl⟩ := hy
      refine .head (.top hk) (abs_heapSub ?_)
      cases k <;> rfl
    | exact j =>
      obtain ⟨k, hk, rfl⟩ := hy
      refine .head (.exact hk) (.head (.top hk) (abs_heapSub ?_))
      cases k <;> rfl
  | concrete i =>
    obtain ⟨sh, t, h2, _, k, h3, h4⟩ := conc i hin
    refine ⟨_, sh, t, h1, h2, fun y hy => ?_⟩
    rw [← h4]
    exact maxi i sh k y h3 (.inl (Alg.complete hi.declsOk hy))
  | exact i =>
    obtain ⟨sh, t, _, h2, k, h3, h4⟩ := conc i hin
    refine ⟨_, sh, t, h1, h2, fun y hy => ?_⟩
    rw [← h4]
    exact maxi i sh k y h3 (.inr (Alg.complete hi.declsOk hy))

/-- **C13.** Related reference types are both shared or both unshared, and have the same top
type. -/
theorem c13_related (h : Reaches f ops os s) (hL : View s.types L) {a b : RefType}
    {x y : Ref Nat} (ha : RefIs L a x) (hb : RefIs L b y)
    (hs : reftypeIsSubtype s.types a b = .ok true) :
    (∃ r, reftypeIsShared s.types a = .ok r ∧ reftypeIsShared s.types b = .ok r) ∧
    ∃ ah bh t, a.heapType = some ah ∧ b.heapType = some bh ∧ topType s.types ah = .ok t ∧
      topType s.types bh = .ok t := by
  obtain ⟨r, h1, h2⟩ := c13_ref h hL ha hb
  rw [hs] at h1
  cases h1
  have hsub := h2.1 rfl
  obtain ⟨G, ⟨hi, _⟩, e⟩ := h.view hL
  constructor
  · have key : ∀ {a : RefType} {x : Ref Nat}, RefIs L a x →
        ∃ r, reftypeIsShared s.types a = .ok r ∧ heapShared (declsG G) x.heap = some r := by
      intro a x ha
      obtain ⟨_, hv⟩ := ha.1.view
      have hin := view_in e ha.2
      obtain ⟨n, x⟩ := x
      cases x with
      | abs s t => exact ⟨s, by unfold reftypeIsShared; rw [hv]; rfl, rfl⟩
      | concrete i =>
        have hi' := hin i (by simp [Heap.refs])
        obtain ⟨t, z, h2, h3, h4⟩ := hi.toStatic.at hi'.2
        refine ⟨z.shared, ?_, by simp [heapShared, declsG, h3]⟩
        unfold reftypeIsShared
        rw [hv]
        simp only [Ref.map, Heap.map, toHeap, idx, toNat_small hi'.1, typeAt, h2, unwrap, ok_bind]
        have := h4.2.2.1
        rw [this]; rfl
      | exact i =>
        have hi' := hin i (by simp [Heap.refs])
        obtain ⟨t, z, h2, h3, h4⟩ := hi.toStatic.at hi'.2
        refine ⟨z.shared, ?_, by simp [heapShared, declsG, h3]⟩
        unfold reftypeIsShared
        rw [hv]
        simp only [Ref.map, Heap.map, toHeap, idx, toNat_small hi'.1, typeAt, h2, unwrap, ok_bind]
        have := h4.2.2.1
        rw [this]; rfl
    obtain ⟨r, k1, k2⟩ := key ha
    obtain ⟨r', k3, k4⟩ := key hb
    subst e
    have := alg_shared hi.declsOk (.complete hi.declsOk hsub.2)
    rw [k2, k4] at this
    cases this
    exact ⟨r, k1, k3⟩
  · obtain ⟨ah, sh, t, a1, a2, a3⟩ := c13_top h hL ha
    obtain ⟨bh, sh', t', b1, b2, b3⟩ := c13_top h hL hb
    refine ⟨ah, bh, .abstract sh t, a1, b1, a2, ?_⟩
    subst e
    have c1 : HeapSub (declsG G) (.abs sh' t') (.abs sh t) :=
      a3 _ (hsub.2.trans (b3 _ .refl))
    have c2 : HeapSub (declsG G) (.abs sh t) (.abs sh' t') := b3 _ (a3 _ hsub.2)
    have := Alg.antisymm hi.declsOk (.complete hi.declsOk c1) (.complete hi.declsOk c2)
    cases this
    exact b2

/-! ## C23: canonicalization -/

/-- **C23.** In a validator that canonicalizes types, every type of every module has an
identifier, and two types of any two modules have the same identifier exactly when they are
the same defined type of the specification (equal rolled up recursion groups, and the same
position). -/
theorem c23_ids (h : Reaches f ops os s) (hf : f.needsTypeCanonicalization = true)
    {n n' : Nat} {m m' : List Nat} {gs gs' : List (List (SubT Nat))}
    (hm : s.modules[n]? = some m) (hg : (groupsOf os)[n]? = some gs)
    (hm' : s.modules[n']? = some m') (hg' : (groupsOf os)[n']? = some gs') :
    m.length = gs.flatten.length ∧
    ∀ (i i' id id' : Nat), m[i]? = some id → m'[i']? = some id' →
      (id = id' ↔ (rollAll gs)[i]? = (rollAll gs')[i']?) := by
  obtain ⟨G, hi, hms⟩ := h.inv
  have get : ∀ {n : Nat} {m gs}, s.modules[n]? = some m → (groupsOf os)[n]? = some gs →
      ModOk G m gs := by
    intro n m gs h1 h2
    rcases forall₂_get hms n with ⟨h3, _⟩ | ⟨m', gs', h3, h4, h5⟩
    · rw [h3] at h1; cases h1
    · rw [h1] at h3; rw [h2] at h4; cases h3; cases h4; exact h5
  have o := get hm hg
  have o' := get hm' hg'
  refine ⟨o.length, fun i i' id id' h1 h2 => ?_⟩
  have roll : ∀ {m gs} (i id : Nat), ModOk G m gs → m[i]? = some id →
      (rollAll gs)[i]? = (closeAll G)[id]? ∧ id < (closeAll G).length := by
    intro m gs i id ho hid
    have := congrArg (fun l => l[i]?) (ho.close hi.gok)
    simp only [List.getElem?_map, hid, Option.map_some] at this
    have hlt := ho.lt id (List.mem_iff_getElem?.2 ⟨i, hid⟩)
    rw [← closeAll_length] at hlt
    refine ⟨?_, hlt⟩
    rw [List.getElem?_eq_getElem hlt] at this ⊢
    cases h3 : (rollAll gs)[i]? with
    | none => rw [h3] at this; cases this
    | some d => rw [h3] at this; simpa using this
  obtain ⟨r1, l1⟩ := roll i id o h1
  obtain ⟨r2, l2⟩ := roll i' id' o' h2
  rw [r1, r2]
  constructor
  · rintro rfl; rfl
  · intro he
    rw [List.getElem?_eq_getElem l1, List.getElem?_eq_getElem l2, Option.some.injEq] at he
    exact (List.Nodup.getElem_inj_iff (closeAll_nodup hi.gok (hi.nodup hf))).1 he

/-- **C23.** The type in the list at the identifier of a module's type is that type, with
module indices replaced by their identifiers. All its indices are in range. -/
theorem c23_types (h : Reaches f ops os s) (hL : View s.types L)
    {n : Nat} {m : List Nat} {gs : List (List (SubT Nat))}
    (hm : s.modules[n]? = some m) (hg : (groupsOf os)[n]? = some gs) (i : Nat) (x : SubT Nat)
    (hx : gs.flatten[i]? = some x) :
    (∀ r ∈ x.refs, r < m.length) ∧ ∃ id, m[i]? = some id ∧
      L[id]? = some (x.map fun r => (m[r]?).getD 0) := by
  obtain ⟨G, ⟨hi, hms⟩, rfl⟩ := h.view hL
  have o : ModOk G m gs := by
    rcases forall₂_get hms n with ⟨h3, _⟩ | ⟨m', gs', h3, h4, h5⟩
    · rw [h3] at hm; cases hm
    · rw [hm] at h3; rw [hg] at h4; cases h3; cases h4; exact h5
  have hlt : i < m.length := by rw [o.length]; exact (List.getElem?_eq_some_iff.1 hx).1
  have := o.types i x _ hx (List.getElem?_eq_getElem hlt)
  exact ⟨this.1, _, List.getElem?_eq_getElem hlt, this.2⟩

/-- **C23.** Identifiers are stable: whatever is added later, the list only grows. -/
theorem c23_stable {ops' : List Op} {os' : List SrcOp} {s' : State}
    (h : Reaches f ops os s) (ho : List.Forall₂ OpIs ops' os')
    (hr : run f s ops' = .ok s') : s.types.coreTypes <+: s'.types.coreTypes := by
  obtain ⟨G, hG⟩ := h.inv
  obtain ⟨G', hG'⟩ := run_spec hG ho hr
  have h1 := hG.1.types
  have h2 := hG'.1.types
  obtain ⟨t, ht⟩ := flat_prefix G G'
  rw [← ht] at h2
  have h3 := List.forall₂_take (flat 0 G).length h2
  rw [List.take_left] at h3
  rw [forall₂_left (D := fun (t : SubType) (x : SubT Nat) => DSub t (x.map idx))
    (fun _ _ _ => DSub.left) h1 h3]
  exact List.take_prefix _ _

/-! ## C41: declared subtypes -/

/-- **C41.** A declared supertype comes earlier, is not final, has the same sharedness, and is
a structural supertype. -/
theorem c41_declared (h : Reaches f ops os s) (hL : View s.types L) {i j : Nat} {x : SubT Nat}
    (hx : L[i]? = some x) (hj : x.supertype = some j) :
    j < i ∧ ∃ y, L[j]? = some y ∧ y.final = false ∧ x.shared = y.shared ∧
      CompSub (declsOf L) x.comp y.comp := by
  obtain ⟨G, ⟨hi, _⟩, rfl⟩ := h.view hL
  obtain ⟨y, d, h1, h2, h3, h4, _⟩ := (hi.sub i x (flat_lt hx) hx).2.1 j hj
  exact ⟨(flat_refs hi.gok hx).2 j hj, y, h1, h2, h3, h4⟩

/-- **C41.** So every type is a structural subtype of all its declared ancestors. -/
theorem c41_ancestors (h : Reaches f ops os s) (hL : View s.types L) {i j : Nat} {x y : SubT Nat}
    (hx : L[i]? = some x) (hy : L[j]? = some y)
    (hij : HeapSub (declsOf L) (.concrete i) (.concrete j)) :
    x.shared = y.shared ∧ CompSub (declsOf L) x.comp y.comp := by
  obtain ⟨G, ⟨hi, _⟩, rfl⟩ := h.view hL
  have hc : Chain (declsG G) i j := Alg.complete hi.declsOk hij
  clear hij
  induction hc using Relation.ReflTransGen.head_induction_on generalizing x with
  | refl =>
    rw [hx] at hy
    cases hy
    exact ⟨rfl, CompSub.refl _ _⟩
  | @head i k hik _ ih =>
    simp only [declsG, Option.bind_eq_some_iff] at hik
    obtain ⟨x', hx', hk⟩ := hik
    rw [hx] at hx'
    cases hx'
    obtain ⟨_, z, h1, _, h3, h4⟩ := c41_declared h hL hx hk
    obtain ⟨h5, h6⟩ := ih h1
    exact ⟨h3.trans h5, CompSub.trans h4 h6⟩

/-- **C41.** No chain of declared supertypes is longer than 63 steps. -/
theorem c41_depth (h : Reaches f ops os s) (hL : View s.types L) (l : List Nat)
    (hl : l.IsChain fun i j => (declsOf L).super i = some j) : l.length ≤ 64 := by
  obtain ⟨G, ⟨hi, _⟩, rfl⟩ := h.view hL
  have key : ∀ (l : List Nat) (a : Nat),
      (a :: l).IsChain (fun i j => (declsG G).super i = some j) →
      l = [] ∨ ∃ d, s.types.coreTypeToDepth a = some d ∧ l.length ≤ d := by
    intro l
    induction l with
    | nil => intro a _; exact .inl rfl
    | cons b l ih =>
      intro a hc
      rw [List.isChain_cons_cons] at hc
      obtain ⟨h1, h2⟩ := hc
      simp only [declsG, Option.bind_eq_some_iff] at h1
      obtain ⟨x, hx, hb⟩ := h1
      obtain ⟨y, d, _, _, _, _, h3, h4⟩ := (hi.sub a x (flat_lt hx) hx).2.1 b hb
      refine .inr ⟨d + 1, h4, ?_⟩
      rcases ih b h2 with rfl | ⟨d', h5, h6⟩
      · simp
      · rw [h3] at h5
        cases h5
        simpa using h6
  cases l with
  | nil => simp
  | cons a l =>
    rcases key l a hl with rfl | ⟨d, h1, h2⟩
    · simp
    · have := hi.depthLe a d h1
      simp only [maxSubtypingDepth] at this
      simp only [List.length_cons]
      omega

/-! ## C42: no panics -/

/-- **C42** (partial: only while there are at most 2^20 types, see `c42_false`). Adding a
recursion group neither panics nor loops: it succeeds or reports an error. -/
theorem c42_no_panic_partial (h : Reaches f ops os s) {op : Op} {o : SrcOp} (ho : OpIs op o)
    (hroom : Room s o) : step f s op ≠ .error .panic ∧ step f s op ≠ .error .diverges := by
  obtain ⟨G, hG⟩ := h.inv
  have := (step_spec (sz := True) hG ho fun _ => hroom).2
  exact ⟨fun e => this (.inl e) trivial, fun e => this (.inr e) trivial⟩

/-- Without that bound it is false: after two modules of 1000000 and 100000 types, a third
module with the group `(rec (type (struct (field (ref null 0)))))` panics. -/
theorem c42_false : ∃ f ops os s op o, Reaches f ops os s ∧ OpIs op o ∧
    (∀ n xs, o = .add n xs → n < s.modules.length ∧ xs.length = 1) ∧
    step f s op = .error .panic := by
  obtain ⟨s, h1, h2⟩ := big_reaches (a := 1000000) (b := 100000) (by omega) (by omega) (by omega)
    (by omega) (by omega) (by omega)
  refine ⟨_, _, _, s, .add 2 (.explicit [(0, selfT)]), .add 2 [selfX], h1, ⟨rfl, src_self⟩, ?_, h2⟩
  rintro n xs ⟨⟩
  refine ⟨?_, rfl⟩
  unfold step at h2
  cases hm : s.modules[2]? with
  | some m => exact (List.getElem?_eq_some_iff.1 hm).1
  | none =>
    obtain ⟨G, hG⟩ := h1.inv
    have h3 := hG.2.length_eq
    rw [List.getElem?_eq_none_iff] at hm
    have h4 : (groupsOf (bigSource 1000000 100000)).length = 3 := by
      simp only [groupsOf, bigSource, List.foldl, groupsStep, List.length_append,
        List.length_modify, List.length_nil, List.length_cons]
    omega

/-! ## C43: shared types, continuations, descriptors -/

/-- **C43.** A shared type contains only shared types; a continuation type is of a function
type. -/
theorem c43_shared (h : Reaches f ops os s) (hL : View s.types L) {i : Nat} {x : SubT Nat}
    (hx : L[i]? = some x) :
    (x.shared = true → compShared (declsOf L) x.comp) ∧
    ∀ j, x.comp = .cont j → ∃ y ps rs, L[j]? = some y ∧ y.comp = .func ps rs := by
  obtain ⟨G, ⟨hi, _⟩, rfl⟩ := h.view hL
  obtain ⟨_, _, h1, h2, -⟩ := hi.sub i x (flat_lt hx) hx
  refine ⟨h1, fun j hj => ?_⟩
  obtain ⟨sh, h3⟩ := h2 j hj
  simp only [declsG, Option.map_eq_some_iff] at h3
  obtain ⟨y, hy, e⟩ := h3
  cases hc : y.comp with
  | func ps rs => exact ⟨y, ps, rs, hy, hc⟩
  | _ => rw [hc] at e; simp [Comp.kind] at e

/-- **C43.** Descriptor and describes clauses are only on structures and are inverse to each
other, and declared supertypes respect them. -/
theorem c43_descriptors (h : Reaches f ops os s) (hL : View s.types L) {i : Nat} {x : SubT Nat}
    (hx : L[i]? = some x) :
    (x.descriptor.isSome ∨ x.describes.isSome → ∃ fs, x.comp = .struct fs) ∧
    (∀ d, x.descriptor = some d → ∃ y, L[d]? = some y ∧ y.describes = some i) ∧
    (∀ d, x.describes = some d → ∃ y, L[d]? = some y ∧ y.descriptor = some i) ∧
    (∀ j y, x.supertype = some j → L[j]? = some y →
      (∀ sd, y.descriptor = some sd → ∃ d z, x.descriptor = some d ∧ L[d]? = some z ∧
        z.supertype = some sd) ∧
      (∀ sd, y.describes = some sd → ∃ d z, x.describes = some d ∧ L[d]? = some z ∧
        z.supertype = some sd) ∧
      (y.describes = none → x.describes = none)) := by
  obtain ⟨G, ⟨hi, _⟩, rfl⟩ := h.view hL
  obtain ⟨h1, h2, h3, h4⟩ := hi.desc i x (flat_lt hx) hx
  refine ⟨fun e => ?_, h2, h3, h4⟩
  have := h1 e
  cases hc : x.comp with
  | struct fs => exact ⟨fs, rfl⟩
  | _ => rw [hc] at this; simp [Comp.kind] at this

/-! ## Examples -/

namespace Sample

def i (n : BitVec 32) : Option PackedIndex := PackedIndex.fromModuleIndex n

/-- `(type (sub (struct (field (ref null 1)))))`. -/
def t0 : SubType := ⟨false, none, ⟨.struct [⟨.val (.ref (RefType.concrete true ⟨1⟩)), false⟩],
  false, none, none⟩⟩
/-- `(type (sub final 0 (struct (field (ref null 1)) (field (mut i32)))))`. -/
def t1 : SubType := ⟨true, i 0, ⟨.struct [⟨.val (.ref (RefType.concrete true ⟨1⟩)), false⟩,
  ⟨.val .i32, true⟩], false, none, none⟩⟩
/-- A recursion group of both. -/
def g : RecGroup := .explicit [(0, t0), (0, t1)]

def x0 : SubT Nat := ⟨false, none, false, none, none, .struct [⟨false, .val (.ref ⟨true, .concrete 1⟩)⟩]⟩
def x1 : SubT Nat := ⟨true, some 0, false, none, none,
  .struct [⟨false, .val (.ref ⟨true, .concrete 1⟩)⟩, ⟨true, .val .i32⟩]⟩

theorem src : Src g [x0, x1] := by
  refine ⟨.cons ⟨rfl, trivial, rfl, trivial, trivial, .cons ⟨rfl, ?_⟩ .nil⟩ (.cons ⟨rfl, ?_, rfl,
    trivial, trivial, .cons ⟨rfl, ?_⟩ (.cons ⟨rfl, trivial⟩ .nil)⟩ .nil), ?_⟩
  · show RefType.new true (.concrete (.module 1)) = some (RefType.concrete true ⟨1⟩)
    decide
  · show PackedIndex.fromModuleIndex 0 = some _
    decide
  · show RefType.new true (.concrete (.module 1)) = some (RefType.concrete true ⟨1⟩)
    decide
  · intro x hx r hr
    have : r = 0 ∨ r = 1 := by
      simp only [List.mem_cons, List.not_mem_nil, or_false] at hx
      rcases hx with rfl | rfl <;>
        simp [x0, x1, SubT.refs, Comp.refs, Field.refs, Storage.refs, Val.refs, Heap.refs] at hr <;>
        omega
    omega

/-- An empty module, one with an empty structure and the group, and one with the group. -/
def hist : List Op := [.newModule, .newModule, .newModule, .add 1 (.implicit 0 unitT), .add 2 g]

def srcs : List SrcOp := [.newModule, .newModule, .newModule, .add 1 [unitX], .add 2 [x0, x1]]

def hist' : List Op := hist ++ [.add 0 g]

def srcs' : List SrcOp := srcs ++ [.add 0 [x0, x1]]

theorem ok (o : List Op) (f : Features) (h : (run f .init o).isOk = true) :
    ∃ s, run f .init o = .ok s := by
  cases hr : run f .init o with
  | ok s => exact ⟨s, rfl⟩
  | error e => rw [hr] at h; cases h

/-- The hypothesis `Reaches` of all the theorems is met. -/
theorem reaches : ∃ s, Reaches allOn hist' srcs' s := by
  obtain ⟨s, hs⟩ := ok hist' allOn (by decide +kernel)
  refine ⟨s, ?_, hs⟩
  refine .cons trivial (.cons trivial (.cons trivial (.cons ⟨rfl, ?_⟩ (.cons ⟨rfl, src⟩
    (.cons ⟨rfl, src⟩ .nil)))))
  exact ⟨.cons ⟨rfl, trivial, rfl, trivial, trivial, .nil⟩ .nil, by
    simp [unitX, SubT.refs, Comp.refs]⟩

/-- Equal groups in two modules have the same identifiers (`c23_ids`). -/
example : (run allOn .init hist').map (·.modules) = .ok [[1, 2], [0], [1, 2]] := by decide +kernel

/-- `(ref null 2)` is a subtype of `(ref null 1)`, not the other way around (`c13_ref`). -/
example : ((run allOn .init hist').bind fun s =>
    reftypeIsSubtype s.types (RefType.concrete true ⟨0x200002⟩) (RefType.concrete true ⟨0x200001⟩)) =
      .ok true ∧
    ((run allOn .init hist').bind fun s =>
    reftypeIsSubtype s.types (RefType.concrete true ⟨0x200001⟩) (RefType.concrete true ⟨0x200002⟩)) =
      .ok false := by decide +kernel

/-- The supertype may not be final, and must match (`c41_declared`). -/
example : ((run allOn .init [.newModule, .add 0 (.implicit 0 unitT),
      .add 0 (.implicit 0 ⟨true, i 0, unitT.compositeType⟩)]).map (·.modules)) =
    .error (.error "sub type cannot have a final super type") ∧
    ((run allOn .init [.newModule, .add 0 (.explicit [(0, t0), (0, ⟨true, i 0, unitT.compositeType⟩)])]).map
      (·.modules)) = .error (.error "sub type must match super type") := by decide +kernel

/-- Unshared types may not be in shared ones, but shared ones may (`c43_shared`). -/
example : ((run allOn .init [.newModule, .add 0 (.implicit 0
      ⟨true, none, ⟨.array ⟨.val (.ref (RefType.concrete true ⟨0⟩)), true⟩, true, none, none⟩⟩)]).map
      (·.modules)) = .ok [[0]] ∧
    ((run allOn .init [.newModule, .add 0 (.implicit 0 unitT), .add 0 (.implicit 0
      ⟨true, none, ⟨.array ⟨.val (.ref (RefType.concrete true ⟨0⟩)), true⟩, true, none, none⟩⟩)]).map
      (·.modules)) = .error (.error "shared composite type must contain shared types") := by
  decide +kernel

/-- A type and its descriptor (`c43_descriptors`). -/
example : ((run allOn .init [.newModule, .add 0 (.explicit
      [(0, ⟨true, none, ⟨.struct [], false, i 1, none⟩⟩),
       (0, ⟨true, none, ⟨.struct [], false, none, i 0⟩⟩)])]).map (·.modules)) = .ok [[0, 1]] ∧
    ((run allOn .init [.newModule, .add 0 (.explicit
      [(0, ⟨true, none, ⟨.struct [], false, i 1, none⟩⟩),
       (0, ⟨true, none, ⟨.struct [], false, none, none⟩⟩)])]).map (·.modules)) =
      .error (.error "descriptor/describes with no matching describes/descriptor") := by
  decide +kernel

end Sample

end Verif.TypeList
