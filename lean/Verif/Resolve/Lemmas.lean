import Verif.Resolve.Spec

namespace Verif.Resolve

open Verif.Expand

/-- A namespace holds the names of a list. -/
structure Rep (ns : Namespace) (l : List (Option Id)) : Prop where
  get : ∀ x n, ns.get x = some n ↔ l[n]? = some (some x)

theorem Rep.uniq {ns : Namespace} {l : List (Option Id)} (h : Rep ns l) : Uniq l := by
  intro n m x hn hm
  have h1 := (h.get x n).2 hn
  have h2 := (h.get x m).2 hm
  rw [h1] at h2
  exact Option.some.inj h2

theorem rep_empty : Rep .empty [] := ⟨fun x n => by simp [Namespace.get, Namespace.empty]⟩

theorem uniq_prefix {a b : List (Option Id)} (h : Uniq (a ++ b)) : Uniq a := by
  intro n m x hn hm
  have hl : ∀ {j : Nat}, a[j]? = some (some x) → (a ++ b)[j]? = some (some x) := by
    intro j hj
    rw [List.getElem?_append_left (by
      rcases Nat.lt_or_ge j a.length with h | h
      · exact h
      · rw [List.getElem?_eq_none h] at hj; cases hj)]
    exact hj
  exact h n m x (hl hn) (hl hm)

theorem getElem?_snoc {α : Type} (l : List α) (a : α) (n : Nat) :
    (l ++ [a])[n]? = if n = l.length then some a else l[n]? := by
  by_cases h : n = l.length
  · subst h; simp
  · rw [if_neg h]
    rcases Nat.lt_or_ge n l.length with h1 | h1
    · rw [List.getElem?_append_left h1]
    · rw [List.getElem?_eq_none (by simp; omega), List.getElem?_eq_none h1]

theorem get_cons (x y : Id) (n c : Nat) (names : List (Id × Nat)) :
    Namespace.get ⟨(x, n) :: names, c⟩ y = if y = x then some n else Namespace.get ⟨names, c⟩ y := by
  unfold Namespace.get
  by_cases h : y = x
  · subst h; simp
  · have : ¬ x = y := fun h' => h h'.symm
    simp [h, this]

/-- Adding a name at the end. -/
theorem rep_add {ns : Namespace} {l : List (Option Id)} (h : Rep ns l) (x : Id) (c : Nat)
    (hx : ns.get x = none) : Rep ⟨(x, l.length) :: ns.names, c⟩ (l ++ [some x]) := by
  refine ⟨fun y n => ?_⟩
  rw [get_cons, getElem?_snoc]
  have hg : Namespace.get ⟨ns.names, c⟩ y = ns.get y := rfl
  rw [hg]
  by_cases hy : y = x
  · subst hy
    rw [if_pos rfl]
    by_cases hn : n = l.length
    · simp [hn]
    · rw [if_neg hn]
      constructor
      · intro h'; exact absurd (Option.some.inj h').symm hn
      · intro h'; rw [← h.get] at h'; rw [hx] at h'; cases h'
  · rw [if_neg hy]
    by_cases hn : n = l.length
    · subst hn
      rw [if_pos rfl]
      have hyx : ¬ x = y := fun h => hy h.symm
      constructor
      · intro h'
        rw [h.get, List.getElem?_eq_none (Nat.le_refl _)] at h'
        cases h'
      · intro h'; exact absurd (Option.some.inj (Option.some.inj h')) hyx
    · rw [if_neg hn]; exact h.get y n

/-- Adding something nameless at the end. -/
theorem rep_none {ns : Namespace} {l : List (Option Id)} (h : Rep ns l) (c : Nat) :
    Rep ⟨ns.names, c⟩ (l ++ [none]) := by
  refine ⟨fun y n => ?_⟩
  rw [getElem?_snoc]
  have hg : Namespace.get ⟨ns.names, c⟩ y = ns.get y := rfl
  rw [hg, h.get]
  by_cases hn : n = l.length
  · subst hn; simp
  · rw [if_neg hn]

theorem rep_clash {ns : Namespace} {l : List (Option Id)} (h : Rep ns l) (x : Id)
    (hx : (ns.get x).isSome) (hu : Uniq (l ++ [some x])) : False := by
  obtain ⟨n, hn⟩ := Option.isSome_iff_exists.1 hx
  rw [h.get] at hn
  have hlt : n < l.length := by
    rcases Nat.lt_or_ge n l.length with h | h
    · exact h
    · rw [List.getElem?_eq_none h] at hn; cases hn
  have := hu n l.length x (by rw [List.getElem?_append_left hlt]; exact hn) (by simp)
  omega

/-- A namespace holds a list and counts it. -/
structure Full (ns : Namespace) (l : List (Option Id)) : Prop extends Rep ns l where
  count : ns.count = l.length

theorem register_spec {ns : Namespace} {l : List (Option Id)} (h : Full ns l) (o : Option Id) :
    (∀ ns', ns.register o = .ok ns' → Full ns' (l ++ [o])) ∧
      (Uniq (l ++ [o]) → ∃ ns', ns.register o = .ok ns') := by
  cases o with
  | none =>
    refine ⟨fun ns' h' => ?_, fun _ => ⟨_, rfl⟩⟩
    simp only [Namespace.register, Except.ok.injEq] at h'
    subst h'
    exact ⟨rep_none h.toRep _, by simp [h.count]⟩
  | some x =>
    simp only [Namespace.register]
    by_cases hx : (ns.get x).isSome
    · rw [if_pos hx]
      exact ⟨fun _ h' => (by cases h'), fun hu => absurd (rep_clash h.toRep x hx hu) id⟩
    · rw [if_neg hx]
      refine ⟨fun ns' h' => ?_, fun _ => ⟨_, rfl⟩⟩
      simp only [Except.ok.injEq] at h'
      subst h'
      rw [h.count]
      exact ⟨rep_add h.toRep x _ (by simpa using hx), by simp⟩

theorem registerAll_spec (xs : List (Option Id)) : ∀ {ns : Namespace} {l : List (Option Id)}, Full ns l →
    (∀ ns', registerAll xs ns = .ok ns' → Full ns' (l ++ xs)) ∧
      (Uniq (l ++ xs) → ∃ ns', registerAll xs ns = .ok ns') := by
  induction xs with
  | nil => intro ns l h; exact ⟨fun ns' h' => by cases h'; simpa using h, fun _ => ⟨_, rfl⟩⟩
  | cons x xs ih =>
    intro ns l h
    obtain ⟨h1, h2⟩ := register_spec h x
    have e : l ++ x :: xs = (l ++ [x]) ++ xs := by simp
    rw [e]
    simp only [registerAll]
    cases hr : ns.register x with
    | error er =>
      refine ⟨fun _ h' => (by cases h'), fun hu => ?_⟩
      obtain ⟨ns', hn⟩ := h2 (uniq_prefix hu)
      rw [hr] at hn; cases hn
    | ok ns1 => exact ih (h1 ns1 hr)

theorem registerFields_spec (fs : List (Option Id × Storage)) :
    ∀ (o : Option Namespace) (l : List (Option Id)), Rep (o.getD .empty) l →
    (∀ o', registerFields l.length fs o = .ok o' → Rep (o'.getD .empty) (l ++ fs.map (·.1))) ∧
      (Uniq (l ++ fs.map (·.1)) → ∃ o', registerFields l.length fs o = .ok o') := by
  induction fs with
  | nil => intro o l h; exact ⟨fun o' h' => by cases h'; simpa using h, fun _ => ⟨_, rfl⟩⟩
  | cons f fs ih =>
    intro o l h
    obtain ⟨id, st⟩ := f
    have e : l ++ ((id, st) :: fs).map (·.1) = (l ++ [id]) ++ fs.map (·.1) := by simp
    rw [e]
    cases id with
    | none =>
      have := ih o (l ++ [none]) (rep_none h _)
      simpa [registerFields] using this
    | some x =>
      simp only [registerFields, Namespace.registerSpecific]
      by_cases hx : ((o.getD .empty).get x).isSome
      · rw [if_pos hx]
        exact ⟨fun _ h' => (by cases h'), fun hu => absurd (rep_clash h x hx (uniq_prefix hu)) id⟩
      · rw [if_neg hx]
        have := ih (some ⟨(x, l.length) :: (o.getD .empty).names, (o.getD .empty).count⟩) (l ++ [some x])
          (rep_add h x _ (by simpa using hx))
        simpa using this

theorem space_append (s : Space) (a b : List Decl) : space s (a ++ b) = space s a ++ space s b := by
  simp [space]

theorem types_append (a b : List Decl) : types (a ++ b) = types a ++ types b := by
  simp [types]

/-- What the resolver knows after the declarations `ds`. -/
structure RInv (r : Resolver) (ds : List Decl) : Prop where
  ns : ∀ s, Full (r.ns s) (space s ds)
  fields : ∀ n, Rep ((r.fields n).getD .empty) (((types ds)[n]?.map fieldNames).getD [])
  info : r.typeInfo = (types ds).map TypeDef.sig
  len : (types ds).length = (space .type ds).length

theorem RInv.uniq {r : Resolver} {ds : List Decl} (h : RInv r ds) : AllUniq ds := by
  refine ⟨fun s => (h.ns s).toRep.uniq, fun t ht => ?_⟩
  obtain ⟨n, hn⟩ := List.mem_iff_getElem?.1 ht
  have := (h.fields n).uniq
  rw [hn] at this
  exact this

theorem rinv_empty : RInv .empty [] := by
  refine ⟨fun s => ⟨rep_empty, rfl⟩, fun n => ?_, rfl, rfl⟩
  exact rep_empty

/-- A step of registration adds declarations. -/
def Adds (f : Resolver → M Resolver) (g : List Decl) : Prop :=
  ∀ r ds, RInv r ds → (∀ r', f r = .ok r' → RInv r' (ds ++ g)) ∧
    (AllUniq (ds ++ g) → ∃ r', f r = .ok r')

theorem allUniq_prefix {a b : List Decl} (h : AllUniq (a ++ b)) : AllUniq a := by
  refine ⟨fun s => uniq_prefix (b := space s b) (by rw [← space_append]; exact h.1 s), fun t ht => h.2 t ?_⟩
  rw [types_append]; simp [ht]

theorem adds_nil {f : Resolver → M Resolver} (hf : ∀ r, f r = .ok r) : Adds f [] := by
  intro r ds h
  rw [hf]
  exact ⟨fun r' h' => by cases h'; simpa using h, fun _ => ⟨_, rfl⟩⟩

theorem adds_forM {α : Type} {f : α → Resolver → M Resolver} {g : α → List Decl}
    (h : ∀ a, Adds (f a) (g a)) : ∀ as, Adds (forM f as) (as.flatMap g) := by
  intro as
  induction as with
  | nil => exact adds_nil fun _ => rfl
  | cons a as ih =>
    intro r ds hi
    obtain ⟨h1, h2⟩ := h a r ds hi
    rw [List.flatMap_cons, ← List.append_assoc]
    simp only [forM]
    cases hr : f a r with
    | error e =>
      refine ⟨fun _ h' => (by cases h'), fun hu => ?_⟩
      obtain ⟨r', hr'⟩ := h2 (allUniq_prefix hu)
      rw [hr] at hr'; cases hr'
    | ok r1 => exact ih r1 (ds ++ g a) (h1 r1 hr)

theorem adds_item (s : Space) (id : Option Id) (hs : s ≠ .type) : Adds (registerItem s id) [.item s id] := by
  intro r ds hi
  have hsp : ∀ s', space s' (ds ++ [.item s id]) = space s' ds ++ (if s' = s then [id] else []) := by
    intro s'
    rw [space_append]
    by_cases h : s' = s
    · subst h; simp [space, Decl.nameIn]
    · have : ¬ s = s' := fun h' => h h'.symm
      simp [space, Decl.nameIn, h, this]
  have hty : types (ds ++ [.item s id]) = types ds := by simp [types_append, types, Decl.typeDef?]
  obtain ⟨h1, h2⟩ := register_spec (hi.ns s) id
  simp only [registerItem]
  cases hr : (r.ns s).register id with
  | error e =>
    refine ⟨fun _ h' => (by cases h'), fun hu => ?_⟩
    have := hu.1 s
    rw [hsp, if_pos rfl] at this
    obtain ⟨ns', hn⟩ := h2 this
    rw [hr] at hn; cases hn
  | ok ns1 =>
    refine ⟨fun r' h' => ?_, fun _ => ⟨_, rfl⟩⟩
    cases h'
    refine ⟨fun s' => ?_, ?_, ?_, ?_⟩
    · rw [hsp]
      by_cases h : s' = s
      · subst h; simp only [if_true]; exact h1 ns1 hr
      · simp only [if_neg h, List.append_nil]; exact hi.ns s'
    · rw [hty]; exact hi.fields
    · rw [hty]; exact hi.info
    · have : ¬ Space.type = s := fun h => hs h.symm
      rw [hty, hsp, if_neg this, List.append_nil]; exact hi.len

theorem fieldNames_fieldsOf (t : TypeDef) : fieldNames t = (fieldsOf t).map (·.1) := by
  unfold fieldNames fieldsOf
  split <;> simp_all

theorem infoOf_sig (t : TypeDef) : infoOf t = t.sig := by
  unfold infoOf TypeDef.sig
  split <;> simp_all [FuncTy.key]

theorem adds_type (t : TypeDef) : Adds (registerType t) [.type t] := by
  intro r ds hi
  have hsp : ∀ s', space s' (ds ++ [.type t]) = space s' ds ++ (if s' = .type then [t.id] else []) := by
    intro s'
    rw [space_append]
    by_cases h : s' = .type <;> simp [space, Decl.nameIn, h]
  have hty : types (ds ++ [.type t]) = types ds ++ [t] := by simp [types_append, types, Decl.typeDef?]
  obtain ⟨h1, h2⟩ := register_spec (hi.ns .type) t.id
  have hidx : (r.ns .type).count = (types ds).length := by rw [(hi.ns .type).count, hi.len]
  have hf0 := hi.fields (types ds).length
  rw [List.getElem?_eq_none (Nat.le_refl _)] at hf0
  obtain ⟨g1, g2⟩ := registerFields_spec (fieldsOf t) (r.fields (types ds).length) [] hf0
  simp only [registerType, registerItem, hidx]
  cases hr : (r.ns .type).register t.id with
  | error e =>
    refine ⟨fun _ h' => (by cases h'), fun hu => ?_⟩
    have := hu.1 .type
    rw [hsp, if_pos rfl] at this
    obtain ⟨ns', hn⟩ := h2 this
    rw [hr] at hn; cases hn
  | ok ns1 =>
    simp only [List.length_nil, List.nil_append] at g1 g2
    simp only
    cases hf : registerFields 0 (fieldsOf t) (r.fields (types ds).length) with
    | error e =>
      refine ⟨fun _ h' => (by cases h'), fun hu => ?_⟩
      have := hu.2 t (by rw [hty]; simp)
      rw [fieldNames_fieldsOf] at this
      obtain ⟨o', ho⟩ := g2 this
      rw [hf] at ho; cases ho
    | ok o1 =>
      refine ⟨fun r' h' => ?_, fun _ => ⟨_, rfl⟩⟩
      cases h'
      refine ⟨fun s' => ?_, fun n => ?_, ?_, ?_⟩
      · rw [hsp]
        by_cases h : s' = .type
        · subst h; simp only [if_true]; exact h1 ns1 hr
        · simp only [if_neg h, List.append_nil]; exact hi.ns s'
      · rw [hty, getElem?_snoc]
        by_cases hn : n = (types ds).length
        · subst hn
          simp only [if_true]
          have := g1 o1 hf
          rw [← fieldNames_fieldsOf] at this
          exact this
        · simp only [if_neg hn]; exact hi.fields n
      · simp only [hty, List.map_append, List.map_cons, List.map_nil]
        rw [hi.info, infoOf_sig]
      · rw [hty, hsp, if_pos rfl]; simp [hi.len]

theorem kindSpace_eq (k : ItemKind) : kindSpace k = importSpace k := by cases k <;> rfl

theorem adds_field (f : Field) : Adds (register f) (decls f) := by
  cases f with
  | type t => exact adds_type t
  | recGroup ts =>
    have := adds_forM adds_type ts
    have e : ts.flatMap (fun t => [Decl.type t]) = ts.map .type := by
      clear this
      induction ts with
      | nil => rfl
      | cons t ts ih => simp [ih]
    rw [e] at this
    exact this
  | «import» sigs =>
    have := adds_forM (f := fun s : ItemSig => registerItem (kindSpace s.kind) s.id)
      (g := fun s => [.item (kindSpace s.kind) s.id])
      (fun s => adds_item _ _ (by cases s.kind <;> simp [kindSpace])) sigs
    have e : sigs.flatMap (fun s => [Decl.item (kindSpace s.kind) s.id]) = sigs.map fun s => .item (importSpace s.kind) s.id := by
      clear this
      induction sigs with
      | nil => rfl
      | cons t ts ih => rw [List.flatMap_cons, ih, kindSpace_eq]; rfl
    rw [e] at this
    exact this
  | func id _ _ => exact adds_item _ _ (by simp)
  | table id _ _ => exact adds_item _ _ (by simp)
  | memory id => exact adds_item _ _ (by simp)
  | global id _ _ => exact adds_item _ _ (by simp)
  | tag id _ => exact adds_item _ _ (by simp)
  | elem id _ _ => exact adds_item _ _ (by simp)
  | data id _ => exact adds_item _ _ (by simp)
  | «export» _ _ => exact adds_nil fun _ => rfl
  | start _ => exact adds_nil fun _ => rfl
  | custom => exact adds_nil fun _ => rfl

/-- Registration succeeds exactly if nothing is declared twice. -/
theorem registered (fields : List Field) :
    (∀ r, forM register fields .empty = .ok r → RInv r (fields.flatMap decls)) ∧
      (AllUniq (fields.flatMap decls) → ∃ r, forM register fields .empty = .ok r) := by
  have := adds_forM adds_field fields .empty [] rinv_empty
  simpa using this

end Verif.Resolve
