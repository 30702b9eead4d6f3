import Verif.Resolve.Lemmas

namespace Verif.Resolve

open Verif.Expand

/-- A step of resolution computes exactly a relation. -/
def Computes {α β : Type} (f : α → M β) (R : α → β → Prop) : Prop := ∀ a b, f a = .ok b ↔ R a b

theorem computes_each {α β : Type} {f : α → M β} {R : α → β → Prop} (h : Computes f R) :
    Computes (eachM f) (List.Forall₂ R) := by
  intro as
  induction as with
  | nil =>
    intro bs
    simp only [eachM, Except.ok.injEq]
    constructor
    · intro h; subst h; exact .nil
    · intro h; cases h; rfl
  | cons a as ih =>
    intro bs
    simp only [eachM]
    constructor
    · intro hb
      cases h1 : f a with
      | error e => simp [h1] at hb
      | ok b =>
        cases h2 : eachM f as with
        | error e => simp [h1, h2] at hb
        | ok bs' =>
          simp [h1, h2] at hb
          subst hb
          exact .cons ((h a b).1 h1) ((ih bs').1 h2)
    · intro hb
      cases hb with
      | cons h1 h2 => rw [(h _ _).2 h1]; simp only; rw [(ih _).2 h2]

theorem computes_opt {α β : Type} {f : α → M β} {R : α → β → Prop} (h : Computes f R) :
    Computes (optM f) (OptR R) := by
  intro o b
  cases o with
  | none =>
    simp only [optM, Except.ok.injEq]
    constructor
    · intro h; subst h; exact .none
    · intro h; cases h; rfl
  | some a =>
    simp only [optM]
    constructor
    · intro hb
      cases h1 : f a with
      | error e => simp [h1] at hb
      | ok b' => simp [h1] at hb; subst hb; exact .some _ _ ((h _ _).1 h1)
    · intro hb
      cases hb with | some _ b' h1 => rw [(h _ _).2 h1]

theorem computes_snd {α β : Type} {f : β → M β} {R : β → β → Prop} (h : Computes f R) :
    Computes (sndM (α := α) f) (SndR R) := by
  intro p q
  obtain ⟨a, b⟩ := p
  simp only [sndM]
  constructor
  · intro hb
    cases h1 : f b with
    | error e => simp [h1] at hb
    | ok b' => simp [h1] at hb; subst hb; exact .mk _ _ _ ((h _ _).1 h1)
  · intro hb
    cases hb with | mk _ _ b' h1 => rw [(h _ _).2 h1]

/-- A step followed by others. -/
theorem ok_bind_iff {α β : Type} {x : M α} {k : α → M β} {b : β} :
    (x >>= k) = (.ok b : M β) ↔ ∃ a, x = .ok a ∧ k a = .ok b := by
  cases x <;> simp [bind, Except.bind]

theorem denotes_iff {ns : Namespace} {l : List (Option Id)} (h : Rep ns l) (i : Index) (n : Nat) :
    ns.resolve i = .ok n ↔ Denotes l i n := by
  cases i with
  | num k =>
    simp only [Namespace.resolve, Except.ok.injEq]
    constructor
    · intro h; subst h; exact .num _
    · intro h; cases h; rfl
  | id x =>
    simp only [Namespace.resolve]
    cases hg : ns.get x with
    | none =>
      simp only [reduceCtorEq, false_iff]
      intro hd
      cases hd with | id _ _ h1 => rw [← h.get, hg] at h1; cases h1
    | some k =>
      simp only [Except.ok.injEq]
      constructor
      · intro h'; subst h'; exact .id _ _ ((h.get _ _).1 hg)
      · intro hd
        cases hd with | id _ _ h1 => rw [← h.get, hg] at h1; exact Option.some.inj h1

section
variable {r : Resolver} {ds : List Decl} (hi : RInv r ds)
include hi

theorem c_index (s : Space) : Computes (resolve r s) (IndexR (space s ds)) := by
  intro i j
  simp only [resolve, ok_bind_iff, Except.ok.injEq]
  constructor
  · rintro ⟨n, h1, rfl⟩; exact .mk _ _ ((denotes_iff (hi.ns s).toRep i n).1 h1)
  · intro h; cases h with | mk n h1 => exact ⟨n, (denotes_iff (hi.ns s).toRep i n).2 h1, rfl⟩

theorem c_heap : Computes (resolveHeap r) (HeapR ds) := by
  intro h h'
  cases h with
  | abs s k =>
    simp only [resolveHeap, Except.ok.injEq]
    constructor
    · rintro rfl; exact .abs _ _
    · rintro ⟨⟩; rfl
  | concrete i =>
    simp only [resolveHeap, ok_bind_iff, Except.ok.injEq, c_index hi .type i _]
    constructor
    · rintro ⟨j, h1, rfl⟩; exact .concrete _ _ h1
    · rintro ⟨⟩; exact ⟨_, by assumption, rfl⟩
  | exact i =>
    simp only [resolveHeap, ok_bind_iff, Except.ok.injEq, c_index hi .type i _]
    constructor
    · rintro ⟨j, h1, rfl⟩; exact .exact _ _ h1
    · rintro ⟨⟩; exact ⟨_, by assumption, rfl⟩

theorem c_val : Computes (resolveVal r) (ValR ds) := by
  intro v v'
  cases v with
  | num k =>
    simp only [resolveVal, Except.ok.injEq]
    constructor
    · rintro rfl; exact .num _
    · rintro ⟨⟩; rfl
  | ref n h =>
    simp only [resolveVal, ok_bind_iff, Except.ok.injEq, c_heap hi h _]
    constructor
    · rintro ⟨j, h1, rfl⟩; exact .ref _ _ _ h1
    · rintro ⟨⟩; exact ⟨_, by assumption, rfl⟩

theorem c_storage : Computes (resolveStorage r) (StorageR ds) := by
  intro v v'
  cases v with
  | packed k =>
    simp only [resolveStorage, Except.ok.injEq]
    constructor
    · rintro rfl; exact .packed _
    · rintro ⟨⟩; rfl
  | val v =>
    simp only [resolveStorage, ok_bind_iff, Except.ok.injEq, c_val hi v _]
    constructor
    · rintro ⟨j, h1, rfl⟩; exact .val _ _ h1
    · rintro ⟨⟩; exact ⟨_, by assumption, rfl⟩

theorem c_func : Computes (resolveFunc r) (FuncR ds) := by
  intro f f'
  obtain ⟨ps, rs⟩ := f
  simp only [resolveFunc, ok_bind_iff, Except.ok.injEq, computes_each (computes_snd (c_val hi)) ps _,
    computes_each (c_val hi) rs _]
  constructor
  · rintro ⟨_, h1, _, h2, rfl⟩; exact .mk _ _ _ _ h1 h2
  · rintro ⟨⟩; exact ⟨_, by assumption, _, by assumption, rfl⟩

theorem c_kind : Computes (resolveKind r) (KindR ds) := by
  intro k k'
  cases k with
  | func f =>
    simp only [resolveKind, ok_bind_iff, Except.ok.injEq, c_func hi f _]
    constructor
    · rintro ⟨_, h1, rfl⟩; exact .func _ _ h1
    · rintro ⟨⟩; exact ⟨_, by assumption, rfl⟩
  | struct fs =>
    simp only [resolveKind, ok_bind_iff, Except.ok.injEq, computes_each (computes_snd (c_storage hi)) fs _]
    constructor
    · rintro ⟨_, h1, rfl⟩; exact .struct _ _ h1
    · rintro ⟨⟩; exact ⟨_, by assumption, rfl⟩
  | array s =>
    simp only [resolveKind, ok_bind_iff, Except.ok.injEq, c_storage hi s _]
    constructor
    · rintro ⟨_, h1, rfl⟩; exact .array _ _ h1
    · rintro ⟨⟩; exact ⟨_, by assumption, rfl⟩
  | cont i =>
    simp only [resolveKind, ok_bind_iff, Except.ok.injEq, c_index hi .type i _]
    constructor
    · rintro ⟨_, h1, rfl⟩; exact .cont _ _ h1
    · rintro ⟨⟩; exact ⟨_, by assumption, rfl⟩

theorem c_typeDef : Computes (resolveTypeDef r) (TypeDefR ds) := by
  intro t t'
  simp only [resolveTypeDef, ok_bind_iff, Except.ok.injEq, computes_opt (c_index hi .type) _ _, c_kind hi _ _]
  constructor
  · rintro ⟨_, h1, _, h2, _, h3, _, h4, rfl⟩
    exact ⟨rfl, h4, rfl, h1, h2, h3, rfl⟩
  · rintro ⟨h1, h2, h3, h4, h5, h6, h7⟩
    refine ⟨_, h4, _, h5, _, h6, _, h2, ?_⟩
    cases t'
    simp_all

end

/-- A resolved value type has no identifiers, and resolves to itself. -/
theorem valR_idem {ds : List Decl} {v v' w : ValTy} (h : ValR ds v v') (h2 : ValR ds v' w) : w = v' := by
  cases h with
  | num k => cases h2; rfl
  | ref n h h' hh =>
    cases h2 with
    | ref _ _ h'' hh2 =>
      cases hh with
      | abs s k => cases hh2; rfl
      | concrete i i' hi =>
        cases hi
        cases hh2 with | concrete _ _ hj => cases hj with | mk _ hd => cases hd; rfl
      | exact i i' hi =>
        cases hi
        cases hh2 with | exact _ _ hj => cases hj with | mk _ hd => cases hd; rfl

theorem valR_self {ds : List Decl} {v v' : ValTy} (h : ValR ds v v') : ValR ds v' v' := by
  cases h with
  | num k => exact .num k
  | ref n h h' hh =>
    cases hh with
    | abs s k => exact .ref _ _ _ (.abs _ _)
    | concrete i i' hi => cases hi; exact .ref _ _ _ (.concrete _ _ (.mk _ _ (.num _)))
    | exact i i' hi => cases hi; exact .ref _ _ _ (.exact _ _ (.mk _ _ (.num _)))

section
variable {r : Resolver} {ds : List Decl} (hi : RInv r ds)
include hi

/-- Comparing what is resolved with what may not be resolvable. -/
theorem typesNotEqual_iff {t v v' : ValTy} (hv : ValR ds v v') :
    typesNotEqual r t v' = false ↔ ValR ds t v' := by
  have h2 : tryVal r v' = v' := by
    unfold tryVal
    rw [(c_val hi v' v').2 (valR_self hv)]
  simp only [typesNotEqual, h2, ne_eq, decide_not, Bool.not_eq_false', decide_eq_true_eq]
  unfold tryVal
  cases ht : resolveVal r t with
  | ok t' =>
    simp only
    constructor
    · rintro rfl; exact (c_val hi _ _).1 ht
    · intro h
      have := (c_val hi _ _).2 h
      rw [ht] at this
      exact Except.ok.inj this
  | error e =>
    simp only
    constructor
    · rintro rfl; exact valR_self hv
    · intro h
      have := (c_val hi _ _).2 h
      rw [ht] at this
      cases this

theorem zip_iff {α : Type} (get : α → ValTy) (ts : List ValTy) (vs : List α) (hv : ∀ v ∈ vs, ∃ w, ValR ds w (get v)) :
    (ts.length = vs.length ∧ (ts.zip vs).any (fun p => typesNotEqual r p.1 (get p.2)) = false) ↔
      List.Forall₂ (ValR ds) ts (vs.map get) := by
  induction ts generalizing vs with
  | nil =>
    cases vs with
    | nil => simp
    | cons v vs => simp
  | cons t ts ih =>
    cases vs with
    | nil => simp
    | cons v vs =>
      obtain ⟨w, hw⟩ := hv v (by simp)
      have := ih vs (fun v h => hv v (by simp [h]))
      simp only [List.length_cons, Nat.add_right_cancel_iff, List.zip_cons_cons, List.any_cons,
        Bool.or_eq_false_iff, List.map_cons, List.forall₂_cons, ← this, typesNotEqual_iff hi hw]
      constructor
      · rintro ⟨a, b, c⟩; exact ⟨b, a, c⟩
      · rintro ⟨b, a, c⟩; exact ⟨a, b, c⟩

theorem forall₂_map_snd {ps : List (Option Id × ValTy)} {vs : List ValTy} :
    (∃ ps', List.Forall₂ (SndR (ValR ds)) ps ps' ∧ ps'.map (·.2) = vs) ↔
      List.Forall₂ (ValR ds) (ps.map (·.2)) vs := by
  clear hi
  induction ps generalizing vs with
  | nil =>
    constructor
    · rintro ⟨_, ⟨⟩, rfl⟩; exact .nil
    · rintro ⟨⟩; exact ⟨[], .nil, rfl⟩
  | cons p ps ih =>
    constructor
    · rintro ⟨_, h, rfl⟩
      cases h with
      | cons h1 h2 => cases h1 with | mk _ _ _ h3 => exact .cons h3 (ih.1 ⟨_, h2, rfl⟩)
    · intro h
      cases vs with
      | nil => cases h
      | cons v vs =>
        cases h with
        | cons h1 h2 =>
          obtain ⟨ps', h3, rfl⟩ := ih.2 h2
          exact ⟨(p.1, v) :: ps', .cons (.mk _ _ _ h1) h3, rfl⟩

theorem mem_params {ps ps' : List (Option Id × ValTy)} (h : List.Forall₂ (SndR (ValR ds)) ps ps') :
    ∀ v ∈ ps', ∃ w, ValR ds w v.2 := by
  clear hi
  induction h with
  | nil => simp
  | cons h1 _ ih =>
    intro v hv
    rcases List.mem_cons.1 hv with h | h
    · subst h; cases h1 with | mk _ b _ h3 => exact ⟨b, h3⟩
    · exact ih v h

theorem mem_results {ps ps' : List ValTy} (h : List.Forall₂ (ValR ds) ps ps') :
    ∀ v ∈ ps', ∃ w, ValR ds w v := by
  clear hi
  induction h with
  | nil => simp
  | cons h1 _ ih =>
    intro v hv
    rcases List.mem_cons.1 hv with h | h
    · subst h; exact ⟨_, h1⟩
    · exact ih v h

theorem checkMatches_iff {f f' : FuncTy} (hf : FuncR ds f f') (n : Nat) :
    checkMatches r f' n = .ok () ↔ Matches ds n f' := by
  obtain ⟨ps, ps', rs, rs', hp, hr⟩ := hf
  unfold checkMatches Matches
  rw [hi.info, List.getElem?_map]
  cases ht : (types ds)[n]? with
  | none => simp
  | some t =>
    simp only [Option.map_some, Option.some.injEq]
    cases hk : t.kind with
    | func g =>
      have hs : t.sig = some (g.params.map (·.2), g.results) := by simp [TypeDef.sig, hk]
      rw [hs]
      simp only
      have z1 := zip_iff hi (fun p : Option Id × ValTy => p.2) (g.params.map (·.2)) ps' (mem_params hi hp)
      have z2 := zip_iff hi (fun p : ValTy => p) g.results rs' (mem_results hi hr)
      rw [List.map_id'] at z2
      have : ((if (g.params.map (·.2)).length ≠ ps'.length ∨ g.results.length ≠ rs'.length ∨
          ((g.params.map (·.2)).zip ps').any (fun p => typesNotEqual r p.1 p.2.2) ∨
          (g.results.zip rs').any (fun p => typesNotEqual r p.1 p.2) then (Except.error Err.mismatch : M Unit) else .ok ()) = .ok ()) ↔
          ((g.params.map (·.2)).length = ps'.length ∧ ((g.params.map (·.2)).zip ps').any (fun p => typesNotEqual r p.1 p.2.2) = false) ∧
          (g.results.length = rs'.length ∧ (g.results.zip rs').any (fun p => typesNotEqual r p.1 p.2) = false) := by
        split
        · next h =>
          simp only [reduceCtorEq, false_iff]
          rintro ⟨⟨a, b⟩, c, d⟩
          rw [b, d] at h
          simp only [Bool.false_eq_true, or_false] at h
          rcases h with h | h
          · exact h a
          · exact h c
        · next h =>
          simp only [true_iff]
          simp only [not_or, ne_eq, Decidable.not_not, Bool.not_eq_true] at h
          exact ⟨⟨h.1, h.2.2.1⟩, h.2.1, h.2.2.2⟩
      rw [this, z1, z2, ← forall₂_map_snd hi]
      constructor
      · rintro ⟨⟨gp, h1, h2⟩, h3⟩
        exact ⟨t, g, ⟨gp, rs'⟩, rfl, hk, by obtain ⟨gps, grs⟩ := g; exact .mk _ _ _ _ h1 h3, h2, rfl⟩
      · rintro ⟨t2, g2, g', rfl, hk2, hF, h2, h3⟩
        rw [hk] at hk2
        cases hk2
        cases hF with
        | mk _ _ _ _ h4 h5 =>
          simp only at h2 h3
          subst h3
          exact ⟨⟨_, h4, h2⟩, h5⟩
    | _ =>
      have hs : t.sig = none := by simp [TypeDef.sig, hk]
      rw [hs]
      simp only [reduceCtorEq, false_iff]
      rintro ⟨t2, g, g', rfl, hk2, -⟩
      rw [hk] at hk2; cases hk2

theorem c_typeUse (u : TypeUse) (n : Nat) (inl : Option FuncTy) :
    resolveTypeUse r u = .ok (n, inl) ↔ TypeUseR ds u n inl := by
  obtain ⟨index, inline⟩ := u
  cases index with
  | none =>
    simp only [resolveTypeUse, reduceCtorEq, false_iff]
    intro h; cases h
  | some i =>
    cases inline with
    | none =>
      simp only [resolveTypeUse, ok_bind_iff, Except.ok.injEq, denotes_iff (hi.ns .type).toRep, Prod.mk.injEq]
      constructor
      · rintro ⟨m, h1, rfl, rfl⟩; exact .bare _ _ h1
      · intro h; cases h with | bare _ _ h1 => exact ⟨_, h1, rfl, rfl⟩
    | some f =>
      simp only [resolveTypeUse, ok_bind_iff, Except.ok.injEq, denotes_iff (hi.ns .type).toRep, Prod.mk.injEq]
      constructor
      · rintro ⟨m, h1, f', h2, ⟨⟩, h3, rfl, rfl⟩
        have h2' := (c_func hi _ _).1 h2
        exact .both _ _ _ _ h1 h2' ((checkMatches_iff hi h2' _).1 h3)
      · intro h
        cases h with
        | both _ _ _ f' h1 h2 h3 =>
          exact ⟨_, h1, f', (c_func hi _ _).2 h2, ⟨⟩, (checkMatches_iff hi h2 _).2 h3, rfl, rfl⟩

theorem c_use : Computes (resolveUse r) (UseR ds) := by
  intro u u'
  simp only [resolveUse, ok_bind_iff, Except.ok.injEq]
  constructor
  · rintro ⟨⟨n, inl⟩, h1, rfl⟩; exact .mk _ _ _ ((c_typeUse hi _ _ _).1 h1)
  · intro h; cases h with | mk n inl h1 => exact ⟨(n, inl), (c_typeUse hi _ _ _).2 h1, rfl⟩

theorem c_blockType : Computes (resolveBlockType r) (BlockTypeR ds) := by
  intro u u'
  obtain ⟨index, inline⟩ := u
  cases index with
  | some i =>
    simp only [resolveBlockType, Option.isSome_some, if_true, c_use hi _ _]
    constructor
    · intro h; exact .index _ _ (by simp) h
    · intro h; cases h with | index _ _ _ h => exact h
  | none =>
    simp only [resolveBlockType, Option.isSome_none, Bool.false_eq_true, if_false, ok_bind_iff, Except.ok.injEq,
      computes_opt (c_func hi) _ _]
    constructor
    · rintro ⟨f', h1, rfl⟩; exact .inline _ _ h1
    · intro h
      cases h with
      | index _ _ h _ => exact absurd rfl h
      | inline _ f' h => exact ⟨f', h, rfl⟩

end

end Verif.Resolve
