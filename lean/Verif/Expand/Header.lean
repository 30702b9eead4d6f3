import Verif.Expand.Lemmas

namespace Verif.Expand

/-- A field after the first pass. -/
inductive Hdr : Field → Field → Prop
  | type (t x) : (∀ y, t.id = some y → x = y) → Hdr (.type t) (.type { t with id := some x })
  | other (f) : (∀ t, f ≠ .type t) → Hdr f f

theorem plains_append (a b : List Field) : plains (a ++ b) = plains a ++ plains b := by
  induction a with
  | nil => rfl
  | cons f a ih => cases f <;> simp [plains, ih]

theorem typeSpace_append (a b : List Field) : typeSpace (a ++ b) = typeSpace a ++ typeSpace b := by
  induction a with
  | nil => rfl
  | cons f a ih => cases f <;> simp [typeSpace, ih]

theorem plains_types (ts : List TypeDef) : plains (ts.map .type) = ts := by
  induction ts with
  | nil => rfl
  | cons t ts ih => simp [plains, ih]

theorem typeSpace_types (ts : List TypeDef) : typeSpace (ts.map .type) = ts := by
  induction ts with
  | nil => rfl
  | cons t ts ih => simp [typeSpace, ih]

/-- What the first pass leaves in the expander after definitions `ps`. -/
structure HInv (ps : List TypeDef) (cx : Expander) : Prop extends Inv ps cx where
  empty : cx.toPrepend = []

/-- One step of the first pass. -/
theorem header_step {ps : List TypeDef} {cx : Expander} (h : HInv ps cx) (f : Field) :
    Hdr f (expandHeader f cx).1 ∧ HInv (ps ++ plains [(expandHeader f cx).1]) (expandHeader f cx).2 ∧
      cx.next ≤ (expandHeader f cx).2.next ∧
      ∀ t t', f = .type t → (expandHeader f cx).1 = .type t' →
        t'.id = t.id ∨ ∃ x, t.id = none ∧ t'.id = some x ∧ cx.next < x.gen ∧ x.gen ≤ (expandHeader f cx).2.next := by
  cases f with
  | type t =>
    have main : ∀ (x : Id) (cx1 : Expander), cx1.map = cx.map → cx1.toPrepend = cx.toPrepend →
        ∀ f', t.kind = .func f' →
        HInv (ps ++ [{ t with id := some x }]) (insert f'.key cx1 (.id x)) := by
      intro x cx1 hm hp f' hk
      have hp2 : (insert f'.key cx1 (.id x)).toPrepend = [] := by
        show cx1.toPrepend = []
        rw [hp, h.empty]
      have hl : ∀ k, lookup k cx1 = lookup k cx := fun k => by simp [lookup, hm]
      refine ⟨⟨fun k => ?_, ?_⟩, hp2⟩
      · have hi := h.look k
        have hps : ∀ d ∈ ps, ∃ x, d.id = some x := fun d hd => h.ids d (by simp [hd])
        rw [h.empty, List.append_nil] at hi
        rw [hp2, List.append_nil, lookup_insert, hl, hl, firstId_snoc _ _ _ hps, ← hi]
        have hs : TypeDef.sig { t with id := some x } = some f'.key := by
          simp [TypeDef.sig, hk, FuncTy.key]
        rw [hs]
        by_cases hkk : k = f'.key
        · subst hkk; simp
        · have : ¬ f'.key = k := fun h => hkk h.symm
          simp [hkk, this]
      · intro d hd
        rw [hp2, List.append_nil] at hd
        rcases List.mem_append.1 hd with hd | hd
        · exact h.ids d (by simp [hd])
        · simp at hd; subst hd; exact ⟨x, rfl⟩
    have other : ∀ (x : Id) (cx1 : Expander), cx1.map = cx.map → cx1.toPrepend = cx.toPrepend →
        (∀ f', t.kind ≠ .func f') → HInv (ps ++ [{ t with id := some x }]) cx1 := by
      intro x cx1 hm hp hk
      have hp2 : cx1.toPrepend = [] := by rw [hp, h.empty]
      have hl : ∀ k, lookup k cx1 = lookup k cx := fun k => by simp [lookup, hm]
      refine ⟨⟨fun k => ?_, ?_⟩, hp2⟩
      · have hi := h.look k
        have hps : ∀ d ∈ ps, ∃ x, d.id = some x := fun d hd => h.ids d (by simp [hd])
        rw [h.empty, List.append_nil] at hi
        rw [hp2, List.append_nil, hl, firstId_snoc _ _ _ hps, ← hi]
        have hs : TypeDef.sig { t with id := some x } = none := by
          cases hkk : t.kind with
          | func f' => exact absurd hkk (hk f')
          | _ => simp [TypeDef.sig, hkk]
        rw [hs]; simp
      · intro d hd
        rw [hp2, List.append_nil] at hd
        rcases List.mem_append.1 hd with hd | hd
        · exact h.ids d (by simp [hd])
        · simp at hd; subst hd; exact ⟨x, rfl⟩
    cases hid : t.id with
    | some i =>
      have ht : Hdr (.type t) (.type { t with id := some i }) :=
        .type t i fun y hy => by rw [hid] at hy; exact Option.some.inj hy
      cases hk : t.kind with
      | func f' =>
        simp only [expandHeader, hid, hk]
        rw [hk] at ht
        have := main i cx rfl rfl f' hk
        rw [hk] at this
        refine ⟨ht, this, Nat.le_refl _, ?_⟩
        intro a b ha hb; cases ha; cases hb; exact .inl hid.symm
      | _ =>
        simp only [expandHeader, hid, hk]
        rw [hk] at ht
        have := other i cx rfl rfl (by rw [hk]; simp)
        rw [hk] at this
        refine ⟨ht, this, Nat.le_refl _, ?_⟩
        intro a b ha hb; cases ha; cases hb; exact .inl hid.symm
    | none =>
      have ht : Hdr (.type t) (.type { t with id := some (generate cx).1 }) :=
        .type t _ fun y hy => by rw [hid] at hy; cases hy
      cases hk : t.kind with
      | func f' =>
        simp only [expandHeader, hid, hk]
        rw [hk] at ht
        have := main (generate cx).1 (generate cx).2 rfl rfl f' hk
        rw [hk] at this
        refine ⟨ht, this, Nat.le_succ _, ?_⟩
        intro a b ha hb; cases ha; cases hb
        exact .inr ⟨_, hid, rfl, Nat.lt_succ_self _, Nat.le_refl _⟩
      | _ =>
        simp only [expandHeader, hid, hk]
        rw [hk] at ht
        have := other (generate cx).1 (generate cx).2 rfl rfl (by rw [hk]; simp)
        rw [hk] at this
        refine ⟨ht, this, Nat.le_succ _, ?_⟩
        intro a b ha hb; cases ha; cases hb
        exact .inr ⟨_, hid, rfl, Nat.lt_succ_self _, Nat.le_refl _⟩
  | _ =>
    refine ⟨.other _ (by simp), ?_, Nat.le_refl _, fun _ _ h => by cases h⟩
    simpa [expandHeader, plains] using h

theorem header_all (fs : List Field) : ∀ {ps : List TypeDef} {cx : Expander}, HInv ps cx →
    List.Forall₂ Hdr fs (each expandHeader fs cx).1 ∧
      HInv (ps ++ plains (each expandHeader fs cx).1) (each expandHeader fs cx).2 := by
  induction fs with
  | nil => intro ps cx h; exact ⟨.nil, by simpa [each, plains] using h⟩
  | cons f fs ih =>
    intro ps cx h
    obtain ⟨h1, h2, -⟩ := header_step h f
    obtain ⟨h3, h4⟩ := ih h2
    refine ⟨.cons h1 h3, ?_⟩
    rw [List.append_assoc, ← plains_append] at h4
    exact h4

theorem typeIds_cons (f : Field) (fs : List Field) : typeIds (f :: fs) = typeIds [f] ++ typeIds fs := by
  cases f <;> simp [typeIds, typeSpace]
  rw [← List.filterMap_append]; rfl

/-- The first pass keeps identifiers of types apart. -/
theorem header_ids (fs : List Field) : ∀ {ps : List TypeDef} {cx : Expander}, HInv ps cx →
    (typeIds fs).Nodup → (∀ x ∈ typeIds fs, x.gen ≤ cx.next) →
    (typeIds (each expandHeader fs cx).1).Nodup ∧ cx.next ≤ (each expandHeader fs cx).2.next ∧
      ∀ x ∈ typeIds (each expandHeader fs cx).1,
        x ∈ typeIds fs ∨ (cx.next < x.gen ∧ x.gen ≤ (each expandHeader fs cx).2.next) := by
  induction fs with
  | nil => intro ps cx h _ _; exact ⟨by simp [each, typeIds, typeSpace], Nat.le_refl _, by simp [each, typeIds, typeSpace]⟩
  | cons f fs ih =>
    intro ps cx h hnd hb
    obtain ⟨h1, h2, h3, h4⟩ := header_step h f
    rw [typeIds_cons] at hnd
    obtain ⟨n1, n2, n3⟩ := List.nodup_append.1 hnd
    have hb' : ∀ x ∈ typeIds [f] ++ typeIds fs, x.gen ≤ cx.next := by rw [← typeIds_cons]; exact hb
    obtain ⟨i1, i2, i3⟩ := ih h2 n2 (fun x hx => Nat.le_trans (hb' x (by simp [hx])) h3)
    have head : (typeIds [(expandHeader f cx).1]).Nodup ∧ ∀ x ∈ typeIds [(expandHeader f cx).1],
        x ∈ typeIds [f] ∨ (cx.next < x.gen ∧ x.gen ≤ (expandHeader f cx).2.next) := by
      generalize hg : (expandHeader f cx).1 = f' at *
      cases h1 with
      | other _ _ => exact ⟨n1, fun x hx => .inl hx⟩
      | type t x hx =>
        refine ⟨by simp [typeIds, typeSpace], ?_⟩
        intro y hy
        simp [typeIds, typeSpace] at hy
        subst hy
        rcases h4 t _ rfl rfl with hs | ⟨z, _, hz, hz1, hz2⟩
        · left; simp [typeIds, typeSpace, ← hs]
        · right; simp at hz; subst hz; exact ⟨hz1, hz2⟩
    simp only [each]
    refine ⟨?_, Nat.le_trans h3 i2, ?_⟩
    · rw [typeIds_cons]
      refine List.nodup_append.2 ⟨head.1, i1, ?_⟩
      intro a ha b hb2 hab
      subst hab
      rcases head.2 a ha with q | ⟨q1, q2⟩ <;> rcases i3 a hb2 with r | ⟨r1, r2⟩
      · exact n3 a q a r rfl
      · have := hb' a (by simp [q]); omega
      · have := hb' a (by simp [r]); omega
      · omega
    · intro x hx
      rw [typeIds_cons] at hx
      rcases List.mem_append.1 hx with hx | hx
      · rcases head.2 x hx with q | ⟨q1, q2⟩
        · left; rw [typeIds_cons]; simp [q]
        · right; exact ⟨q1, Nat.le_trans q2 i2⟩
      · rcases i3 x hx with q | ⟨q1, q2⟩
        · left; rw [typeIds_cons]; simp [q]
        · right; exact ⟨Nat.lt_of_le_of_lt h3 q1, q2⟩

theorem hdr_ids {fs gs : List Field} (h : List.Forall₂ Hdr fs gs) : ∀ f ∈ gs, HasId f := by
  induction h with
  | nil => simp
  | cons h1 _ ih =>
    intro f hf
    rcases List.mem_cons.1 hf with hf | hf
    · subst hf
      cases h1 with
      | type t x _ => intro t' ht; cases ht; exact ⟨x, rfl⟩
      | other _ hn => intro t' ht; exact absurd ht (hn t')
    · exact ih f hf

theorem hdr_needs {fs gs : List Field} (h : List.Forall₂ Hdr fs gs) :
    gs.flatMap Field.needs = fs.flatMap Field.needs := by
  induction h with
  | nil => rfl
  | cons h1 _ ih => cases h1 <;> simp [ih, Field.needs]

theorem hdr_sigs {fs gs : List Field} (h : List.Forall₂ Hdr fs gs) :
    (plains gs).filterMap TypeDef.sig = (plains fs).filterMap TypeDef.sig := by
  induction h with
  | nil => rfl
  | @cons a b l1 l2 h1 _ ih =>
    cases h1 with
    | type t x _ => simp [plains, TypeDef.sig, List.filterMap_cons, ih]
    | other _ hn =>
      cases a with
      | type t => exact absurd rfl (hn t)
      | _ => simpa [plains] using ih

theorem hdr_field {ds : List TypeDef} {f g h : Field} (h1 : Hdr f g) (h2 : Kept ds g h) : FieldRel ds f h := by
  cases h1 with
  | type t x hx => rw [h2.2 _ rfl]; exact .type t x hx
  | other _ _ => exact h2.1

theorem kept_spaces {ds : List TypeDef} {fs gs : List Field} (h : List.Forall₂ (Kept ds) fs gs) :
    plains gs = plains fs ∧ typeSpace gs = typeSpace fs := by
  induction h with
  | nil => exact ⟨rfl, rfl⟩
  | @cons a b l1 l2 h1 _ ih =>
    obtain ⟨h1, h2⟩ := h1
    cases h1 with
    | type t x _ => rw [h2 _ rfl]; simp [plains, typeSpace, ih]
    | _ => simp [plains, typeSpace, ih]

theorem forall₂_hasId {ds : List TypeDef} {fs gs : List Field} (hid : ∀ f ∈ fs, HasId f)
    (h : List.Forall₂ (fun f f' => HasId f → Kept ds f f') fs gs) : List.Forall₂ (Kept ds) fs gs := by
  induction h with
  | nil => exact .nil
  | cons h1 _ ih => exact .cons (h1 (hid _ (by simp))) (ih fun f hf => hid f (by simp [hf]))

theorem forall₂_hdr {ds : List TypeDef} {fs gs hs : List Field} (h1 : List.Forall₂ Hdr fs gs)
    (h2 : List.Forall₂ (Kept ds) gs hs) : List.Forall₂ (FieldRel ds) fs hs := by
  induction h1 generalizing hs with
  | nil => cases h2; exact .nil
  | cons a _ ih => cases h2 with | cons b c => exact .cons (hdr_field a b) (ih c)

theorem hinv_start (next : Nat) : HInv [] ⟨[], [], next⟩ :=
  ⟨⟨fun k => by simp [lookup, firstId], by simp⟩, rfl⟩

/-- Everything about the two passes. -/
theorem expand_all (next : Nat) (fields : List Field) :
    ∃ (gs mid : List Field) (news : List TypeDef) (m : Nat),
      expand next fields = mid ++ news.map .type ∧
      gs = (each expandHeader fields ⟨[], [], next⟩).1 ∧
      m = (each expandHeader fields ⟨[], [], next⟩).2.next ∧
      List.Forall₂ Hdr fields gs ∧
      List.Forall₂ (Kept (plains (expand next fields))) gs mid ∧
      (∀ t ∈ news, t.Simple) ∧
      news.map TypeDef.sig =
        (unseen ((plains fields).filterMap TypeDef.sig) (fields.flatMap Field.needs)).map some ∧
      news.map TypeDef.id = fresh m news.length := by
  obtain ⟨h1, h2⟩ := header_all fields (hinv_start next)
  rw [List.nil_append] at h2
  have h3 := does_each (does_field (plains (each expandHeader fields ⟨[], [], next⟩).1))
    (each expandHeader fields ⟨[], [], next⟩).1 _ h2.toInv
  obtain ⟨⟨-, ext, e1, e2, e3, e4, e5⟩, hR⟩ := h3
  rw [h2.empty, List.nil_append] at e1
  rw [h2.empty, List.append_nil, hdr_sigs h1] at e3
  beta_reduce at e3
  rw [hdr_needs h1] at e3
  have key := fun ds hd => forall₂_hasId (hdr_ids h1) (hR ds hd)
  have hpl : plains (expand next fields) = plains (each expandHeader fields ⟨[], [], next⟩).1 ++ ext := by
    unfold expand
    rw [plains_append, e1, plains_types, (kept_spaces (key _ (List.prefix_refl _))).1]
  refine ⟨_, _, ext, _, ?_, rfl, rfl, h1, key _ ?_, e2, e3, e5⟩
  · rw [← e1]; rfl
  · rw [hpl, e1]; exact List.prefix_refl _

end Verif.Expand
