import Verif.Expand.Spec

namespace Verif.Expand

/-- The identifier of the first definition with a signature. -/
def firstId (ds : List TypeDef) (k : Key) : Option Index :=
  (ds.find? (fun d => d.sig = some k)).bind (fun d => d.id.map .id)

/-- What the expander knows: the definitions written in the module and those it
made, all with identifiers. -/
structure Inv (ps : List TypeDef) (cx : Expander) : Prop where
  look : ∀ k, lookup k cx = firstId (ps ++ cx.toPrepend) k
  ids : ∀ d ∈ ps ++ cx.toPrepend, ∃ x, d.id = some x

theorem firstId_none {ds : List TypeDef} (hid : ∀ d ∈ ds, ∃ x, d.id = some x) (k : Key)
    (h : firstId ds k = none) : ∀ d ∈ ds, d.sig ≠ some k := by
  unfold firstId at h
  cases hf : ds.find? (fun d => d.sig = some k) with
  | none => simpa using List.find?_eq_none.1 hf
  | some d =>
    obtain ⟨x, hx⟩ := hid d (List.mem_of_find?_eq_some hf)
    simp [hf, hx] at h

theorem firstId_first {ds : List TypeDef} {k : Key} {i : Index} (h : firstId ds k = some i) :
    ∃ x, i = .id x ∧ First ds k x := by
  unfold firstId at h
  cases hf : ds.find? (fun d => d.sig = some k) with
  | none => simp [hf] at h
  | some d =>
    rw [hf, Option.bind_some] at h
    rw [List.find?_eq_some_iff_append] at hf
    obtain ⟨h1, l, r, h2, h3⟩ := hf
    cases hd : d.id with
    | none => simp [hd] at h
    | some x =>
      refine ⟨x, ?_, l, d, r, h2, hd, by simpa using h1, ?_⟩
      · simp [hd] at h; exact h.symm
      · intro e he; simpa using h3 e he

theorem First.mono {ds ds' : List TypeDef} {k : Key} {x : Id} (h : First ds k x)
    (hp : ds <+: ds') : First ds' k x := by
  obtain ⟨l, d, r, rfl, h1, h2, h3⟩ := h
  obtain ⟨t, rfl⟩ := hp
  exact ⟨l, d, r ++ t, by simp, h1, h2, h3⟩

/-- The identifiers made after `n`. -/
def fresh (n m : Nat) : List (Option Id) := (List.range' (n + 1) m).map fun g => some ⟨"gensym", g⟩

theorem unseen_append (s a b : List Key) :
    unseen s (a ++ b) = unseen s a ++ unseen (s ++ unseen s a) b := by
  induction a generalizing s with
  | nil => simp [unseen]
  | cons k a ih =>
    simp only [List.cons_append, unseen]
    split
    · exact ih s
    · rw [ih]; simp

/-- What a part of the expansion that needs the signatures `ns` does. -/
structure Post (ps : List TypeDef) (cx cx' : Expander) (ns : List Key) : Prop where
  inv : Inv ps cx'
  ext : ∃ ext, cx'.toPrepend = cx.toPrepend ++ ext ∧ (∀ d ∈ ext, d.Simple) ∧
    ext.map TypeDef.sig = (unseen ((ps ++ cx.toPrepend).filterMap TypeDef.sig) ns).map some ∧
    cx'.next = cx.next + ext.length ∧ ext.map TypeDef.id = fresh cx.next ext.length

theorem Post.refl {ps : List TypeDef} {cx : Expander} (h : Inv ps cx) : Post ps cx cx [] :=
  ⟨h, [], by simp, by simp, by simp [unseen], by simp, by simp [fresh]⟩

theorem filterMap_of_map {ds : List TypeDef} {ks : List Key}
    (h : ds.map TypeDef.sig = ks.map some) : ds.filterMap TypeDef.sig = ks := by
  have h2 : (ds.map TypeDef.sig).filterMap (fun x => x) = (ks.map some).filterMap (fun x => x) := by rw [h]
  rw [List.filterMap_map, List.filterMap_map] at h2
  simpa [Function.comp_def] using h2

theorem Post.trans {ps : List TypeDef} {a b c : Expander} {ns ms : List Key}
    (h1 : Post ps a b ns) (h2 : Post ps b c ms) : Post ps a c (ns ++ ms) := by
  obtain ⟨-, e1, p1, s1, k1, n1, i1⟩ := h1
  obtain ⟨inv, e2, p2, s2, k2, n2, i2⟩ := h2
  refine ⟨inv, e1 ++ e2, by simp [p2, p1], ?_, ?_, by simp [n2, n1]; omega, ?_⟩
  · intro d hd
    rcases List.mem_append.1 hd with hd | hd
    · exact s1 d hd
    · exact s2 d hd
  · rw [List.map_append, k1, k2, unseen_append, List.map_append, p1, ← List.append_assoc,
      List.filterMap_append (l := ps ++ a.toPrepend), filterMap_of_map k1]
  · rw [List.map_append, i1, i2, n1, List.length_append]
    unfold fresh
    rw [← List.map_append, ← List.range'_append]
    congr 3
    omega

theorem Post.prefix {ps : List TypeDef} {a b : Expander} {ns : List Key} (h : Post ps a b ns) :
    ps ++ a.toPrepend <+: ps ++ b.toPrepend := by
  obtain ⟨-, e, p, -⟩ := h
  rw [p, ← List.append_assoc]
  exact List.prefix_append _ _

/-- A part of the expansion does what it should. -/
def Does {α : Type} (ps : List TypeDef) (f : α → Expander → α × Expander) (needs : α → List Key)
    (R : List TypeDef → α → α → Prop) : Prop :=
  ∀ a cx, Inv ps cx → Post ps cx (f a cx).2 (needs a) ∧
    ∀ ds, ps ++ (f a cx).2.toPrepend <+: ds → R ds a (f a cx).1

theorem does_each {α : Type} {ps : List TypeDef} {f : α → Expander → α × Expander}
    {needs : α → List Key} {R : List TypeDef → α → α → Prop} (h : Does ps f needs R) :
    Does ps (each f) (fun as => as.flatMap needs) (fun ds => List.Forall₂ (R ds)) := by
  intro as
  induction as with
  | nil => intro cx hi; exact ⟨Post.refl hi, fun ds _ => .nil⟩
  | cons a as ih =>
    intro cx hi
    obtain ⟨h1, h2⟩ := h a cx hi
    obtain ⟨h3, h4⟩ := ih (f a cx).2 h1.inv
    refine ⟨?_, fun ds hd => ?_⟩
    · simpa [each] using h1.trans h3
    · simp only [each] at hd ⊢
      exact .cons (h2 ds (h3.prefix.trans hd)) (h4 ds hd)

theorem does_opt {α : Type} {ps : List TypeDef} {f : α → Expander → α × Expander}
    {needs : α → List Key} {R : List TypeDef → α → α → Prop} (h : Does ps f needs R) :
    Does ps (ifSome f) (optNeeds needs) (fun ds => OptRel (R ds)) := by
  intro o cx hi
  cases o with
  | none => exact ⟨Post.refl hi, fun ds _ => .none⟩
  | some a => exact ⟨(h a cx hi).1, fun ds hd => .some _ _ ((h a cx hi).2 ds hd)⟩

theorem lookup_insert (k k' : Key) (cx : Expander) (i : Index) :
    lookup k' (insert k cx i) =
      if k' = k ∧ lookup k cx = none then some i else lookup k' cx := by
  unfold insert
  cases hl : lookup k cx with
  | some j => simp [lookup]
  | none =>
    simp only [Option.isSome_none, Bool.false_eq_true, if_false, and_true]
    by_cases hk : k' = k
    · subst hk; simp [lookup]
    · have : decide (k = k') = false := by simpa using fun h => hk h.symm
      simp [lookup, hk, List.find?_cons, this]

theorem toDef_sig (k : Key) (x : Id) : (toDef k x).sig = some k := by
  simp [toDef, TypeDef.sig, Function.comp_def]

theorem firstId_snoc (ds : List TypeDef) (d : TypeDef) (k : Key) (hid : ∀ d ∈ ds, ∃ x, d.id = some x) :
    firstId (ds ++ [d]) k =
      if d.sig = some k ∧ firstId ds k = none then d.id.map .id else firstId ds k := by
  unfold firstId
  rw [List.find?_append]
  cases hf : ds.find? (fun d => d.sig = some k) with
  | some e =>
    obtain ⟨x, hx⟩ := hid e (List.mem_of_find?_eq_some hf)
    simp [hx]
  | none =>
    by_cases hd : d.sig = some k <;> simp [hd]

theorem keyToIdx_spec {ps : List TypeDef} {cx : Expander} (hi : Inv ps cx) (k : Key) :
    Post ps cx (keyToIdx k cx).2 [k] ∧
      ∃ x, (keyToIdx k cx).1 = .id x ∧ First (ps ++ (keyToIdx k cx).2.toPrepend) k x := by
  unfold keyToIdx
  cases hl : lookup k cx with
  | some i =>
    have hf := hi.look k
    rw [hl] at hf
    obtain ⟨x, rfl, h2⟩ := firstId_first hf.symm
    refine ⟨⟨hi, [], by simp, by simp, ?_, by simp, by simp [fresh]⟩, x, rfl, h2⟩
    obtain ⟨l, d, r, h3, -, h4, -⟩ := h2
    have : k ∈ (ps ++ cx.toPrepend).filterMap TypeDef.sig :=
      List.mem_filterMap.2 ⟨d, by rw [h3]; simp, h4⟩
    simp only [unseen, if_pos this, List.map_nil]
  | none =>
    have hf := hi.look k
    rw [hl] at hf
    have hno := firstId_none hi.ids k hf.symm
    have hseen : k ∉ (ps ++ cx.toPrepend).filterMap TypeDef.sig := by
      intro hm
      obtain ⟨d, h1, h2⟩ := List.mem_filterMap.1 hm
      exact hno d h1 h2
    have hl2 : ∀ k', lookup k' { (generate cx).2 with toPrepend := (generate cx).2.toPrepend ++ [toDef k (generate cx).1] } = lookup k' cx := fun _ => rfl
    have htp : ∀ (cx : Expander) (i : Index), (insert k cx i).toPrepend = cx.toPrepend := fun _ _ => rfl
    have hnx : ∀ (cx : Expander) (i : Index), (insert k cx i).next = cx.next := fun _ _ => rfl
    refine ⟨⟨⟨?_, ?_⟩, [toDef k (generate cx).1], ?_, ?_, ?_, ?_, ?_⟩, _, rfl, ?_⟩
    · intro k'
      simp only [lookup_insert, hl2, htp]
      have : (generate cx).2.toPrepend = cx.toPrepend := rfl
      rw [this, ← List.append_assoc, firstId_snoc _ _ _ hi.ids, toDef_sig, ← hi.look k']
      by_cases hk : k' = k
      · subst hk; simp [hl, toDef]
      · have : ¬ (k = k') := fun h => hk h.symm
        simp [hk, this]
    · intro d hd
      simp only [htp] at hd
      rcases List.mem_append.1 hd with h | h
      · exact hi.ids d (by simp [h])
      · rcases List.mem_append.1 h with h | h
        · exact hi.ids d (List.mem_append.2 (.inr h))
        · simp at h; subst h; exact ⟨_, rfl⟩
    · simp only [htp]; rfl
    · intro d hd; simp at hd; subst hd; simp [TypeDef.Simple, toDef]
    · simp only [unseen, if_neg hseen, List.map_cons, List.map_nil, toDef_sig]
    · simp only [hnx]; rfl
    · simp [toDef, fresh, generate]
    · simp only [htp]
      exact ⟨ps ++ cx.toPrepend, toDef k (generate cx).1, [], by simp [generate], rfl, toDef_sig _ _, hno⟩

theorem does_use (ps : List TypeDef) : Does ps expandTypeUse TypeUse.needs Use := by
  intro u cx hi
  obtain ⟨index, inl⟩ := u
  cases index with
  | some i => exact ⟨Post.refl hi, fun ds _ => .named i inl⟩
  | none =>
    have hk : (match inl with | some f => f.key | none => FuncTy.empty.key) = TypeUse.sig ⟨none, inl⟩ := by
      cases inl <;> rfl
    obtain ⟨h1, x, h2, h3⟩ := keyToIdx_spec hi (TypeUse.sig ⟨none, inl⟩)
    have he : expandTypeUse ⟨none, inl⟩ cx = (⟨some (keyToIdx (TypeUse.sig ⟨none, inl⟩) cx).1, inl⟩, (keyToIdx (TypeUse.sig ⟨none, inl⟩) cx).2) := by
      rw [← hk]; rfl
    rw [he]
    refine ⟨h1, fun ds hd => ?_⟩
    rw [h2]
    exact .found inl x (h3.mono hd)

theorem does_block (ps : List TypeDef) : Does ps expandBlockType TypeUse.blockNeeds BlockUse := by
  intro u cx hi
  have hu := does_use ps u cx hi
  obtain ⟨index, inl⟩ := u
  cases index with
  | some i =>
    have hs : ¬ Short ⟨some i, inl⟩ := by simp [Short]
    simp only [expandBlockType, TypeUse.blockNeeds, Option.isSome_some, if_true, if_neg hs]
    exact ⟨Post.refl hi, fun ds _ => .long _ _ hs (.named i inl)⟩
  | none =>
    cases inl with
    | none =>
      have hs : Short ⟨none, none⟩ := by simp [Short, TypeUse.sig]
      simp only [expandBlockType, TypeUse.blockNeeds, Option.isSome_none, Bool.false_eq_true, if_false, if_pos hs]
      exact ⟨Post.refl hi, fun ds _ => .short none hs⟩
    | some f =>
      have hs : Short ⟨none, some f⟩ ↔ f.params.length = 0 ∧ f.results.length ≤ 1 := by
        simp [Short, TypeUse.sig]
      simp only [expandBlockType, TypeUse.blockNeeds, Option.isSome_none, Bool.false_eq_true, if_false]
      by_cases h : Short ⟨none, some f⟩
      · rw [if_pos h, if_pos (hs.1 h)]
        exact ⟨Post.refl hi, fun ds _ => .short (some f) h⟩
      · rw [if_neg h, if_neg (fun h' => h (hs.2 h'))]
        exact ⟨hu.1, fun ds hd => .long _ _ h (hu.2 ds hd)⟩

theorem does_instr (ps : List TypeDef) : Does ps expandInstr Instr.needs InstrRel := by
  intro i cx hi
  cases i with
  | block op l u =>
    exact ⟨(does_block ps u cx hi).1, fun ds hd => .block _ _ _ _ ((does_block ps u cx hi).2 ds hd)⟩
  | tryTable l u cs =>
    exact ⟨(does_block ps u cx hi).1, fun ds hd => .tryTable _ _ _ _ ((does_block ps u cx hi).2 ds hd)⟩
  | callIndirect op t u =>
    exact ⟨(does_use ps u cx hi).1, fun ds hd => .callIndirect _ _ _ _ ((does_use ps u cx hi).2 ds hd)⟩
  | else_ l => exact ⟨Post.refl hi, fun ds _ => .else_ l⟩
  | end_ l => exact ⟨Post.refl hi, fun ds _ => .end_ l⟩
  | delegate l => exact ⟨Post.refl hi, fun ds _ => .delegate l⟩
  | plain op rs => exact ⟨Post.refl hi, fun ds _ => .plain op rs⟩

theorem does_expr (ps : List TypeDef) : Does ps expandExpression exprNeeds ExprRel :=
  does_each (does_instr ps)

theorem does_snd {α : Type} (ps : List TypeDef) :
    Does ps (expandSnd (α := α)) (fun p => exprNeeds p.2) SndRel := by
  intro p cx hi
  exact ⟨(does_expr ps p.2 cx hi).1, fun ds hd => .mk _ _ _ ((does_expr ps p.2 cx hi).2 ds hd)⟩

theorem does_sig (ps : List TypeDef) : Does ps expandItemSig ItemSig.needs SigRel := by
  intro s cx hi
  obtain ⟨id, kind⟩ := s
  cases kind with
  | func e u => exact ⟨(does_use ps u cx hi).1, fun ds hd => .func _ _ _ _ ((does_use ps u cx hi).2 ds hd)⟩
  | tag u => exact ⟨(does_use ps u cx hi).1, fun ds hd => .tag _ _ _ ((does_use ps u cx hi).2 ds hd)⟩
  | table h => exact ⟨Post.refl hi, fun ds _ => .table id h⟩
  | memory => exact ⟨Post.refl hi, fun ds _ => .memory id⟩
  | global t => exact ⟨Post.refl hi, fun ds _ => .global id t⟩

theorem does_payload (ps : List TypeDef) : Does ps expandPayload Payload.needs PayloadRel := by
  intro p cx hi
  cases p with
  | indices is => exact ⟨Post.refl hi, fun ds _ => .indices is⟩
  | exprs t es =>
    have h := does_each (does_expr ps) es cx hi
    exact ⟨h.1, fun ds hd => .exprs _ _ _ (h.2 ds hd)⟩

/-- Fields after the second pass, which leaves `type` fields as they are. -/
def Kept (ds : List TypeDef) (f f' : Field) : Prop := FieldRel ds f f' ∧ ∀ t, f = .type t → f' = f

/-- The first pass gave this field an identifier if it is a type. -/
def HasId (f : Field) : Prop := ∀ t, f = .type t → ∃ x, t.id = some x

theorem does_field (ps : List TypeDef) :
    Does ps expandField Field.needs (fun ds f f' => HasId f → Kept ds f f') := by
  intro f cx hi
  cases f with
  | type t =>
    refine ⟨Post.refl hi, fun ds _ h => ?_⟩
    obtain ⟨x, hx⟩ := h t rfl
    refine ⟨?_, fun t' h => rfl⟩
    have h3 := FieldRel.type (ds := ds) t x (fun y hy => by rw [hx] at hy; exact Option.some.inj hy)
    rw [← hx] at h3
    exact h3
  | recGroup ts => exact ⟨Post.refl hi, fun ds _ _ => ⟨.recGroup ts, fun _ h => by cases h⟩⟩
  | «import» ss =>
    have h := does_each (does_sig ps) ss cx hi
    exact ⟨h.1, fun ds hd _ => ⟨.import _ _ (h.2 ds hd), fun _ h => by cases h⟩⟩
  | func id u b =>
    have h1 := does_use ps u cx hi
    have h2 := does_opt (does_snd ps) b _ h1.1.inv
    exact ⟨h1.1.trans h2.1, fun ds hd _ =>
      ⟨.func _ _ _ _ _ (h1.2 ds (h2.1.prefix.trans hd)) (h2.2 ds hd), fun _ h => by cases h⟩⟩
  | table id t e =>
    have h := does_opt (does_expr ps) e cx hi
    exact ⟨h.1, fun ds hd _ => ⟨.table _ _ _ _ (h.2 ds hd), fun _ h => by cases h⟩⟩
  | memory id => exact ⟨Post.refl hi, fun ds _ _ => ⟨.memory id, fun _ h => by cases h⟩⟩
  | global id t e =>
    have h := does_opt (does_expr ps) e cx hi
    exact ⟨h.1, fun ds hd _ => ⟨.global _ _ _ _ (h.2 ds hd), fun _ h => by cases h⟩⟩
  | tag id u =>
    have h := does_use ps u cx hi
    exact ⟨h.1, fun ds hd _ => ⟨.tag _ _ _ (h.2 ds hd), fun _ h => by cases h⟩⟩
  | «export» s i => exact ⟨Post.refl hi, fun ds _ _ => ⟨.export s i, fun _ h => by cases h⟩⟩
  | start i => exact ⟨Post.refl hi, fun ds _ _ => ⟨.start i, fun _ h => by cases h⟩⟩
  | elem id a p =>
    have h1 := does_opt (does_snd ps) a cx hi
    have h2 := does_payload ps p _ h1.1.inv
    exact ⟨h1.1.trans h2.1, fun ds hd _ =>
      ⟨.elem _ _ _ _ _ (h1.2 ds (h2.1.prefix.trans hd)) (h2.2 ds hd), fun _ h => by cases h⟩⟩
  | data id a =>
    have h := does_opt (does_snd ps) a cx hi
    exact ⟨h.1, fun ds hd _ => ⟨.data _ _ _ (h.2 ds hd), fun _ h => by cases h⟩⟩
  | custom => exact ⟨Post.refl hi, fun ds _ _ => ⟨.custom, fun _ h => by cases h⟩⟩

end Verif.Expand
