import Verif.Resolve.Known
import Verif.Resolve.Lemmas

/-!
# Expansion refers to what is declared
-/

namespace Verif.Resolve

open Verif.Expand

/-- What is declared before is declared after, and so are the types expansion uses. -/
structure Grows (ds ds' : List Decl) (ts : List TypeDef) : Prop where
  all : ∀ (s : Space) (x : Id), some x ∈ space s ds → some x ∈ space s ds'
  types : ∀ d ∈ ts, ∀ x : Id, d.id = some x → some x ∈ space .type ds'

variable {ds ds' : List Decl} {ts : List TypeDef} (g : Grows ds ds' ts)

include g

theorem g_index {s : Space} {i : Index} (h : Known (space s ds) i) : Known (space s ds') i :=
  fun x hx => (h x hx).imp id (g.all s x)

theorem g_heap {h : Heap} (hk : kHeap ds h) : kHeap ds' h := by
  cases h with
  | abs s k => trivial
  | concrete i => exact g_index g (s := .type) hk
  | exact i => exact g_index g (s := .type) hk

theorem g_val {v : ValTy} (hk : kVal ds v) : kVal ds' v := by
  cases v with
  | num k => trivial
  | ref n h => exact g_heap g (h := h) hk

theorem g_storage {v : Storage} (hk : kStorage ds v) : kStorage ds' v := by
  cases v with
  | packed k => trivial
  | val v => exact g_val g (v := v) hk

theorem g_func {f : FuncTy} (hk : kFunc ds f) : kFunc ds' f :=
  ⟨fun p hp => g_val g (hk.1 p hp), fun v hv => g_val g (hk.2 v hv)⟩

theorem g_kind {k : Kind} (hk : kKind ds k) : kKind ds' k := by
  cases k with
  | func f => exact g_func g hk
  | struct fs => exact fun p hp => g_storage g (hk p hp)
  | array s => exact g_storage g (v := s) hk
  | cont i => exact g_index g (s := .type) hk

theorem g_typeDef {t : TypeDef} (hk : kTypeDef ds t) : kTypeDef ds' t :=
  ⟨fun i h => g_index g (hk.1 i h), fun i h => g_index g (hk.2.1 i h), fun i h => g_index g (hk.2.2.1 i h),
    g_kind g hk.2.2.2⟩

theorem g_useSame {u : TypeUse} (hk : kUse false ds u) : kUse false ds' u :=
  ⟨by simp, fun i h => g_index g (hk.2.1 i h), fun f h => g_func g (hk.2.2 f h)⟩

theorem g_use {u u' : TypeUse} (hk : kUse false ds u) (h : Use ts u u') : kUse true ds' u' := by
  have h0 := g_useSame g hk
  cases h with
  | named i inl => exact ⟨by simp, h0.2⟩
  | found inl x h1 =>
    obtain ⟨l, d, r, rfl, h2, -⟩ := h1
    refine ⟨by simp, ?_, h0.2.2⟩
    rintro i hi y rfl
    obtain rfl : x = y := by simpa using hi
    exact .inr (g.types d (by simp) _ h2)

theorem g_block {u u' : TypeUse} (hk : kUse false ds u) (h : BlockUse ts u u') : kUse false ds' u' := by
  cases h with
  | short inl h1 =>
    refine ⟨by simp, by simp, ?_⟩
    rintro f hf
    cases inl with
    | none =>
      obtain rfl : (⟨[], []⟩ : FuncTy) = f := by simpa using hf
      exact ⟨by simp, by simp⟩
    | some f' =>
      obtain rfl : f' = f := by simpa using hf
      exact g_func g (hk.2.2 f' rfl)
  | long u u' _ h1 => exact ⟨by simp, (g_use g hk h1).2⟩

theorem g_ref {a : Ref} (hk : kRef ds a) : kRef ds' a := by
  cases a with
  | item s i => exact g_index g hk
  | loc i => exact hk
  | label i => exact hk
  | field t f => exact ⟨g_index g hk.1, hk.2⟩
  | val v => exact g_val g (v := v) hk
  | heap h => exact g_heap g (h := h) hk

theorem g_instr {a b : Instr} (hk : kInstr false ds a) (h : InstrRel ts a b) : kInstr true ds' b := by
  cases h with
  | block op l u u' h => exact g_block g hk h
  | tryTable l u u' cs h =>
    exact ⟨g_block g hk.1 h, fun c hc => ⟨fun i hi => g_index g ((hk.2 c hc).1 i hi), (hk.2 c hc).2⟩⟩
  | else_ l => trivial
  | end_ l => trivial
  | delegate i => exact hk
  | callIndirect op t u u' h => exact ⟨g_index g hk.1, g_use g hk.2 h⟩
  | plain op rs => exact fun r hr => g_ref g (hk r hr)

omit g in
theorem forall₂_mem {α β : Type} {R : α → β → Prop} {P : α → Prop} {Q : β → Prop} {as : List α} {bs : List β}
    (h : List.Forall₂ R as bs) (hp : ∀ a ∈ as, P a) (hs : ∀ a b, P a → R a b → Q b) : ∀ b ∈ bs, Q b := by
  induction h with
  | nil => simp
  | cons h1 _ ih =>
    intro b hb
    rcases List.mem_cons.1 hb with rfl | hb
    · exact hs _ _ (hp _ (by simp)) h1
    · exact ih (fun a ha => hp a (by simp [ha])) b hb

theorem g_expr {a b : List Instr} (hk : kExpr false ds a) (h : ExprRel ts a b) : kExpr true ds' b :=
  forall₂_mem h hk fun _ _ => g_instr g

theorem g_optExpr {a b : Option (List Instr)} (hk : ∀ is ∈ a, kExpr false ds is) (h : OptRel (ExprRel ts) a b) :
    ∀ is ∈ b, kExpr true ds' is := by
  cases h with
  | none => simp
  | some a b h =>
    rintro c hc
    obtain rfl : b = c := by simpa using hc
    exact g_expr g (hk a rfl) h

theorem g_optSnd {α : Type} {P Q : α → Prop} {a b : Option (α × List Instr)} (hpq : ∀ x, P x → Q x)
    (hk : ∀ p ∈ a, P p.1 ∧ kExpr false ds p.2) (h : OptRel (SndRel ts) a b) :
    ∀ p ∈ b, Q p.1 ∧ kExpr true ds' p.2 := by
  cases h with
  | none => simp
  | some a b h =>
    rintro c hc
    obtain rfl : b = c := by simpa using hc
    cases h with
    | mk a e e' h => exact ⟨hpq _ (hk _ rfl).1, g_expr g (hk _ rfl).2 h⟩

theorem g_sig {a b : ItemSig} (hk : kSig false ds a) (h : SigRel ts a b) : kSig true ds' b := by
  cases h with
  | func id e u u' h => exact g_use g hk h
  | tag id u u' h => exact g_use g hk h
  | table id h => exact g_heap g (h := h) hk
  | memory id => trivial
  | global id t => exact g_val g (v := t) hk

theorem g_payload {a b : Payload} (hk : kPayload false ds a) (h : PayloadRel ts a b) : kPayload true ds' b := by
  cases h with
  | indices is => exact fun i h => g_index g (hk i h)
  | exprs t es es' h => exact ⟨forall₂_mem h hk.1 fun _ _ => g_expr g, g_heap g hk.2⟩

theorem g_field {a b : Field} (hk : kField false ds a) (h : FieldRel ts a b) : kField true ds' b := by
  cases h with
  | type t x _ => exact g_typeDef g (t := { t with id := some x }) hk
  | recGroup ts => exact fun t ht => g_typeDef g (hk t ht)
  | «import» ss ss' h => exact forall₂_mem h hk fun _ _ => g_sig g
  | func id u u' b b' h h' =>
    exact ⟨g_use g hk.1 h, g_optSnd g (P := fun x => ∀ l ∈ x, kVal ds l.2) (Q := fun x => ∀ l ∈ x, kVal ds' l.2) (fun x hx l hl => g_val g (hx l hl)) hk.2 h'⟩
  | table id h e e' h' => exact ⟨g_heap g hk.1, g_optExpr g hk.2 h'⟩
  | memory id => trivial
  | global id t e e' h' => exact ⟨g_val g hk.1, g_optExpr g hk.2 h'⟩
  | tag id u u' h => exact g_use g hk h
  | «export» s i => exact g_index g hk
  | start i => exact g_index g (s := .func) hk
  | elem id a a' p p' h h' => exact ⟨g_optSnd g (P := fun x => ∀ i ∈ x, Known (space .table ds) i) (Q := fun x => ∀ i ∈ x, Known (space .table ds') i)
      (fun x hx i hi => g_index g (hx i hi)) hk.1 h, g_payload g hk.2 h'⟩
  | data id a a' h => exact g_optSnd g (P := Known (space .memory ds)) (Q := Known (space .memory ds')) (fun x hx => g_index g hx) hk h
  | custom => trivial

omit g in
theorem sigs_same {ss ss' : List ItemSig} (h : List.Forall₂ (SigRel ts) ss ss') :
    ss.map (fun s => Decl.item (importSpace s.kind) s.id) = ss'.map (fun s => Decl.item (importSpace s.kind) s.id) := by
  induction h with
  | nil => rfl
  | cons h1 _ ih =>
    rw [List.map_cons, List.map_cons, ih]
    cases h1 <;> rfl

omit g in
theorem decls_grow {a b : Field} (h : FieldRel ts a b) (s : Space) (x : Id) (hx : some x ∈ space s (decls a)) :
    some x ∈ space s (decls b) := by
  cases h with
  | type t y h1 =>
    by_cases hs : s = .type
    · subst hs
      simp only [decls, space, Decl.nameIn, if_true, List.filterMap_cons, List.filterMap_nil, List.mem_singleton] at hx ⊢
      rw [h1 x hx.symm]
    · simp [decls, space, Decl.nameIn, hs] at hx
  | «import» ss ss' h =>
    simp only [decls] at hx ⊢
    rw [← sigs_same h]; exact hx
  | _ => exact hx

/-- The types of a signature are known. -/
def kKey (ds : List Decl) (k : Key) : Prop := (∀ v ∈ k.1, kVal ds v) ∧ ∀ v ∈ k.2, kVal ds v

omit g

theorem n_use {u : TypeUse} (hk : kUse false ds u) : ∀ k ∈ u.needs, kKey ds k := by
  intro k hm
  obtain ⟨i, inl⟩ := u
  cases i with
  | some i => simp [TypeUse.needs] at hm
  | none =>
    simp only [TypeUse.needs, if_true, List.mem_singleton] at hm
    subst hm
    cases inl with
    | none => exact ⟨by simp [TypeUse.sig], by simp [TypeUse.sig]⟩
    | some f =>
      have := hk.2.2 f rfl
      refine ⟨?_, this.2⟩
      intro v hv
      obtain ⟨p, hp, rfl⟩ := List.mem_map.1 hv
      exact this.1 p hp

theorem n_block {u : TypeUse} (hk : kUse false ds u) : ∀ k ∈ u.blockNeeds, kKey ds k := by
  unfold TypeUse.blockNeeds
  split
  · simp
  · exact n_use hk

theorem n_instr {a : Instr} (hk : kInstr false ds a) : ∀ k ∈ a.needs, kKey ds k := by
  cases a with
  | block op l u => exact n_block hk
  | tryTable l u cs => exact n_block hk.1
  | callIndirect op t u => exact n_use hk.2
  | _ => simp [Instr.needs]

theorem n_flat {α : Type} {f : α → List Key} {P : α → Prop} {as : List α} (hp : ∀ a ∈ as, P a)
    (h : ∀ a, P a → ∀ k ∈ f a, kKey ds k) : ∀ k ∈ as.flatMap f, kKey ds k := by
  intro k hk
  obtain ⟨a, ha, hk⟩ := List.mem_flatMap.1 hk
  exact h a (hp a ha) k hk

theorem n_expr {a : List Instr} (hk : kExpr false ds a) : ∀ k ∈ exprNeeds a, kKey ds k :=
  n_flat hk fun _ => n_instr

theorem n_opt {α : Type} {f : α → List Key} {o : Option α} (h : ∀ a ∈ o, ∀ k ∈ f a, kKey ds k) :
    ∀ k ∈ optNeeds f o, kKey ds k := by
  cases o with
  | none => simp [optNeeds]
  | some a => exact h a rfl

theorem n_sig {s : ItemSig} (hk : kSig false ds s) : ∀ k ∈ s.needs, kKey ds k := by
  obtain ⟨id, k⟩ := s
  cases k with
  | func e u => exact n_use hk
  | tag u => exact n_use hk
  | _ => simp [ItemSig.needs]

theorem n_payload {p : Payload} (hk : kPayload false ds p) : ∀ k ∈ p.needs, kKey ds k := by
  cases p with
  | indices is => simp [Payload.needs]
  | exprs t es => exact n_flat hk.1 fun _ => n_expr

theorem n_field {f : Field} (hk : kField false ds f) : ∀ k ∈ f.needs, kKey ds k := by
  cases f with
  | «import» ss => exact n_flat hk fun _ => n_sig
  | func id u b =>
    intro k hm
    rcases List.mem_append.1 hm with h | h
    · exact n_use hk.1 k h
    · exact n_opt (fun p hp => n_expr (hk.2 p hp).2) k h
  | table id h i => exact n_opt fun p hp => n_expr (hk.2 p hp)
  | global id h i => exact n_opt fun p hp => n_expr (hk.2 p hp)
  | tag id u => exact n_use hk
  | elem id a p =>
    intro k hm
    rcases List.mem_append.1 hm with h | h
    · exact n_opt (fun p hp => n_expr (hk.1 p hp).2) k h
    · exact n_payload hk.2 k h
  | data id a => exact n_opt fun p hp => n_expr (hk p hp).2
  | _ => simp [Field.needs]

theorem mem_unseen : ∀ (l s : List Key) (k : Key), k ∈ unseen s l → k ∈ l
  | [], _, _, h => by simp [unseen] at h
  | a :: l, s, k, h => by
    unfold unseen at h
    split at h
    · exact List.mem_cons_of_mem _ (mem_unseen l s k h)
    · rcases List.mem_cons.1 h with rfl | h
      · simp
      · exact List.mem_cons_of_mem _ (mem_unseen l _ k h)

theorem mem_plains : ∀ (fs : List Field) (t : TypeDef), t ∈ plains fs → .type t ∈ fs
  | [], _, h => by simp [plains] at h
  | f :: fs, t, h => by
    cases f
    case type t' =>
      simp only [plains, List.mem_cons] at h
      rcases h with rfl | h
      · simp
      · exact List.mem_cons_of_mem _ (mem_plains fs t h)
    all_goals exact List.mem_cons_of_mem _ (mem_plains fs t h)

theorem mem_space (s : Space) (x : Id) (fs : List Field) :
    some x ∈ space s (fs.flatMap decls) ↔ ∃ f ∈ fs, some x ∈ space s (decls f) := by
  simp only [space, List.mem_filterMap, List.mem_flatMap]
  constructor
  · rintro ⟨d, ⟨f, hf, hd⟩, h⟩; exact ⟨f, hf, d, hd, h⟩
  · rintro ⟨f, hf, d, hd, h⟩; exact ⟨d, ⟨f, hf, hd⟩, h⟩

theorem known_expanded {fields out : List Field} (h : AllKnown fields) (he : Expanded fields out) :
    ∀ f ∈ out, kField true (out.flatMap decls) f := by
  obtain ⟨mid, news, rfl, h1, h2, h3⟩ := he
  have g : Grows (fields.flatMap decls) ((mid ++ news.map Field.type).flatMap decls) (plains (mid ++ news.map Field.type)) := by
    refine ⟨fun s x hx => ?_, fun d hd x hx => ?_⟩
    · rw [mem_space] at hx ⊢
      obtain ⟨f, hf, hx⟩ := hx
      have : ∃ b ∈ mid, some x ∈ space s (decls b) := by
        clear h3 h2 h
        generalize plains (mid ++ news.map Field.type) = ts at h1
        induction h1 with
        | nil => simp at hf
        | cons h1 _ ih =>
          rcases List.mem_cons.1 hf with rfl | hf
          · exact ⟨_, by simp, decls_grow h1 s x hx⟩
          · obtain ⟨b, hb, hx⟩ := ih hf
            exact ⟨b, by simp [hb], hx⟩
      obtain ⟨b, hb, hx⟩ := this
      exact ⟨b, by simp [hb], hx⟩
    · rw [mem_space]
      exact ⟨.type d, mem_plains _ _ hd, by simp [decls, space, Decl.nameIn, hx]⟩
  intro f hf
  rcases List.mem_append.1 hf with hf | hf
  · exact forall₂_mem h1 h (fun _ _ => g_field g) f hf
  · obtain ⟨t, ht, rfl⟩ := List.mem_map.1 hf
    obtain ⟨-, hp, hd, hc, -⟩ := h2 t ht
    have hs : t.sig ∈ news.map TypeDef.sig := List.mem_map_of_mem ht
    rw [h3] at hs
    obtain ⟨k, hk, hs⟩ := List.mem_map.1 hs
    have hk := n_flat h (fun _ => n_field) k (mem_unseen _ _ k hk)
    refine ⟨by simp [hp], by simp [hd], by simp [hc], ?_⟩
    cases hf : t.kind with
    | func f =>
      simp only [TypeDef.sig, hf, Option.some.injEq] at hs
      subst hs
      exact g_func g ⟨fun p hp => hk.1 _ (List.mem_map_of_mem hp), hk.2⟩
    | _ => simp [TypeDef.sig, hf] at hs

end Verif.Resolve
