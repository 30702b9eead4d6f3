import Verif.Resolve.Known
import Verif.Resolve.Lemmas
import Verif.Resolve.Order

/-!
# Lookups that cannot panic
-/

namespace Verif.Resolve

open Verif.Expand

/-- Not a panic. -/
def NP {α : Type} (x : M α) : Prop := x ≠ .error .panic

theorem np_ok {α : Type} (a : α) : NP (.ok a : M α) := by simp [NP]

theorem np_bind {α β : Type} {x : M α} {k : α → M β} (h1 : NP x) (h2 : ∀ a, NP (k a)) : NP (x >>= k) := by
  cases x with
  | ok a => exact h2 a
  | error e => simpa [NP, bind, Except.bind] using h1

theorem np_each {α β : Type} {f : α → M β} : ∀ {as : List α}, (∀ a ∈ as, NP (f a)) → NP (eachM f as)
  | [], _ => np_ok _
  | a :: as, h => by
    have h1 := h a (by simp)
    have h2 : NP (eachM f as) := np_each (fun b hb => h b (by simp [hb]))
    unfold eachM
    cases hf : f a with
    | error e => rw [hf] at h1; simpa [NP] using h1
    | ok b =>
      cases he : eachM f as with
      | error e => rw [he] at h2; simpa [NP] using h2
      | ok bs => simp [NP]

theorem np_opt {α β : Type} {f : α → M β} {o : Option α} (h : ∀ a ∈ o, NP (f a)) : NP (optM f o) := by
  cases o with
  | none => exact np_ok _
  | some a =>
    have h1 := h a rfl
    cases hf : f a with
    | error e => rw [hf] at h1; simpa [optM, hf, NP] using h1
    | ok b => simp [optM, hf, NP]

theorem np_snd {α β : Type} {f : β → M β} {p : α × β} (h : NP (f p.2)) : NP (sndM f p) := by
  unfold sndM
  cases hf : f p.2 with
  | error e => rw [hf] at h; simpa [NP] using h
  | ok b => simp [NP]

theorem np_lookup {ns : Namespace} {l : List (Option Id)} (h : Rep ns l) {i : Index} (hk : Known l i) :
    NP (ns.resolve i) := by
  cases i with
  | num n => exact np_ok _
  | id x =>
    cases hg : ns.get x with
    | some n => simp [NP, Namespace.resolve, hg]
    | none =>
      rcases hk x rfl with h0 | hm
      · simp [NP, Namespace.resolve, hg, resolveError, h0]
      · obtain ⟨n, hn⟩ := List.mem_iff_getElem?.1 hm
        rw [(h.get x n).2 hn] at hg
        cases hg

theorem np_lookup_src {ns : Namespace} {i : Index} (hk : Known [] i) : NP (ns.resolve i) := by
  cases i with
  | num n => exact np_ok _
  | id x =>
    cases hg : ns.get x with
    | some n => simp [NP, Namespace.resolve, hg]
    | none =>
      rcases hk x rfl with h0 | hm
      · simp [NP, Namespace.resolve, hg, resolveError, h0]
      · simp at hm

variable {r : Resolver} {ds : List Decl} (hi : RInv r ds)

include hi in
theorem np_resolve {s : Space} {i : Index} (hk : Known (space s ds) i) : NP (resolve r s i) :=
  np_bind (np_lookup (hi.ns s).toRep hk) fun _ => np_ok _

include hi in
theorem np_heap {h : Heap} (hk : kHeap ds h) : NP (resolveHeap r h) := by
  cases h with
  | abs s k => exact np_ok _
  | concrete i => exact np_bind (np_resolve hi hk) fun _ => np_ok _
  | exact i => exact np_bind (np_resolve hi hk) fun _ => np_ok _

include hi in
theorem np_val {v : ValTy} (hk : kVal ds v) : NP (resolveVal r v) := by
  cases v with
  | num k => exact np_ok _
  | ref n h => exact np_bind (np_heap hi hk) fun _ => np_ok _

include hi in
theorem np_storage {v : Storage} (hk : kStorage ds v) : NP (resolveStorage r v) := by
  cases v with
  | packed k => exact np_ok _
  | val v => exact np_bind (np_val hi hk) fun _ => np_ok _

include hi in
theorem np_func {f : FuncTy} (hk : kFunc ds f) : NP (resolveFunc r f) :=
  np_bind (np_each fun p hp => np_snd (np_val hi (hk.1 p hp))) fun _ =>
    np_bind (np_each fun v hv => np_val hi (hk.2 v hv)) fun _ => np_ok _

include hi in
theorem np_kind {k : Kind} (hk : kKind ds k) : NP (resolveKind r k) := by
  cases k with
  | func f => exact np_bind (np_func hi hk) fun _ => np_ok _
  | struct fs => exact np_bind (np_each fun p hp => np_snd (np_storage hi (hk p hp))) fun _ => np_ok _
  | array s => exact np_bind (np_storage hi hk) fun _ => np_ok _
  | cont i => exact np_bind (np_resolve hi hk) fun _ => np_ok _

include hi in
theorem np_typeDef {t : TypeDef} (hk : kTypeDef ds t) : NP (resolveTypeDef r t) :=
  np_bind (np_opt fun i h => np_resolve hi (hk.1 i h)) fun _ =>
    np_bind (np_opt fun i h => np_resolve hi (hk.2.1 i h)) fun _ =>
      np_bind (np_opt fun i h => np_resolve hi (hk.2.2.1 i h)) fun _ =>
        np_bind (np_kind hi hk.2.2.2) fun _ => np_ok _

theorem np_check (f : FuncTy) (n : Nat) : NP (checkMatches r f n) := by
  unfold checkMatches NP
  split
  · simp
  · simp
  · split <;> simp

include hi in
theorem np_typeUse {u : TypeUse} (hn : u.index ≠ none) (hk : kUse false ds u) : NP (resolveTypeUse r u) := by
  unfold resolveTypeUse
  obtain ⟨i, inl⟩ := u
  cases i with
  | none => exact absurd rfl hn
  | some i =>
    refine np_bind (np_lookup (hi.ns .type).toRep (hk.2.1 i rfl)) fun n => ?_
    cases inl with
    | none => exact np_ok _
    | some f => exact np_bind (np_func hi (hk.2.2 f rfl)) fun f => np_bind (np_check f n) fun _ => np_ok _

theorem kUse.weak {e : Bool} {u : TypeUse} (hk : kUse e ds u) : kUse false ds u := ⟨by simp, hk.2⟩

include hi in
theorem np_use {u : TypeUse} (hk : kUse true ds u) : NP (resolveUse r u) :=
  np_bind (np_typeUse hi (hk.1 rfl) hk.weak) fun _ => np_ok _

include hi in
theorem np_blockType {u : TypeUse} (hk : kUse false ds u) : NP (resolveBlockType r u) := by
  unfold resolveBlockType
  split
  · rename_i h
    exact np_use hi ⟨fun _ h0 => by simp [h0] at h, hk.2⟩
  · exact np_bind (np_opt fun f h => np_func hi (hk.2.2 f h)) fun _ => np_ok _

theorem np_label {bs : List (Option Id)} {i : Index} (hk : Known [] i) : NP (resolveLabel bs i) := by
  cases i with
  | num n => exact np_ok _
  | id x =>
    simp only [resolveLabel]
    split
    · exact np_ok _
    · rcases hk x rfl with h0 | hm
      · simp [NP, resolveError, h0]
      · simp at hm

include hi in
theorem np_field {t f : Index} (h1 : Known (space .type ds) t) (h2 : Known [] f) : NP (resolveField r t f) := by
  refine np_bind (np_lookup (hi.ns .type).toRep h1) fun n => ?_
  cases f with
  | num k => exact np_ok _
  | id x =>
    dsimp only
    split
    · simp [NP]
    · exact np_bind (np_lookup_src h2) fun _ => np_ok _

include hi in
theorem np_ref {scope : Namespace} {bs : List (Option Id)} {a : Ref} (hk : kRef ds a) : NP (resolveRef r scope bs a) := by
  cases a with
  | item s i => exact np_bind (np_resolve hi hk) fun _ => np_ok _
  | loc i => exact np_bind (np_lookup_src hk) fun _ => np_ok _
  | label i => exact np_bind (np_label hk) fun _ => np_ok _
  | field t f => exact np_bind (np_field hi hk.1 hk.2) fun _ => np_ok _
  | val v => exact np_bind (np_val hi hk) fun _ => np_ok _
  | heap h => exact np_bind (np_heap hi hk) fun _ => np_ok _

include hi in
theorem np_catch {bs : List (Option Id)} {c : Option Index × Index} (hk : kCatch ds c) : NP (resolveCatch r bs c) :=
  np_bind (np_opt fun i h => np_resolve hi (hk.1 i h)) fun _ => np_bind (np_label hk.2) fun _ => np_ok _

theorem np_checkLabel (bs : List (Option Id)) (l : Option Id) : NP (checkLabel bs l) := by
  unfold checkLabel NP
  repeat' split
  all_goals simp

include hi in
theorem np_instr {scope : Namespace} {bs : List (Option Id)} {a : Instr} (hk : kInstr true ds a) :
    NP (resolveInstr r scope bs a) := by
  cases a with
  | block op l u => exact np_bind (np_blockType hi hk) fun _ => np_ok _
  | tryTable l u cs =>
    exact np_bind (np_blockType hi hk.1) fun _ => np_bind (np_each fun c hc => np_catch hi (hk.2 c hc)) fun _ => np_ok _
  | else_ l => exact np_bind (np_checkLabel _ _) fun _ => np_ok _
  | end_ l => exact np_bind (np_checkLabel _ _) fun _ => np_ok _
  | delegate i => exact np_bind (np_label hk) fun _ => np_ok _
  | callIndirect op t u => exact np_bind (np_resolve hi hk.1) fun _ => np_bind (np_use hi hk.2) fun _ => np_ok _
  | plain op rs => exact np_bind (np_each fun c hc => np_ref hi (hk c hc)) fun _ => np_ok _

include hi in
theorem np_instrs {scope : Namespace} : ∀ {is : List Instr} {bs : List (Option Id)}, kExpr true ds is →
    NP (resolveInstrs r scope bs is)
  | [], _, _ => np_ok _
  | i :: is, bs, hk => by
    unfold resolveInstrs
    exact np_bind (np_instr hi (hk i (by simp))) fun p =>
      np_bind (np_instrs (fun j hj => hk j (by simp [hj]))) fun _ => np_ok _

theorem np_registerAll : ∀ (xs : List (Option Id)) (ns : Namespace), NP (registerAll xs ns)
  | [], _ => np_ok _
  | x :: xs, ns => by
    unfold registerAll
    cases hr : ns.register x with
    | ok ns => exact np_registerAll xs ns
    | error e =>
      cases x with
      | none => cases hr
      | some x =>
        simp only [Namespace.register] at hr
        split at hr
        · cases hr; simp [NP]
        · cases hr

include hi in
theorem np_sig {s : ItemSig} (hk : kSig true ds s) : NP (resolveItemSig r s) := by
  obtain ⟨id, k⟩ := s
  cases k with
  | func e u => exact np_bind (np_use hi hk) fun _ => np_ok _
  | tag u => exact np_bind (np_use hi hk) fun _ => np_ok _
  | global t => exact np_bind (np_val hi hk) fun _ => np_ok _
  | table h => exact np_bind (np_heap hi hk) fun _ => np_ok _
  | memory => exact np_ok _

include hi in
theorem np_payload {p : Payload} (hk : kPayload true ds p) : NP (resolvePayload r p) := by
  cases p with
  | indices is => exact np_bind (np_each fun i h => np_resolve hi (hk i h)) fun _ => np_ok _
  | exprs t es =>
    exact np_bind (np_each fun i h => np_instrs hi (hk.1 i h)) fun _ => np_bind (np_heap hi hk.2) fun _ => np_ok _

include hi in
theorem np_modField {f : Field} (hk : kField true ds f) : NP (resolveModField r f) := by
  cases f with
  | type t => exact np_bind (np_typeDef hi hk) fun _ => np_ok _
  | recGroup ts => exact np_bind (np_each fun t h => np_typeDef hi (hk t h)) fun _ => np_ok _
  | «import» ss => exact np_bind (np_each fun s h => np_sig hi (hk s h)) fun _ => np_ok _
  | func id u b =>
    cases b with
    | none => exact np_bind (np_use hi hk.1) fun _ => np_ok _
    | some b =>
      have hb := hk.2 b rfl
      exact np_bind (np_typeUse hi (hk.1.1 rfl) hk.1.weak) fun p =>
        np_bind (np_bind (np_each fun l h => np_snd (np_val hi (hb.1 l h))) fun _ =>
          np_bind (np_registerAll _ _) fun _ => np_bind (np_instrs hi hb.2) fun _ => np_ok _) fun _ => np_ok _
  | table id h i =>
    exact np_bind (np_heap hi hk.1) fun _ => np_bind (np_opt fun i h => np_instrs hi (hk.2 i h)) fun _ => np_ok _
  | memory id => exact np_ok _
  | global id t i =>
    exact np_bind (np_val hi hk.1) fun _ => np_bind (np_opt fun i h => np_instrs hi (hk.2 i h)) fun _ => np_ok _
  | tag id u => exact np_bind (np_use hi hk) fun _ => np_ok _
  | «export» s i => exact np_bind (np_resolve hi hk) fun _ => np_ok _
  | start i => exact np_bind (np_resolve hi hk) fun _ => np_ok _
  | elem id a p =>
    exact np_bind (np_opt fun q h => np_bind (np_opt fun i hi' => np_resolve hi ((hk.1 q h).1 i hi')) fun _ =>
      np_bind (np_instrs hi (hk.1 q h).2) fun _ => np_ok _) fun _ => np_bind (np_payload hi hk.2) fun _ => np_ok _
  | data id a =>
    exact np_bind (np_opt fun q h => np_bind (np_resolve hi (hk q h).1) fun _ =>
      np_bind (np_instrs hi (hk q h).2) fun _ => np_ok _) fun _ => np_ok _
  | custom => exact np_ok _

theorem np_register (fields : List Field) : NP (forM register fields .empty) := by
  have hitem : ∀ s id r, NP (registerItem s id r) := by
    intro s id r
    unfold registerItem
    cases hr : (r.ns s).register id with
    | ok ns => exact np_ok _
    | error e =>
      cases id with
      | none => cases hr
      | some x =>
        simp only [Namespace.register] at hr
        split at hr <;> cases hr
        simp [NP]
  have hfields : ∀ fs i ns, NP (registerFields i fs ns) := by
    intro fs
    induction fs with
    | nil => intro i ns; exact np_ok _
    | cons p fs ih =>
      intro i ns
      obtain ⟨x, s⟩ := p
      cases x with
      | none => exact ih _ _
      | some x =>
        simp only [registerFields]
        cases hr : (ns.getD .empty).registerSpecific x i with
        | ok ns' => exact ih _ _
        | error e =>
          unfold Namespace.registerSpecific at hr
          split at hr <;> cases hr
          simp [NP]
  have htype : ∀ t r, NP (registerType t r) := by
    intro t r
    have h1 := hitem .type t.id r
    unfold registerType
    dsimp only
    cases hr : registerItem .type t.id r with
    | error e => rw [hr] at h1; simpa [NP] using h1
    | ok r' =>
      dsimp only
      have h2 := hfields (fieldsOf t) 0 (r'.fields (r.ns .type).count)
      cases hf : registerFields 0 (fieldsOf t) (r'.fields (r.ns .type).count) with
      | error e => rw [hf] at h2; simpa [NP] using h2
      | ok ns => exact np_ok _
  have hfor : ∀ {α : Type} (f : α → Resolver → M Resolver), (∀ a r, NP (f a r)) → ∀ as r, NP (forM f as r) := by
    intro α f h as
    induction as with
    | nil => intro r; exact np_ok _
    | cons a as ih =>
      intro r
      have h1 := h a r
      unfold forM
      cases hf : f a r with
      | ok r => exact ih r
      | error e => rw [hf] at h1; simpa [NP] using h1
  refine hfor _ (fun f r => ?_) fields _
  cases f with
  | «import» ss => exact hfor _ (fun s r => hitem _ _ _) ss r
  | recGroup ts => exact hfor _ htype ts r
  | type t => exact htype t r
  | «export» s i => exact np_ok _
  | start i => exact np_ok _
  | custom => exact np_ok _
  | _ => exact hitem _ _ _

theorem np_imports : ∀ (fs : List Field) (b : Bool), NP (checkImports b fs)
  | [], _ => np_ok _
  | f :: fs, b => by
    cases f
    case «import» ss =>
      simp only [checkImports]
      split
      · simp [NP]
      · exact np_imports fs _
    all_goals exact np_imports fs _

end Verif.Resolve
