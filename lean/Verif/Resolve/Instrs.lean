import Verif.Resolve.Refs

namespace Verif.Resolve

open Verif.Expand

theorem c_label (blocks : List (Option Id)) : Computes (resolveLabel blocks) (LabelR blocks) := by
  intro i j
  cases i with
  | num n =>
    simp only [resolveLabel, Except.ok.injEq]
    constructor
    · rintro rfl; exact .num _
    · intro h; cases h; rfl
  | id x =>
    have key : ∀ (bs : List (Option Id)) (n : Nat), bs.findIdx? (fun b => b = some x) = some n ↔
        ∃ inner outer, bs = inner ++ some x :: outer ∧ some x ∉ inner ∧ n = inner.length := by
      intro bs
      induction bs with
      | nil => intro n; simp
      | cons b bs ih =>
        intro n
        rw [List.findIdx?_cons]
        by_cases hb : b = some x
        · simp only [hb, decide_true, if_true, Option.some.injEq]
          constructor
          · rintro rfl; exact ⟨[], bs, rfl, by simp, rfl⟩
          · rintro ⟨inner, outer, h1, h2, rfl⟩
            cases inner with
            | nil => rfl
            | cons c inner =>
              simp only [List.cons_append, List.cons.injEq] at h1
              exact absurd (by rw [← h1.1]; simp) h2
        · simp only [hb, decide_false, Bool.false_eq_true, if_false, Option.map_eq_some_iff]
          constructor
          · rintro ⟨m, h1, rfl⟩
            obtain ⟨inner, outer, h2, h3, rfl⟩ := (ih m).1 h1
            refine ⟨b :: inner, outer, by simp [h2], ?_, rfl⟩
            intro hm
            rcases List.mem_cons.1 hm with h | h
            · exact hb h.symm
            · exact h3 h
          · rintro ⟨inner, outer, h1, h2, rfl⟩
            cases inner with
            | nil => simp only [List.nil_append, List.cons.injEq] at h1; exact absurd h1.1 hb
            | cons c inner =>
              simp only [List.cons_append, List.cons.injEq] at h1
              exact ⟨inner.length, (ih _).2 ⟨inner, outer, h1.2, fun h => h2 (by simp [h]), rfl⟩, rfl⟩
    simp only [resolveLabel]
    cases hf : blocks.findIdx? (fun b => b = some x) with
    | none =>
      simp only [reduceCtorEq, false_iff]
      intro h
      cases h with
      | id _ inner outer h1 h2 =>
        rw [(key _ _).2 ⟨inner, outer, h1, h2, rfl⟩] at hf; cases hf
    | some n =>
      simp only [Except.ok.injEq]
      constructor
      · rintro rfl
        obtain ⟨inner, outer, h1, h2, rfl⟩ := (key _ _).1 hf
        exact .id x inner outer h1 h2
      · intro h
        cases h with
        | id _ inner outer h1 h2 =>
          rw [(key _ _).2 ⟨inner, outer, h1, h2, rfl⟩] at hf
          rw [Option.some.inj hf]

theorem checkLabel_iff (blocks : List (Option Id)) (l : Option Id) (u : Unit) :
    checkLabel blocks l = .ok u ↔ LabelOk blocks l := by
  cases blocks with
  | nil => simp [checkLabel, LabelOk]
  | cons b bs =>
    cases l with
    | none => simp [checkLabel, LabelOk]
    | some x =>
      simp only [checkLabel, LabelOk, List.head?_cons, reduceCtorEq, false_or, Option.some.injEq]
      by_cases h : some x = b
      · simp [h]
      · have : ¬ b = some x := fun h' => h h'.symm
        simp [h, this]

section
variable {r : Resolver} {ds : List Decl} (hi : RInv r ds)
include hi

theorem c_field (t f : Index) (p : Index × Index) :
    resolveField r t f = .ok p ↔ FieldAccR ds t f p.1 p.2 := by
  obtain ⟨t', f'⟩ := p
  simp only [resolveField, ok_bind_iff, denotes_iff (hi.ns .type).toRep]
  cases f with
  | num k =>
    simp only [Except.ok.injEq, Prod.mk.injEq]
    constructor
    · rintro ⟨n, h1, rfl, rfl⟩; exact .num _ _ _ h1
    · intro h; cases h with | num n _ h1 => exact ⟨n, h1, rfl, rfl⟩
  | id x =>
    constructor
    · rintro ⟨n, h1, h2⟩
      cases hf : r.fields n with
      | none => rw [hf] at h2; cases h2
      | some ns =>
        rw [hf] at h2
        simp only [ok_bind_iff, Except.ok.injEq, Prod.mk.injEq] at h2
        obtain ⟨k, h3, rfl, rfl⟩ := h2
        have hr := hi.fields n
        rw [hf] at hr
        have h4 := (denotes_iff hr _ _).1 h3
        cases h4 with
        | id _ _ h5 =>
          cases ht : (types ds)[n]? with
          | none => rw [ht] at h5; simp at h5
          | some d => rw [ht] at h5; exact .id _ _ _ d _ h1 ht h5
    · intro h
      cases h with
      | id n _ d k h1 h2 h3 =>
        refine ⟨n, h1, ?_⟩
        have hr := hi.fields n
        rw [h2] at hr
        cases hf : r.fields n with
        | none =>
          rw [hf] at hr
          have := (hr.get x k).2 h3
          simp [Namespace.get, Namespace.empty] at this
        | some ns =>
          rw [hf] at hr
          simp only [ok_bind_iff, Except.ok.injEq, Prod.mk.injEq]
          exact ⟨k, (denotes_iff hr _ _).2 (.id _ _ h3), trivial, rfl⟩

variable {scope : Namespace} {locals : List (Option Id)} (hs : Rep scope locals)

include hs in
theorem c_ref (blocks : List (Option Id)) : Computes (resolveRef r scope blocks) (RefR ds locals blocks) := by
  intro a b
  cases a with
  | item s i =>
    simp only [resolveRef, ok_bind_iff, Except.ok.injEq, c_index hi s i _]
    constructor
    · rintro ⟨_, h1, rfl⟩; exact .item _ _ _ h1
    · rintro ⟨⟩; exact ⟨_, by assumption, rfl⟩
  | loc i =>
    simp only [resolveRef, ok_bind_iff, Except.ok.injEq, denotes_iff hs]
    constructor
    · rintro ⟨_, h1, rfl⟩; exact .loc _ _ (.mk _ _ h1)
    · intro h; cases h with | loc _ _ h => cases h with | mk n h => exact ⟨n, h, rfl⟩
  | label i =>
    simp only [resolveRef, ok_bind_iff, Except.ok.injEq, c_label blocks i _]
    constructor
    · rintro ⟨_, h1, rfl⟩; exact .label _ _ h1
    · rintro ⟨⟩; exact ⟨_, by assumption, rfl⟩
  | field t f =>
    simp only [resolveRef, ok_bind_iff, Except.ok.injEq, c_field hi]
    constructor
    · rintro ⟨_, h1, rfl⟩; exact .field _ _ _ _ h1
    · intro h; cases h with | field _ _ t' f' h => exact ⟨(t', f'), h, rfl⟩
  | val v =>
    simp only [resolveRef, ok_bind_iff, Except.ok.injEq, c_val hi v _]
    constructor
    · rintro ⟨_, h1, rfl⟩; exact .val _ _ h1
    · rintro ⟨⟩; exact ⟨_, by assumption, rfl⟩
  | heap h =>
    simp only [resolveRef, ok_bind_iff, Except.ok.injEq, c_heap hi h _]
    constructor
    · rintro ⟨_, h1, rfl⟩; exact .heap _ _ h1
    · rintro ⟨⟩; exact ⟨_, by assumption, rfl⟩

theorem c_catch (blocks : List (Option Id)) : Computes (resolveCatch r blocks) (CatchR ds blocks) := by
  intro c c'
  obtain ⟨t, l⟩ := c
  simp only [resolveCatch, ok_bind_iff, Except.ok.injEq, computes_opt (c_index hi .tag) t _, c_label blocks l _]
  constructor
  · rintro ⟨_, h1, _, h2, rfl⟩; exact .mk _ _ _ _ h1 h2
  · rintro ⟨⟩; exact ⟨_, by assumption, _, by assumption, rfl⟩

include hs in
theorem c_instr (bs : List (Option Id)) (i i' : Instr) (bs' : List (Option Id)) :
    resolveInstr r scope bs i = .ok (i', bs') ↔ InstrR ds locals bs i i' bs' := by
  cases i with
  | block op l u =>
    simp only [resolveInstr, ok_bind_iff, Except.ok.injEq, Prod.mk.injEq, c_blockType hi u _]
    constructor
    · rintro ⟨_, h1, rfl, rfl⟩; exact .block _ _ _ _ _ h1
    · rintro ⟨⟩; exact ⟨_, by assumption, rfl, rfl⟩
  | tryTable l u cs =>
    simp only [resolveInstr, ok_bind_iff, Except.ok.injEq, Prod.mk.injEq, c_blockType hi u _,
      computes_each (c_catch hi bs) cs _]
    constructor
    · rintro ⟨_, h1, _, h2, rfl, rfl⟩; exact .tryTable _ _ _ _ _ _ h1 h2
    · rintro ⟨⟩; exact ⟨_, by assumption, _, by assumption, rfl, rfl⟩
  | else_ l =>
    simp only [resolveInstr, ok_bind_iff, Except.ok.injEq, Prod.mk.injEq, checkLabel_iff]
    constructor
    · rintro ⟨_, h1, rfl, rfl⟩; exact .else_ _ _ h1
    · rintro ⟨⟩; exact ⟨(), by assumption, rfl, rfl⟩
  | end_ l =>
    simp only [resolveInstr, ok_bind_iff, Except.ok.injEq, Prod.mk.injEq, checkLabel_iff]
    constructor
    · rintro ⟨_, h1, rfl, rfl⟩; exact .end_ _ _ h1
    · rintro ⟨⟩; exact ⟨(), by assumption, rfl, rfl⟩
  | delegate j =>
    simp only [resolveInstr, ok_bind_iff, Except.ok.injEq, Prod.mk.injEq, c_label bs.tail j _]
    constructor
    · rintro ⟨_, h1, rfl, rfl⟩; exact .delegate _ _ _ h1
    · rintro ⟨⟩; exact ⟨_, by assumption, rfl, rfl⟩
  | callIndirect op t u =>
    simp only [resolveInstr, ok_bind_iff, Except.ok.injEq, Prod.mk.injEq, c_index hi .table t _, c_use hi u _]
    constructor
    · rintro ⟨_, h1, _, h2, rfl, rfl⟩; exact .callIndirect _ _ _ _ _ _ h1 h2
    · rintro ⟨⟩; exact ⟨_, by assumption, _, by assumption, rfl, rfl⟩
  | plain op rs =>
    simp only [resolveInstr, ok_bind_iff, Except.ok.injEq, Prod.mk.injEq, computes_each (c_ref hi hs bs) rs _]
    constructor
    · rintro ⟨_, h1, rfl, rfl⟩; exact .plain _ _ _ _ h1
    · rintro ⟨⟩; exact ⟨_, by assumption, rfl, rfl⟩

include hs in
theorem c_instrs (is : List Instr) : ∀ (bs : List (Option Id)) (is' : List Instr),
    resolveInstrs r scope bs is = .ok is' ↔ InstrsR ds locals bs is is' := by
  induction is with
  | nil =>
    intro bs is'
    simp only [resolveInstrs, Except.ok.injEq]
    constructor
    · rintro rfl; exact .nil _
    · intro h; cases h; rfl
  | cons i is ih =>
    intro bs is'
    simp only [resolveInstrs, ok_bind_iff, Except.ok.injEq]
    constructor
    · rintro ⟨⟨i', bs'⟩, h1, is2, h2, rfl⟩
      exact .cons _ _ _ _ _ _ ((c_instr hi hs _ _ _ _).1 h1) ((ih _ _).1 h2)
    · intro h
      cases h with
      | cons _ bs' _ i' _ is2 h1 h2 =>
        exact ⟨(i', bs'), (c_instr hi hs _ _ _ _).2 h1, is2, (ih _ _).2 h2, rfl⟩

theorem c_expr : Computes (resolveExpr r) (ExprR ds) := fun e e' => c_instrs hi rep_empty e [] e'

theorem paramNames_eq (n : Nat) (inl : Option FuncTy) : paramNames r n inl = paramsOf ds n inl := by
  cases inl with
  | some f => rfl
  | none =>
    simp only [paramNames, paramsOf, hi.info, List.getElem?_map]
    cases ht : (types ds)[n]? with
    | none => rfl
    | some t =>
      cases hk : t.kind with
      | func g =>
        simp only [TypeDef.sig, hk, Option.map_some, List.map_map]
        rfl
      | _ => simp [TypeDef.sig, hk]

theorem snd_fsts {ls ls' : List (Option Id × ValTy)} (h : List.Forall₂ (SndR (ValR ds)) ls ls') :
    ls'.map (·.1) = ls.map (·.1) := by
  clear hi
  induction h with
  | nil => rfl
  | cons h1 _ ih => cases h1; simp [ih]

theorem c_body (n : Nat) (inl : Option FuncTy) : Computes (resolveBody r n inl) (BodyR ds (paramsOf ds n inl)) := by
  intro b b'
  obtain ⟨ls, is⟩ := b
  simp only [resolveBody, ok_bind_iff, Except.ok.injEq, computes_each (computes_snd (c_val hi)) ls _, paramNames_eq hi]
  have hreg := fun xs => registerAll_spec xs (ns := .empty) (l := []) ⟨rep_empty, rfl⟩
  constructor
  · rintro ⟨ls', h1, scope, h2, is', h3, rfl⟩
    rw [snd_fsts hi h1] at h2
    have hs := (hreg _).1 _ h2
    rw [List.nil_append] at hs
    exact .mk _ _ _ _ h1 hs.toRep.uniq ((c_instrs hi hs.toRep _ _ _).1 h3)
  · intro h
    cases h with
    | mk _ ls' _ is' h1 h2 h3 =>
      obtain ⟨scope, h4⟩ := (hreg (paramsOf ds n inl ++ ls.map (·.1))).2 (by rw [List.nil_append]; exact h2)
      have hs := (hreg _).1 _ h4
      rw [List.nil_append] at hs
      exact ⟨ls', h1, scope, by rw [snd_fsts hi h1]; exact h4, is', (c_instrs hi hs.toRep _ _ _).2 h3, rfl⟩

theorem c_sig : Computes (resolveItemSig r) (SigR ds) := by
  intro s s'
  obtain ⟨id, kind⟩ := s
  cases kind with
  | func e u =>
    simp only [resolveItemSig, ok_bind_iff, Except.ok.injEq, c_use hi u _]
    constructor
    · rintro ⟨_, h1, rfl⟩; exact .func _ _ _ _ h1
    · rintro ⟨⟩; exact ⟨_, by assumption, rfl⟩
  | tag u =>
    simp only [resolveItemSig, ok_bind_iff, Except.ok.injEq, c_use hi u _]
    constructor
    · rintro ⟨_, h1, rfl⟩; exact .tag _ _ _ h1
    · rintro ⟨⟩; exact ⟨_, by assumption, rfl⟩
  | global t =>
    simp only [resolveItemSig, ok_bind_iff, Except.ok.injEq, c_val hi t _]
    constructor
    · rintro ⟨_, h1, rfl⟩; exact .global _ _ _ h1
    · rintro ⟨⟩; exact ⟨_, by assumption, rfl⟩
  | table h =>
    simp only [resolveItemSig, ok_bind_iff, Except.ok.injEq, c_heap hi h _]
    constructor
    · rintro ⟨_, h1, rfl⟩; exact .table _ _ _ h1
    · rintro ⟨⟩; exact ⟨_, by assumption, rfl⟩
  | memory =>
    simp only [resolveItemSig, Except.ok.injEq]
    constructor
    · rintro rfl; exact .memory _
    · rintro ⟨⟩; rfl

theorem c_elemAt : Computes (resolveElemAt r) (AtR (OptR (IndexR (space .table ds))) ds) := by
  intro p p'
  obtain ⟨a, is⟩ := p
  simp only [resolveElemAt, ok_bind_iff, Except.ok.injEq, computes_opt (c_index hi .table) a _, c_expr hi is _]
  constructor
  · rintro ⟨_, h1, _, h2, rfl⟩; exact .mk _ _ _ _ h1 h2
  · rintro ⟨⟩; exact ⟨_, by assumption, _, by assumption, rfl⟩

theorem c_dataAt : Computes (resolveDataAt r) (AtR (IndexR (space .memory ds)) ds) := by
  intro p p'
  obtain ⟨a, is⟩ := p
  simp only [resolveDataAt, ok_bind_iff, Except.ok.injEq, c_index hi .memory a _, c_expr hi is _]
  constructor
  · rintro ⟨_, h1, _, h2, rfl⟩; exact .mk _ _ _ _ h1 h2
  · rintro ⟨⟩; exact ⟨_, by assumption, _, by assumption, rfl⟩

theorem c_payload : Computes (resolvePayload r) (PayR ds) := by
  intro p p'
  cases p with
  | indices is =>
    simp only [resolvePayload, ok_bind_iff, Except.ok.injEq, computes_each (c_index hi .func) is _]
    constructor
    · rintro ⟨_, h1, rfl⟩; exact .indices _ _ h1
    · rintro ⟨⟩; exact ⟨_, by assumption, rfl⟩
  | exprs t es =>
    simp only [resolvePayload, ok_bind_iff, Except.ok.injEq, computes_each (c_expr hi) es _, c_heap hi t _]
    constructor
    · rintro ⟨_, h1, _, h2, rfl⟩; exact .exprs _ _ _ _ h1 h2
    · rintro ⟨⟩; exact ⟨_, by assumption, _, by assumption, rfl⟩

theorem c_modField : Computes (resolveModField r) (FieldR ds) := by
  intro f f'
  cases f with
  | type t =>
    simp only [resolveModField, ok_bind_iff, Except.ok.injEq, c_typeDef hi t _]
    constructor
    · rintro ⟨_, h1, rfl⟩; exact .type _ _ h1
    · rintro ⟨⟩; exact ⟨_, by assumption, rfl⟩
  | recGroup ts =>
    simp only [resolveModField, ok_bind_iff, Except.ok.injEq, computes_each (c_typeDef hi) ts _]
    constructor
    · rintro ⟨_, h1, rfl⟩; exact .recGroup _ _ h1
    · rintro ⟨⟩; exact ⟨_, by assumption, rfl⟩
  | «import» ss =>
    simp only [resolveModField, ok_bind_iff, Except.ok.injEq, computes_each (c_sig hi) ss _]
    constructor
    · rintro ⟨_, h1, rfl⟩; exact .import _ _ h1
    · rintro ⟨⟩; exact ⟨_, by assumption, rfl⟩
  | func id u b =>
    cases b with
    | none =>
      simp only [resolveModField, ok_bind_iff, Except.ok.injEq, c_use hi u _]
      constructor
      · rintro ⟨_, h1, rfl⟩; exact .funcDecl _ _ _ h1
      · rintro ⟨⟩; exact ⟨_, by assumption, rfl⟩
    | some b =>
      simp only [resolveModField, ok_bind_iff, Except.ok.injEq]
      constructor
      · rintro ⟨⟨n, inl⟩, h1, b', h2, rfl⟩
        exact .func _ _ _ _ _ _ ((c_typeUse hi _ _ _).1 h1) ((c_body hi _ _ _ _).1 h2)
      · intro h
        cases h with
        | func _ _ n inl _ b' h1 h2 =>
          exact ⟨(n, inl), (c_typeUse hi _ _ _).2 h1, b', (c_body hi _ _ _ _).2 h2, rfl⟩
  | table id h e =>
    simp only [resolveModField, ok_bind_iff, Except.ok.injEq, c_heap hi h _, computes_opt (c_expr hi) e _]
    constructor
    · rintro ⟨_, h1, _, h2, rfl⟩; exact .table _ _ _ _ _ h1 h2
    · rintro ⟨⟩; exact ⟨_, by assumption, _, by assumption, rfl⟩
  | memory id =>
    simp only [resolveModField, Except.ok.injEq]
    constructor
    · rintro rfl; exact .memory _
    · rintro ⟨⟩; rfl
  | global id t e =>
    simp only [resolveModField, ok_bind_iff, Except.ok.injEq, c_val hi t _, computes_opt (c_expr hi) e _]
    constructor
    · rintro ⟨_, h1, _, h2, rfl⟩; exact .global _ _ _ _ _ h1 h2
    · rintro ⟨⟩; exact ⟨_, by assumption, _, by assumption, rfl⟩
  | tag id u =>
    simp only [resolveModField, ok_bind_iff, Except.ok.injEq, c_use hi u _]
    constructor
    · rintro ⟨_, h1, rfl⟩; exact .tag _ _ _ h1
    · rintro ⟨⟩; exact ⟨_, by assumption, rfl⟩
  | «export» s i =>
    simp only [resolveModField, ok_bind_iff, Except.ok.injEq, c_index hi s i _]
    constructor
    · rintro ⟨_, h1, rfl⟩; exact .export _ _ _ h1
    · rintro ⟨⟩; exact ⟨_, by assumption, rfl⟩
  | start i =>
    simp only [resolveModField, ok_bind_iff, Except.ok.injEq, c_index hi .func i _]
    constructor
    · rintro ⟨_, h1, rfl⟩; exact .start _ _ h1
    · rintro ⟨⟩; exact ⟨_, by assumption, rfl⟩
  | elem id a p =>
    simp only [resolveModField, ok_bind_iff, Except.ok.injEq, computes_opt (c_elemAt hi) a _, c_payload hi p _]
    constructor
    · rintro ⟨_, h1, _, h2, rfl⟩; exact .elem _ _ _ _ _ h1 h2
    · rintro ⟨⟩; exact ⟨_, by assumption, _, by assumption, rfl⟩
  | data id a =>
    simp only [resolveModField, ok_bind_iff, Except.ok.injEq, computes_opt (c_dataAt hi) a _]
    constructor
    · rintro ⟨_, h1, rfl⟩; exact .data _ _ _ h1
    · rintro ⟨⟩; exact ⟨_, by assumption, rfl⟩
  | custom =>
    simp only [resolveModField, Except.ok.injEq]
    constructor
    · rintro rfl; exact .custom
    · rintro ⟨⟩; rfl

end

end Verif.Resolve
