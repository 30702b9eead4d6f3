import Verif.Op.ArityHelp
/-! The operators whose arity depends on types and labels. -/
namespace Verif.Op.AritySpec
open Verif.Op
open Verif.Types (AbsHeap HeapType RefType ValType)
open Verif.Instr (FrameKind BlockType MemArg Catch Handle BrTable Operator)
open Verif.TypeList.Spec (Field Storage Comp SubT)

variable {α β : Type}

/-! ### Rules -/

/-- The end of an operator: for some, the block is left. -/
def Fin (st : Bool) (S1 S' : St) : Prop :=
  if st then unreachable S1 = (.ok (), S') else S' = S1

/-- With the frames `c`, an accepted computation takes and leaves numbers that satisfy `P`. -/
def Agr (st : Bool) (c : List Frame) (m : M α) (P : Nat → Nat → Prop) : Prop :=
  ∀ (S : St) (x : α) (S' : St) (fr : Frame) (rest : List Frame), S.control = c → c = fr :: rest →
    fr.height ≤ S.operands.length → m S = (.ok x, S') →
    ∃ a b S1, P a b ∧ S1.control = S.control ∧
      Moves fr.unreachable (S.operands.length - fr.height) a b S S1 ∧ Fin st S1 S'

/-- With the frames `c`, an accepted computation returns something that satisfies `Q`. -/
def Gives (c : List Frame) (m : M α) (Q : α → Prop) : Prop :=
  ∀ (S : St) (x : α) (S' : St), S.control = c → m S = (.ok x, S') → Q x

section
variable {st : Bool} {c : List Frame} {m : M α} {k : α → M β} {P : Nat → Nat → Prop}
  {Q : α → Prop}

theorem Agr.read [h : Reads m] (hv : Gives c m Q) (hk : ∀ x, Q x → Agr st c (k x) P) :
    Agr st c (m >>= k) P := by
  intro S y S' fr rest hc hc' hl hr
  obtain ⟨x, S1, h1, h2⟩ := bind_inv hr
  have he := h.spec S
  rw [h1] at he
  dsimp only at he
  rw [he] at h2
  exact hk x (hv S x _ hc h1) S y S' fr rest hc hc' hl h2

theorem Agr.skip [h : Reads m] (hk : ∀ x, Agr st c (k x) P) : Agr st c (m >>= k) P :=
  Agr.read (Q := fun _ => True) (fun _ _ _ _ _ => trivial) fun x _ => hk x

theorem Agr.stepv {a b : Nat} [h : Eff m a b] (hv : Gives c m Q)
    (hk : ∀ x, Q x → Agr st c (k x) fun a' b' => P (a + (a' - b)) (b - a' + b')) :
    Agr st c (m >>= k) P := by
  intro S y S' fr rest hc hc' hl hr
  obtain ⟨x, S1, h1, h2⟩ := bind_inv hr
  obtain ⟨c1, m1⟩ := h.spec S x S1 fr rest (hc.trans hc') hl h1
  have hlen := m1.length
  obtain ⟨a', b', S2, hp, c2, m2, hf⟩ :=
    hk x (hv S x _ hc h1) S1 y S' fr rest (c1.trans hc) hc' (by omega) h2
  have : S1.operands.length - fr.height = S.operands.length - fr.height - a + b := by omega
  rw [this] at m2
  exact ⟨_, _, S2, hp, c2.trans c1, m1.trans m2, hf⟩

theorem Agr.step {a b : Nat} [Eff m a b]
    (hk : ∀ x, Agr st c (k x) fun a' b' => P (a + (a' - b)) (b - a' + b')) :
    Agr st c (m >>= k) P :=
  Agr.stepv (Q := fun _ => True) (fun _ _ _ _ _ => trivial) fun x _ => hk x

theorem Agr.last {a b : Nat} [h : Eff m a b] (hp : P a b) : Agr false c m P := by
  intro S y S' fr rest hc hc' hl hr
  obtain ⟨c1, m1⟩ := h.spec S y S' fr rest (hc.trans hc') hl hr
  exact ⟨a, b, S', hp, c1, m1, rfl⟩

theorem Agr.halt (hp : P 0 0) : Agr true c unreachable P := by
  intro S y S' fr rest hc hc' hl hr
  exact ⟨0, 0, S, hp, rfl, .refl, hr⟩

theorem Agr.fail {e : Fail} : Agr st c (Op.fail e : M α) P := by
  intro S y S' fr rest hc hc' hl hr
  cases hr

theorem Gives.bind {m : M α} {k : α → M β} {Q : β → Prop} {Q' : α → Prop} (h : Gives c m Q')
    [hm : Reads m] (hk : ∀ x, Q' x → Gives c (k x) Q) : Gives c (m >>= k) Q := by
  intro S y S' hc hr
  obtain ⟨x, S1, h1, h2⟩ := bind_inv hr
  have he := hm.spec S
  rw [h1] at he
  dsimp only at he
  rw [he] at h2
  exact hk x (h S x _ hc h1) S y S' hc h2

theorem Gives.after {a b : Nat} {m : M α} {k : α → M β} {Q : β → Prop} [he : Eff m a b]
    (hk : ∀ c x, Gives c (k x) Q) : Gives c (m >>= k) Q := by
  intro S y S' hc hr
  obtain ⟨x, S1, h1, h2⟩ := bind_inv hr
  exact hk S1.control x S1 y S' rfl h2

theorem Gives.pure {x : α} (h : Q x) : Gives c (Pure.pure x : M α) Q := by
  intro S y S' hc hr
  cases hr
  exact h

theorem Gives.fail {e : Fail} : Gives c (Op.fail e : M α) Q := by
  intro S y S' hc hr
  cases hr

theorem Gives.any : Gives c m fun _ => True := fun _ _ _ _ _ => trivial

theorem Gives.orError (o : Option α) : Gives c (orError o) fun x => o = some x := by
  cases o with
  | none => exact .fail
  | some x => exact .pure rfl

theorem Gives.orPanic (o : Option α) : Gives c (orPanic o) fun x => o = some x := by
  cases o with
  | none => exact .fail
  | some x => exact .pure rfl

theorem Gives.require (b : Bool) : Gives c (require b) fun _ => b = true := by
  cases b with
  | false => exact .fail
  | true => exact .pure rfl

end

/-! ### Types -/

section
variable (E : Env) (c : List Frame)

theorem gives_funcTypeAt (i : BitVec 32) : Gives c (funcTypeAt E i) fun t =>
    typeArity E i = .ok (t.params.length, t.results.length) := by
  unfold funcTypeAt
  refine .bind (Gives.orError _) fun sub hs => ?_
  split
  · next ps rs h =>
    refine .bind .any fun _ _ => .pure ?_
    show (Ar.ofOption (E.R.subTypeAt i) >>= _) = _
    rw [hs]
    show subTypeArity E sub = _
    unfold subTypeArity
    rw [h]
  · exact .fail

theorem gives_structTypeAt (i : BitVec 32) : Gives c (structTypeAt E i) fun fs =>
    typeArity E i = .ok (fs.length, fs.length) := by
  unfold structTypeAt
  refine .bind (Gives.orError _) fun sub hs => ?_
  split
  · next fs h =>
    refine .bind .any fun _ _ => .pure ?_
    show (Ar.ofOption (E.R.subTypeAt i) >>= _) = _
    rw [hs]
    show subTypeArity E sub = _
    unfold subTypeArity
    rw [h]
  · exact .fail

theorem gives_contTypeAt (i : BitVec 32) : Gives c (contTypeAt E i) fun ct =>
    ∃ sub, E.R.subTypeAt i = some sub ∧ sub.comp = .cont ct := by
  unfold contTypeAt
  refine .bind (Gives.orError _) fun sub hs => ?_
  split
  · next ct h => exact .bind .any fun _ _ => .pure ⟨sub, hs, h⟩
  · exact .fail

theorem gives_contAtId (i : Nat) : Gives c (contAtId E i) fun ct =>
    ∃ sub, E.R.subTypeAtId i = some sub ∧ sub.comp = .cont ct := by
  unfold contAtId
  refine .bind (Gives.orPanic _) fun sub hs => ?_
  split
  · next ct h => exact .pure ⟨sub, hs, h⟩
  · exact .fail

theorem gives_funcTypeOfContType (ct : Nat) : Gives c (funcTypeOfContType E ct) fun f =>
    arFuncTypeOfContType E ct = .ok f := by
  unfold funcTypeOfContType
  refine .bind (Gives.orPanic _) fun sub hs => ?_
  split
  · next ps rs h =>
    refine .pure ?_
    unfold arFuncTypeOfContType
    rw [hs]
    dsimp only
    rw [h]
  · exact .fail

variable {E} in
theorem contArity {sub : SubT Nat} {ct : Nat} {f : FuncTy} (h : sub.comp = .cont ct)
    (hf : arFuncTypeOfContType E ct = .ok f) :
    subTypeArity E sub = .ok (f.params.length, f.results.length) := by
  unfold subTypeArity
  rw [h]
  dsimp only
  rw [hf]
  rfl

variable {E} in
theorem contTypeArity {i : BitVec 32} {ct : Nat} {f : FuncTy}
    (h : ∃ sub, E.R.subTypeAt i = some sub ∧ sub.comp = .cont ct)
    (hf : arFuncTypeOfContType E ct = .ok f) :
    typeArity E i = .ok (f.params.length, f.results.length) := by
  obtain ⟨sub, h1, h2⟩ := h
  show (Ar.ofOption (E.R.subTypeAt i) >>= _) = _
  rw [h1]
  exact contArity h2 hf

theorem gives_tagAt (i : BitVec 32) : Gives c (tagAt E i) fun t =>
    tagTypeArity E i = .ok (t.params.length, t.results.length) := by
  intro S t S' hc h
  have := Gives.orError (c := c) (E.R.tagAt i) S t S' hc h
  show (Ar.ofOption (E.R.tagAt i) >>= _) = _
  rw [this]
  rfl

theorem gives_exceptionTagAt (i : BitVec 32) : Gives c (exceptionTagAt E i) fun t =>
    tagTypeArity E i = .ok (t.params.length, t.results.length) := by
  unfold exceptionTagAt
  exact .bind (gives_tagAt E c i) fun t ht => .bind .any fun _ _ => .pure ht

theorem gives_params (bt : BT) : Gives c (params E bt) fun ps =>
    ∃ rs, frameArity E bt = .ok (ps.length, rs) := by
  cases bt with
  | empty => exact .pure ⟨0, rfl⟩
  | type t => exact .pure ⟨1, rfl⟩
  | func i => exact .bind (gives_funcTypeAt E c i) fun t ht => .pure ⟨_, ht⟩

theorem gives_results (bt : BT) : Gives c (results E bt) fun rs =>
    ∃ ps, frameArity E bt = .ok (ps, rs.length) := by
  cases bt with
  | empty => exact .pure ⟨0, rfl⟩
  | type t => exact .pure ⟨0, rfl⟩
  | func i => exact .bind (gives_funcTypeAt E c i) fun t ht => .pure ⟨_, ht⟩

theorem gives_checkBlockType (ty : BlockType) : Gives c (checkBlockType E ty) fun bt =>
    blockTypeArity E ty = frameArity E bt := by
  cases ty with
  | empty => exact .pure rfl
  | type t =>
    show Gives c (checkValueType E t >>= fun x => pure (BT.type x)) _
    exact .bind .any fun _ _ => .pure rfl
  | funcType i =>
    exact .bind .any fun _ _ => .bind .any fun _ _ => .pure rfl

theorem labels_of_ne (ty : BT) {k : FrameKind} (h : k ≠ .loop) :
    labelTypes E ty k = results E ty ∧ ∀ p r, labelCount k p r = r := by
  cases k <;> first
    | exact absurd rfl h
    | exact ⟨rfl, fun _ _ => rfl⟩

theorem gives_jumpTypes (d : BitVec 32) : Gives c (jumpTypes E d) fun ts =>
    arBr E c d = .ok (ts.length, 0) := by
  intro S ts S' hc h
  obtain ⟨⟨ty, kind⟩, S1, h1, h2⟩ := bind_inv (m := jump d)
    (k := fun p => labelTypes E p.1 p.2) h
  have hj : ∃ fr, labelBlock c d.toNat = .ok fr ∧ fr.blockType = ty ∧ fr.kind = kind := by
    unfold jump at h1
    obtain ⟨S0, S2, e1, e2⟩ := bind_inv h1
    cases e1
    rw [hc] at e2
    unfold labelBlock
    split at e2
    · cases e2
    · next hne =>
      rw [if_neg hne]
      obtain ⟨fr, S3, e3, e4⟩ := bind_inv e2
      rw [Gives.orError (c := c) _ S fr S3 hc e3]
      cases e4
      exact ⟨fr, rfl, rfl, rfl⟩
  obtain ⟨fr, hb, rfl, rfl⟩ := hj
  unfold arBr
  rw [hb]
  show (frameArity E fr.blockType >>= _) = _
  by_cases hk : fr.kind = .loop
  · rw [hk] at h2 ⊢
    obtain ⟨rs, hrs⟩ := gives_params E S1.control _ S1 ts S' rfl h2
    rw [hrs]
    rfl
  · obtain ⟨h3, h4⟩ := labels_of_ne E fr.blockType hk
    rw [h3] at h2
    obtain ⟨ps, hps⟩ := gives_results E S1.control _ S1 ts S' rfl h2
    rw [hps]
    show (Except.ok (labelCount fr.kind _ _, 0) : Ar (Nat × Nat)) = _
    rw [h4]

theorem gives_typeOfFunction (i : BitVec 32) : Gives c (typeOfFunction E i) fun t =>
    arCall E i = .ok (t.params.length, t.results.length) := by
  unfold typeOfFunction
  refine .bind (Gives.orError _) fun x hx => ?_
  intro S t S' hc h
  show (Ar.ofOption (E.R.typeIndexOfFunction i) >>= _) = _
  rw [hx]
  exact gives_funcTypeAt E c x S t S' hc h

theorem gives_functionResults : Gives c (functionResults E) fun rs =>
    arReturn E c = .ok (rs.length, 0) := by
  intro S rs S' hc h
  unfold functionResults at h
  obtain ⟨S0, S2, e1, e2⟩ := bind_inv h
  cases e1
  rw [hc] at e2
  obtain ⟨fr, S3, e3, e4⟩ := bind_inv e2
  have hl := Gives.orPanic (c := c) _ S fr S3 hc e3
  obtain ⟨ps, hps⟩ := gives_results E S3.control _ S3 rs S' rfl e4
  have hne : c ≠ [] := by
    rintro rfl
    cases hl
  unfold arReturn labelBlock
  rw [if_neg (by simpa using hne), if_neg (by simpa using hne)]
  rw [List.getLast?_eq_getElem?] at hl
  rw [hl]
  show (frameArity E fr.blockType >>= _) = _
  rw [hps]
  rfl

theorem gives_checkResumeTable (t : List Handle) (i : BitVec 32) :
    Gives c (checkResumeTable E t i) fun f =>
      typeArity E i = .ok (f.params.length, f.results.length) := by
  unfold checkResumeTable
  exact .bind (gives_contTypeAt E c i) fun ct hct =>
    .bind (gives_funcTypeOfContType E c ct) fun f hf =>
      .bind .any fun _ _ => .pure (contTypeArity hct hf)

theorem gives_checkCallRefTy (i : BitVec 32) : Gives c (checkCallRefTy E i) fun t =>
    typeArity E i = .ok (t.params.length, t.results.length) := by
  unfold checkCallRefTy
  exact .bind .any fun _ _ => .bind .any fun _ _ => .after fun c _ => gives_funcTypeAt E c i

theorem gives_checkCallIndirectTy (i j : BitVec 32) : Gives c (checkCallIndirectTy E i j) fun t =>
    typeArity E i = .ok (t.params.length, t.results.length) := by
  unfold checkCallIndirectTy
  refine .bind .any fun _ _ => .bind .any fun _ _ => ?_
  first
    | exact .after fun c _ => gives_funcTypeAt E c i
    | exact .bind (gives_funcTypeAt E c i) fun t ht => .after fun c _ => .pure ht

end

end Verif.Op.AritySpec
