import Verif.Op.TypingSound
/-! What the validator accepts has a type: blocks. -/
namespace Verif.Op.View
open Verif.Op.Typing
open Verif.Types (AbsHeap HeapType UnpackedIndex RefType ValType)
open Verif.Instr (FrameKind BlockType MemArg Catch Handle BrTable Operator)
open Verif.Instr.Spec (Body tokOp Tok)
open Verif.TypeList.Spec (Field Storage Comp SubT Decls HeapSub RefSub ValSub StorageSub)

variable {α β : Type} {E : Env} {F : Fn} {B B' B2 : Base} {C : Ctx} {u : Bool}

/-- The sequence inside a block. -/
theorem body_sound {kind : FrameKind} {bt : BT} {ps rs qs : List V} {b : List Operator}
    {c1 : List MT} {I : List (BitVec 32)} {ss : InitSpec.Scopes} {S : St}
    (hb : Sound E (F.label (labelTys kind ps rs) (catchKind kind)) b)
    (hs : Sit E F B) (hbt : BTIs F bt ps rs)
    (hok : (st (B.enter c1 kind bt) (pushed qs [])).Ok F.params F.locals (I :: ss))
    (hr : runOps E b (st (B.enter c1 kind bt) (pushed qs [])) = (.ok (), S)) :
    ∃ B2 c2 I', S = st B2 c2 ∧ Same (B.enter c1 kind bt) B2 ∧
      S.Ok F.params F.locals (I' :: ss) ∧
      ∀ us, Pops F.C B2.fr.unreachable us.reverse c2 [] →
        Seq (F.label (labelTys kind ps rs) (catchKind kind)) I b (vals qs) (vals us) I' := by
  obtain ⟨B2, c2, I', rfl, h1, h2, h3⟩ := hb _ _ I ss S (hs.enter hbt) hok hr
  refine ⟨B2, c2, I', rfl, h1, h2, fun us hp => ?_⟩
  obtain ⟨vs, h4, h5⟩ := pops_back hp .nil
  obtain ⟨ts1, h6, h7⟩ := h3 _ h5
  obtain ⟨fs, rfl, h8⟩ := h6.pushed_inv
  cases conc_false_nil h8
  exact .sub VTs.Sub.rfl' h4 h7

/-- After a block. -/
theorem finish_block {I I' : List (BitVec 32)} {os : List Operator} {ps rs : List V} {c c1 : List MT}
    (hp : Pops F.C u ps.reverse c c1) (h : Seq F I os (vals ps) (vals rs) I') :
    ∀ ts2, Conc u (pushed rs c1) ts2 → ∃ ts1, Conc u c ts1 ∧ Seq F I os ts1 ts2 I' := by
  intro ts2 h2
  obtain ⟨fs, rfl, h3⟩ := h2.pushed_inv
  obtain ⟨vs, h4, h5⟩ := pops_back hp h3
  exact ⟨fs ++ vs, h5, .frame fs (seq_sub_in h h4)⟩

theorem finish_if {I I' : List (BitVec 32)} {os : List Operator} {ps rs : List V}
    {c c0 c1 : List MT} (hp0 : Pop F.C u .i32 c c0) (hp : Pops F.C u ps.reverse c0 c1)
    (h : Seq F I os (vals ps ++ [.val .i32]) (vals rs) I') :
    ∀ ts2, Conc u (pushed rs c1) ts2 → ∃ ts1, Conc u c ts1 ∧ Seq F I os ts1 ts2 I' := by
  intro ts2 h2
  obtain ⟨fs, rfl, h3⟩ := h2.pushed_inv
  obtain ⟨vs, h4, h5⟩ := pops_back hp h3
  obtain ⟨v, h6, h7⟩ := pop_back hp0 h5
  exact ⟨fs ++ (vs ++ [v]), by simpa using h7,
    .frame fs (seq_sub_in h (f2_append h4 (.cons h6 .nil)))⟩

/-- One operator of the block structure. -/
theorem one_op {o : Operator} {os : List Operator} {S S' : St} {L : List V} {n : Nat}
    {s : InitSpec.Scopes} {x : Unit} (hE : E.f = fullFeatures) (hok : S.Ok n L s)
    (h : runOps E (o :: os) S = (.ok x, S')) : ∃ S1, visit E o S = (.ok (), S1) ∧
      S1.Ok n L (s.step o) ∧ runOps E os S1 = (.ok x, S') := by
  obtain ⟨S1, h1, h2⟩ := runOps_cons h
  exact ⟨S1, (op_full_ok hE h1).2, hok.op h1, h2⟩

/-- `block` and `loop`. -/
theorem Sound.block {o : Instr.Blk} {kind : FrameKind} (ho : (o, kind) = (.block, .block) ∨
    (o, kind) = (.loop, .loop)) {ty : BlockType} {b : List Operator}
    (hb : ∀ ps rs, F.Block ty ps rs → Sound E (F.label (labelTys kind ps rs) (catchKind kind)) b) :
    Sound E F (.block o ty :: (b ++ [.end_])) := by
  intro B c I ss S' hs hok hr
  obtain ⟨S1, h1, hok1, hr⟩ := one_op hs.full hok hr
  have h1 : Run B (visitBlock E kind ty) c () S1 := by
    rcases ho with ho | ho <;> cases ho <;> exact h1
  obtain ⟨bt, ps, rs, c1, hF, hbt, hp, rfl⟩ := run_block hs h1
  obtain ⟨S2, h2, hr⟩ := runOps_append hr
  obtain ⟨B2, c2, I', rfl, hsame, hok2, hcl⟩ := body_sound (hb ps rs hF) hs hbt hok1 h2
  obtain ⟨S3, h3, hok3, hr⟩ := one_op hs.full hok2 hr
  cases runOps_nil hr
  obtain ⟨hP, -, rem, l, -, rfl⟩ := (run_end hs hsame hbt).1 h3
  refine ⟨_, _, I, rfl, Same.withInits l, hok3, finish_block hp ?_⟩
  rcases ho with ho | ho <;> cases ho
  · exact .block hF (hcl rs hP)
  · exact .loop hF (hcl rs hP)

theorem Sound.tryTable {ty : BlockType} {cs : List Catch} {b : List Operator}
    (hb : ∀ ps rs, F.Block ty ps rs → Sound E (F.label rs) b) :
    Sound E F (.tryTable ty cs :: (b ++ [.end_])) := by
  intro B c I ss S' hs hok hr
  obtain ⟨S1, h1, hok1, hr⟩ := one_op hs.full hok hr
  obtain ⟨bt, ps, rs, c1, hF, hbt, hp, hc, rfl⟩ := run_tryTable hs h1
  obtain ⟨S2, h2, hr⟩ := runOps_append hr
  obtain ⟨B2, c2, I', rfl, hsame, hok2, hcl⟩ :=
    body_sound (kind := .tryTable) (hb ps rs hF) hs hbt hok1 h2
  obtain ⟨S3, h3, hok3, hr⟩ := one_op hs.full hok2 hr
  cases runOps_nil hr
  obtain ⟨hP, -, rem, l, -, rfl⟩ := (run_end hs hsame hbt).1 h3
  exact ⟨_, _, I, rfl, Same.withInits l, hok3, finish_block hp (.tryTable hF hc (hcl rs hP))⟩

theorem Sound.if_ {ty : BlockType} {b : List Operator}
    (hb : ∀ ps rs, F.Block ty ps rs → Sound E (F.label rs) b) :
    Sound E F (.block .if_ ty :: (b ++ [.end_])) := by
  intro B c I ss S' hs hok hr
  obtain ⟨S1, h1, hok1, hr⟩ := one_op hs.full hok hr
  obtain ⟨bt, ps, rs, c0, c1, hF, hbt, hp0, hp, rfl⟩ := run_if hs h1
  obtain ⟨S2, h2, hr⟩ := runOps_append hr
  obtain ⟨B2, c2, I', rfl, hsame, hok2, hcl⟩ :=
    body_sound (kind := .if_) (hb ps rs hF) hs hbt hok1 h2
  obtain ⟨S3, h3, hok3, hr⟩ := one_op hs.full hok2 hr
  cases runOps_nil hr
  obtain ⟨hP, hif, rem, l, -, rfl⟩ := (run_end hs hsame hbt).1 h3
  exact ⟨_, _, I, rfl, Same.withInits l, hok3, finish_if hp0 hp (.if_ hF (hcl rs hP) (hif rfl))⟩

theorem Sound.ifElse {ty : BlockType} {b e : List Operator}
    (hb : ∀ ps rs, F.Block ty ps rs → Sound E (F.label rs) b)
    (he : ∀ ps rs, F.Block ty ps rs → Sound E (F.label rs) e) :
    Sound E F (.block .if_ ty :: (b ++ .else_ :: (e ++ [.end_]))) := by
  intro B c I ss S' hs hok hr
  obtain ⟨S1, h1, hok1, hr⟩ := one_op hs.full hok hr
  obtain ⟨bt, ps, rs, c0, c1, hF, hbt, hp0, hp, rfl⟩ := run_if hs h1
  obtain ⟨S2, h2, hr⟩ := runOps_append hr
  obtain ⟨B2, c2, I', rfl, hsame, hok2, hcl⟩ :=
    body_sound (kind := .if_) (hb ps rs hF) hs hbt hok1 h2
  obtain ⟨S3, h3, hok3, hr⟩ := one_op hs.full hok2 hr
  obtain ⟨hP, rem, l, -, rfl⟩ := (run_else hs hsame hbt).1 h3
  obtain ⟨S4, h4, hr⟩ := runOps_append hr
  obtain ⟨B4, c4, I'', rfl, hsame', hok4, hcl'⟩ :=
    body_sound (kind := .else_) (he ps rs hF) (hs.withInits l) hbt hok3 h4
  obtain ⟨S5, h5, hok5, hr⟩ := one_op hs.full hok4 hr
  cases runOps_nil hr
  obtain ⟨hP', -, rem', l', -, rfl⟩ := (run_end (hs.withInits l) hsame' hbt).1 h5
  exact ⟨_, _, I, rfl, Same.withInits l', hok5,
    finish_if hp0 hp (.ifElse hF (hcl rs hP) (hcl' rs hP'))⟩

theorem Sound.delegate {ty : BlockType} {b : List Operator} {d : BitVec 32}
    (hb : ∀ ps rs, F.Block ty ps rs → Sound E (F.label rs) b) :
    Sound E F (.block .try_ ty :: (b ++ [.delegate d])) := by
  intro B c I ss S' hs hok hr
  obtain ⟨S1, h1, hok1, hr⟩ := one_op hs.full hok hr
  obtain ⟨bt, ps, rs, c1, hF, hbt, hp, rfl⟩ := run_block (kind := .legacyTry) hs h1
  obtain ⟨S2, h2, hr⟩ := runOps_append hr
  obtain ⟨B2, c2, I', rfl, hsame, hok2, hcl⟩ :=
    body_sound (kind := .legacyTry) (hb ps rs hF) hs hbt hok1 h2
  obtain ⟨S3, h3, hok3, hr⟩ := one_op hs.full hok2 hr
  cases runOps_nil hr
  obtain ⟨hP, rem, l, lab, -, hlab, rfl⟩ := (run_delegate hs hsame hbt).1 h3
  exact ⟨_, _, I, rfl, Same.withInits l, hok3, finish_block hp (.delegate hF (hcl rs hP) hlab)⟩

/-! ### Legacy `try` -/

/-- What follows the body of a legacy `try`: it can only follow operands of the right types, and its
clauses have the types that they should have. -/
def SoundC (E : Env) (F : Fn) (rs : List V) (os : List Operator) : Prop :=
  ∀ (B : Base) (c : List MT) (kind : FrameKind) (bt : BT) (ps : List V) (B2 : Base) (c2 : List MT)
    (I I2 : List (BitVec 32)) (ss : InitSpec.Scopes) (S' : St),
    Sit E F B → BTIs F bt ps rs → Same (B.enter c kind bt) B2 →
    (st B2 c2).Ok F.params F.locals (I2 :: I :: ss) →
    runOps E os (st B2 c2) = (.ok (), S') →
    Pops F.C B2.fr.unreachable rs.reverse c2 [] ∧
    ∃ (l : LocalInits) (cs : List Clause) (all : Option (List Operator × List (BitVec 32))),
      os = cs.flatMap Clause.ops ++ (catchAllOps all ++ [.end_]) ∧
      (∀ c ∈ cs, F.C.Exn c.tag c.types) ∧
      (∀ c ∈ cs, Seq (F.label rs true) I c.body (vals c.types) (vals rs) c.set) ∧
      (∀ b ∈ all, Seq (F.label rs true) I b.1 [] (vals rs) b.2) ∧
      S' = st (B.withInits l) (pushed rs c) ∧ S'.Ok F.params F.locals (I :: ss)

theorem SoundC.end_ {rs : List V} : SoundC E F rs [.end_] := by
  intro B c kind bt ps B2 c2 I I2 ss S' hs hbt hsame hok hr
  obtain ⟨S3, h3, hok3, hr⟩ := one_op hs.full hok hr
  cases runOps_nil hr
  obtain ⟨hP, -, rem, l, -, rfl⟩ := (run_end hs hsame hbt).1 h3
  exact ⟨hP, l, [], none, rfl, by simp, by simp, by simp, rfl, hok3⟩

theorem SoundC.catchAll {rs : List V} {b : List Operator} (hb : Sound E (F.label rs true) b) :
    SoundC E F rs (.catchAll :: (b ++ [.end_])) := by
  intro B c kind bt ps B2 c2 I I2 ss S' hs hbt hsame hok hr
  obtain ⟨S3, h3, hok3, hr⟩ := one_op hs.full hok hr
  obtain ⟨hP, rem, l, -, rfl⟩ := (run_catchAll hs hsame hbt).1 h3
  obtain ⟨S4, h4, hr⟩ := runOps_append hr
  obtain ⟨B4, c4, I', rfl, hsame', hok4, hcl⟩ :=
    body_sound (kind := .legacyCatchAll) (ps := ps) (rs := rs) (qs := []) hb (hs.withInits l) hbt
      hok3 h4
  obtain ⟨S5, h5, hok5, hr⟩ := one_op hs.full hok4 hr
  cases runOps_nil hr
  obtain ⟨hP', -, rem', l', -, rfl⟩ := (run_end (hs.withInits l) hsame' hbt).1 h5
  refine ⟨hP, l', [], some (b, I'), rfl, by simp, by simp, ?_, rfl, hok5⟩
  intro b' hb'
  cases hb'
  exact hcl rs hP'

theorem SoundC.catch_ {rs : List V} {tag : BitVec 32} {b os : List Operator}
    (hb : Sound E (F.label rs true) b) (hos : SoundC E F rs os) :
    SoundC E F rs (.catch_ tag :: (b ++ os)) := by
  intro B c kind bt ps B2 c2 I I2 ss S' hs hbt hsame hok hr
  obtain ⟨S3, h3, hok3, hr⟩ := one_op hs.full hok hr
  obtain ⟨hP, rem, l, es, -, hes, rfl⟩ := (run_catch hs hsame hbt).1 h3
  obtain ⟨S4, h4, hr⟩ := runOps_append hr
  obtain ⟨B4, c4, I', rfl, hsame', hok4, hcl⟩ :=
    body_sound (kind := .legacyCatch) (ps := ps) (rs := rs) hb (hs.withInits l) hbt hok3 h4
  obtain ⟨hP', l', cs, all, rfl, h5, h6, h7, h8, h9⟩ :=
    hos _ c .legacyCatch bt ps B4 c4 I I' ss S' (hs.withInits l) hbt hsame' hok4 hr
  refine ⟨hP, l', ⟨tag, es, b, I'⟩ :: cs, all, ?_, ?_, ?_, h7, h8, h9⟩
  · simp [Clause.ops]
  · intro x hx
    rcases List.mem_cons.1 hx with rfl | hx
    · exact hes
    · exact h5 x hx
  · intro x hx
    rcases List.mem_cons.1 hx with rfl | hx
    · exact hcl rs hP'
    · exact h6 x hx

theorem Sound.try_ {ty : BlockType} {b os : List Operator}
    (hb : ∀ ps rs, F.Block ty ps rs → Sound E (F.label rs) b)
    (hos : ∀ ps rs, F.Block ty ps rs → SoundC E F rs os) :
    Sound E F (.block .try_ ty :: (b ++ os)) := by
  intro B c I ss S' hs hok hr
  obtain ⟨S1, h1, hok1, hr⟩ := one_op hs.full hok hr
  obtain ⟨bt, ps, rs, c1, hF, hbt, hp, rfl⟩ := run_block (kind := .legacyTry) hs h1
  obtain ⟨S2, h2, hr⟩ := runOps_append hr
  obtain ⟨B2, c2, I', rfl, hsame, hok2, hcl⟩ :=
    body_sound (kind := .legacyTry) (hb ps rs hF) hs hbt hok1 h2
  obtain ⟨hP, l, cs, all, rfl, h5, h6, h7, rfl, h9⟩ :=
    hos ps rs hF B c1 .legacyTry bt ps B2 c2 I I' ss S' hs hbt hsame hok2 hr
  exact ⟨_, _, I, rfl, Same.withInits l, h9, finish_block hp (.try_ hF (hcl rs hP) h5 h6 h7)⟩

/-! ### All sequences -/

theorem tok_opens {o : Operator} (h : tokOp o = .opens) : (∃ ty, o = .block .block ty) ∨
    (∃ ty, o = .block .loop ty) ∨ ∃ ty cs, o = .tryTable ty cs := by
  cases o with
  | block o ty =>
    cases o with
    | block => exact .inl ⟨ty, rfl⟩
    | loop => exact .inr (.inl ⟨ty, rfl⟩)
    | if_ | try_ => cases h
  | tryTable ty cs => exact .inr (.inr ⟨ty, cs, rfl⟩)
  | _ => cases h

theorem tok_if {o : Operator} (h : tokOp o = .opensIf) : ∃ ty, o = .block .if_ ty := by
  cases o with
  | block o ty =>
    cases o with
    | if_ => exact ⟨ty, rfl⟩
    | block | loop | try_ => cases h
  | _ => cases h

theorem tok_try {o : Operator} (h : tokOp o = .opensTry) : ∃ ty, o = .block .try_ ty := by
  cases o with
  | block o ty =>
    cases o with
    | try_ => exact ⟨ty, rfl⟩
    | block | loop | if_ => cases h
  | _ => cases h

theorem tok_else {o : Operator} (h : tokOp o = .else_) : o = .else_ := by
  cases o with
  | block o ty => cases o <;> cases h
  | else_ => rfl
  | _ => cases h

theorem tok_end {o : Operator} (h : tokOp o = .end_) : o = .end_ := by
  cases o with
  | block o ty => cases o <;> cases h
  | end_ => rfl
  | _ => cases h

theorem tok_catchAll {o : Operator} (h : tokOp o = .catchAll) : o = .catchAll := by
  cases o with
  | block o ty => cases o <;> cases h
  | catchAll => rfl
  | _ => cases h

theorem tok_catch {o : Operator} (h : tokOp o = .catch_) : ∃ t, o = .catch_ t := by
  cases o with
  | block o ty => cases o <;> cases h
  | catch_ t => exact ⟨t, rfl⟩
  | _ => cases h

theorem tok_delegate {o : Operator} (h : tokOp o = .delegate) : ∃ t, o = .delegate t := by
  cases o with
  | block o ty => cases o <;> cases h
  | delegate t => exact ⟨t, rfl⟩
  | _ => cases h

theorem labelTys_mem {kind : FrameKind} {ps rs : List V} {t : V} (h : t ∈ labelTys kind ps rs) :
    t ∈ ps ++ rs := by
  unfold labelTys at h
  split at h <;> simp [h]

/-- Inside a block that is part of the sequence. -/
theorem Safe.enter {os b : List Operator} (h : Safe F os) {o : Operator} (ho : o ∈ os)
    {ty : BlockType} (hty : ∀ t, ty = .type t → inlineTy o = some t) {ps rs ts : List V}
    (hF : F.Block ty ps rs) (hts : ∀ t ∈ ts, t ∈ ps ++ rs) {x : Bool} (hb : ∀ o ∈ b, o ∈ os) :
    Safe (F.label ts x) b :=
  (h.label fun hu t ht => unshared_block hu ho hty hF t (hts t ht)).mono hb

theorem UnsharedTypes.mono {os os' : List Operator} (h : UnsharedTypes C os)
    (hs : ∀ o ∈ os', o ∈ os) : UnsharedTypes C os' :=
  ⟨h.1, fun o ho => h.2 o (hs o ho)⟩

theorem sound_body {k : Bool} {ts : List Tok} (h : Body k ts) : ∀ (F : Fn) (os : List Operator),
    os.map tokOp = ts → Safe F os → (∀ o ∈ os, Natural o) →
    (k = true → Sound E F os) ∧ (k = false → ∀ rs, Safe (F.label rs true) os → SoundC E F rs os) := by
  induction h with
  | nil =>
    intro F os hm _ _
    cases List.map_eq_nil_iff.1 hm
    exact ⟨fun _ => Sound.nil, nofun⟩
  | other _ ih =>
    intro F os hm hsafe hn
    obtain ⟨o, rest, rfl, ho, hm1⟩ := List.map_eq_cons_iff.1 hm
    refine ⟨fun _ => ?_, nofun⟩
    exact Sound.append (os := [o]) (Sound.other ho (hn o (by simp)) (hsafe.mono (by simp)))
      ((ih F rest hm1 (hsafe.mono (by simp +contextual)) fun o h => hn o (by simp [h])).1 rfl)
  | block _ _ ih1 ih2 =>
    intro F os hm hsafe hn
    obtain ⟨o, os, rfl, ho, hm1⟩ := List.map_eq_cons_iff.1 hm
    obtain ⟨b, os, rfl, hmb, hm2⟩ := List.map_eq_append_iff.1 hm1
    obtain ⟨o', rest, rfl, ho', hm3⟩ := List.map_eq_cons_iff.1 hm2
    cases tok_end ho'
    refine ⟨fun _ => ?_, nofun⟩
    have hrest := (ih2 F rest hm3 (hsafe.mono (by simp +contextual)) fun o h => hn o (by simp [h])).1 rfl
    rw [show o :: (b ++ Operator.end_ :: rest) = (o :: (b ++ [.end_])) ++ rest by simp]
    refine Sound.append ?_ hrest
    have hbody : ∀ {ty : BlockType}, (∀ t, ty = .type t → inlineTy o = some t) →
        ∀ {kind : FrameKind} {x : Bool} {ps rs : List V}, F.Block ty ps rs →
          Sound E (F.label (labelTys kind ps rs) x) b := fun {ty} hty {kind x ps rs} hF =>
      (ih1 _ b hmb (hsafe.enter (o := o) (by simp) hty hF (fun t => labelTys_mem)
        (by simp +contextual)) fun o h => hn o (by simp [h])).1 rfl
    rcases tok_opens ho with ⟨ty, rfl⟩ | ⟨ty, rfl⟩ | ⟨ty, cs, rfl⟩
    · exact Sound.block (.inl rfl) fun ps rs hF => hbody (fun t ht => by rw [ht]; rfl) hF
    · exact Sound.block (.inr rfl) fun ps rs hF => hbody (fun t ht => by rw [ht]; rfl) hF
    · exact Sound.tryTable fun ps rs hF =>
        hbody (kind := .tryTable) (fun t ht => by rw [ht]; rfl) hF
  | if_ _ _ ih1 ih2 =>
    intro F os hm hsafe hn
    obtain ⟨o, os, rfl, ho, hm1⟩ := List.map_eq_cons_iff.1 hm
    obtain ⟨b, os, rfl, hmb, hm2⟩ := List.map_eq_append_iff.1 hm1
    obtain ⟨o', rest, rfl, ho', hm3⟩ := List.map_eq_cons_iff.1 hm2
    cases tok_end ho'
    refine ⟨fun _ => ?_, nofun⟩
    have hrest := (ih2 F rest hm3 (hsafe.mono (by simp +contextual)) fun o h => hn o (by simp [h])).1 rfl
    rw [show o :: (b ++ Operator.end_ :: rest) = (o :: (b ++ [.end_])) ++ rest by simp]
    refine Sound.append ?_ hrest
    obtain ⟨ty, rfl⟩ := tok_if ho
    exact Sound.if_ fun ps rs hF => (ih1 _ b hmb (hsafe.enter (o := .block .if_ ty) (by simp)
      (fun t ht => by rw [ht]; rfl) hF (by simp +contextual) (by simp +contextual))
      fun o h => hn o (by simp [h])).1 rfl
  | ifElse _ _ _ ih1 ih2 ih3 =>
    intro F os hm hsafe hn
    obtain ⟨o, os, rfl, ho, hm1⟩ := List.map_eq_cons_iff.1 hm
    obtain ⟨b, os, rfl, hmb, hm2⟩ := List.map_eq_append_iff.1 hm1
    obtain ⟨o', os, rfl, ho', hm3⟩ := List.map_eq_cons_iff.1 hm2
    obtain ⟨e, os, rfl, hme, hm4⟩ := List.map_eq_append_iff.1 hm3
    obtain ⟨o2, rest, rfl, ho2, hm5⟩ := List.map_eq_cons_iff.1 hm4
    cases tok_else ho'
    cases tok_end ho2
    refine ⟨fun _ => ?_, nofun⟩
    have hrest := (ih3 F rest hm5 (hsafe.mono (by simp +contextual)) fun o h => hn o (by simp [h])).1 rfl
    rw [show o :: (b ++ Operator.else_ :: (e ++ Operator.end_ :: rest)) =
      (o :: (b ++ .else_ :: (e ++ [.end_]))) ++ rest by simp]
    refine Sound.append ?_ hrest
    obtain ⟨ty, rfl⟩ := tok_if ho
    exact Sound.ifElse
      (fun ps rs hF => (ih1 _ b hmb (hsafe.enter (o := .block .if_ ty) (by simp)
        (fun t ht => by rw [ht]; rfl) hF (by simp +contextual) (by simp +contextual))
        fun o h => hn o (by simp [h])).1 rfl)
      (fun ps rs hF => (ih2 _ e hme (hsafe.enter (o := .block .if_ ty) (by simp)
        (fun t ht => by rw [ht]; rfl) hF (by simp +contextual) (by simp +contextual))
        fun o h => hn o (by simp [h])).1 rfl)
  | try_ _ _ _ ih1 ih2 ih3 =>
    intro F os hm hsafe hn
    obtain ⟨o, os, rfl, ho, hm1⟩ := List.map_eq_cons_iff.1 hm
    obtain ⟨b, os, rfl, hmb, hm2⟩ := List.map_eq_append_iff.1 hm1
    obtain ⟨cs, rest, rfl, hmc, hm3⟩ := List.map_eq_append_iff.1 hm2
    refine ⟨fun _ => ?_, nofun⟩
    have hrest := (ih3 F rest hm3 (hsafe.mono (by simp +contextual)) fun o h => hn o (by simp [h])).1 rfl
    rw [show o :: (b ++ (cs ++ rest)) = (o :: (b ++ cs)) ++ rest by simp]
    refine Sound.append ?_ hrest
    obtain ⟨ty, rfl⟩ := tok_try ho
    have hent : ∀ {b' : List Operator} {x : Bool} {ps rs : List V},
        (∀ o ∈ b', o ∈ Operator.block .try_ ty :: (b ++ (cs ++ rest))) → F.Block ty ps rs →
        Safe (F.label rs x) b' := fun hb' hF =>
      hsafe.enter (o := .block .try_ ty) (by simp) (fun t ht => by rw [ht]; rfl) hF
        (by simp +contextual) hb'
    exact Sound.try_
      (fun ps rs hF => (ih1 _ b hmb (hent (by simp +contextual) hF)
        fun o h => hn o (by simp [h])).1 rfl)
      (fun ps rs hF => (ih2 F cs hmc (hsafe.mono (by simp +contextual))
        fun o h => hn o (by simp [h])).2 rfl rs (hent (by simp +contextual) hF))
  | delegate _ _ ih1 ih2 =>
    intro F os hm hsafe hn
    obtain ⟨o, os, rfl, ho, hm1⟩ := List.map_eq_cons_iff.1 hm
    obtain ⟨b, os, rfl, hmb, hm2⟩ := List.map_eq_append_iff.1 hm1
    obtain ⟨o', rest, rfl, ho', hm3⟩ := List.map_eq_cons_iff.1 hm2
    obtain ⟨d, rfl⟩ := tok_delegate ho'
    refine ⟨fun _ => ?_, nofun⟩
    have hrest := (ih2 F rest hm3 (hsafe.mono (by simp +contextual)) fun o h => hn o (by simp [h])).1 rfl
    rw [show o :: (b ++ Operator.delegate d :: rest) = (o :: (b ++ [.delegate d])) ++ rest by simp]
    refine Sound.append ?_ hrest
    obtain ⟨ty, rfl⟩ := tok_try ho
    exact Sound.delegate fun ps rs hF => (ih1 _ b hmb (hsafe.enter (o := .block .try_ ty) (by simp)
      (fun t ht => by rw [ht]; rfl) hF (by simp +contextual) (by simp +contextual))
      fun o h => hn o (by simp [h])).1 rfl
  | end_ =>
    intro F os hm _ _
    obtain ⟨o, os, rfl, ho, hm1⟩ := List.map_eq_cons_iff.1 hm
    cases List.map_eq_nil_iff.1 hm1
    cases tok_end ho
    exact ⟨nofun, fun _ rs _ => SoundC.end_⟩
  | catch_ _ _ ih1 ih2 =>
    intro F os hm hsafe hn
    obtain ⟨o, os, rfl, ho, hm1⟩ := List.map_eq_cons_iff.1 hm
    obtain ⟨b, cs, rfl, hmb, hm2⟩ := List.map_eq_append_iff.1 hm1
    obtain ⟨t, rfl⟩ := tok_catch ho
    refine ⟨nofun, fun _ rs hl => ?_⟩
    exact SoundC.catch_
      ((ih1 _ b hmb (hl.mono (by simp +contextual)) fun o h => hn o (by simp [h])).1 rfl)
      ((ih2 F cs hm2 (hsafe.mono (by simp +contextual)) fun o h => hn o (by simp [h])).2 rfl rs
        (hl.mono (by simp +contextual)))
  | catchAll _ ih1 =>
    intro F os hm hsafe hn
    obtain ⟨o, os, rfl, ho, hm1⟩ := List.map_eq_cons_iff.1 hm
    obtain ⟨b, os, rfl, hmb, hm2⟩ := List.map_eq_append_iff.1 hm1
    obtain ⟨o', rest, rfl, ho', hm3⟩ := List.map_eq_cons_iff.1 hm2
    cases List.map_eq_nil_iff.1 hm3
    cases tok_end ho'
    cases tok_catchAll ho
    refine ⟨nofun, fun _ rs hl => ?_⟩
    exact SoundC.catchAll
      ((ih1 _ b hmb (hl.mono (by simp +contextual)) fun o h => hn o (by simp [h])).1 rfl)

end Verif.Op.View
