import Verif.Op.Conc
/-! What the validator accepts has a type. -/
namespace Verif.Op.View
open Verif.Op.Typing
open Verif.Types (AbsHeap HeapType UnpackedIndex RefType ValType)
open Verif.Instr (FrameKind BlockType MemArg Catch Handle BrTable Operator)
open Verif.Instr.Spec (Body tokOp Tok)
open Verif.TypeList.Spec (Field Storage Comp SubT Decls HeapSub RefSub ValSub StorageSub)

variable {α β : Type} {E : Env} {F : Fn} {B B' B2 : Base} {C : Ctx} {u : Bool}

/-! ### Branch tables -/

/-- The type in the code of a block with at most one result. -/
def inlineTy : Operator → Option ValType
  | .block _ (.type t) | .tryTable (.type t) _ => some t
  | _ => none

/-- No function type, and no type in a block, has shared references. -/
def UnsharedTypes (C : Ctx) (os : List Operator) : Prop :=
  (∀ i x ps rs, C.type i = some x → x.comp = .func ps rs → ∀ t ∈ ps ++ rs, Unshared C t) ∧
  ∀ o ∈ os, ∀ t v, inlineTy o = some t → C.ValTy t v → Unshared C v

/-- No branch table, or no shared references where it could branch to. -/
def Safe (F : Fn) (os : List Operator) : Prop :=
  (∀ t, Operator.brTable t ∉ os) ∨
    (UnsharedTypes F.C os ∧ ∀ l ∈ F.labels, ∀ t ∈ l.types, Unshared F.C t)

theorem Safe.mono {os os' : List Operator} (h : Safe F os) (hs : ∀ o ∈ os', o ∈ os) :
    Safe F os' := by
  rcases h with h | ⟨⟨h1, h2⟩, h3⟩
  · exact .inl fun t ht => h t (hs _ ht)
  · exact .inr ⟨⟨h1, fun o ho => h2 o (hs _ ho)⟩, h3⟩

theorem Safe.label {os : List Operator} (h : Safe F os) {ts : List V} {x : Bool}
    (ht : UnsharedTypes F.C os → ∀ t ∈ ts, Unshared F.C t) : Safe (F.label ts x) os := by
  rcases h with h | ⟨h1, h3⟩
  · exact .inl h
  · refine .inr ⟨h1, fun l hl => ?_⟩
    rcases List.mem_cons.1 hl with rfl | hl
    · exact ht h1
    · exact h3 l hl

theorem unshared_block {os : List Operator} (h : UnsharedTypes F.C os) {o : Operator}
    (ho : o ∈ os) {bt : BlockType} (hbt : ∀ t, bt = .type t → inlineTy o = some t) {ps rs : List V}
    (hb : F.Block bt ps rs) : ∀ t ∈ ps ++ rs, Unshared F.C t := by
  cases bt with
  | empty => obtain ⟨rfl, rfl⟩ := hb; simp
  | type t =>
    obtain ⟨rfl, v, hv, rfl⟩ := hb
    intro t' ht'
    rw [List.nil_append, List.mem_singleton] at ht'
    subst ht'
    exact h.2 o ho t _ (hbt t rfl) hv
  | funcType i =>
    obtain ⟨x, h1, h2, h3⟩ := hb
    exact h.1 i x ps rs h1 h2

/-! ### Sequences -/

theorem runOps_append {os os' : List Operator} {S S' : St} {x : Unit}
    (h : runOps E (os ++ os') S = (.ok x, S')) :
    ∃ S1, runOps E os S = (.ok (), S1) ∧ runOps E os' S1 = (.ok x, S') := by
  induction os generalizing S with
  | nil => exact ⟨S, rfl, h⟩
  | cons o os ih =>
    obtain ⟨_, S2, h1, h2⟩ := bind_eq_ok h
    obtain ⟨S1, h3, h4⟩ := ih h2
    exact ⟨S1, (bind_ok _ h1).trans h3, h4⟩

theorem runOps_cons {o : Operator} {os : List Operator} {S S' : St} {x : Unit}
    (h : runOps E (o :: os) S = (.ok x, S')) :
    ∃ S1, op E o S = (.ok (), S1) ∧ runOps E os S1 = (.ok x, S') := by
  obtain ⟨_, S2, h1, h2⟩ := bind_eq_ok h
  exact ⟨S2, h1, h2⟩

theorem runOps_nil {S S' : St} {x : Unit} (h : runOps E [] S = (.ok x, S')) : S' = S :=
  (congrArg Prod.snd h).symm

/-- When the sequence is accepted, it has a type, for whatever stack afterwards. -/
def Sound (E : Env) (F : Fn) (os : List Operator) : Prop :=
  ∀ (B : Base) (c : List MT) (I : List (BitVec 32)) (ss : InitSpec.Scopes) (S' : St),
    Sit E F B → (st B c).Ok F.params F.locals (I :: ss) →
    runOps E os (st B c) = (.ok (), S') →
    ∃ B' c' I', S' = st B' c' ∧ Same B B' ∧ S'.Ok F.params F.locals (I' :: ss) ∧
      ∀ ts2, Conc B'.fr.unreachable c' ts2 →
        ∃ ts1, Conc B.fr.unreachable c ts1 ∧ Seq F I os ts1 ts2 I'

theorem Sound.nil : Sound E F [] := by
  intro B c I ss S' hs hok hr
  cases runOps_nil hr
  exact ⟨B, c, I, rfl, Same.rfl', hok, fun ts2 h => ⟨ts2, h, by
    simpa using Seq.frame ts2 (.nil (F := F) (I := I))⟩⟩

theorem Sound.append {os os' : List Operator} (h : Sound E F os) (h' : Sound E F os') :
    Sound E F (os ++ os') := by
  intro B c I ss S' hs hok hr
  obtain ⟨S1, h1, h2⟩ := runOps_append hr
  obtain ⟨B1, c1, I1, rfl, hs1, hok1, hseq1⟩ := h B c I ss S1 hs hok h1
  obtain ⟨B2, c2, I2, rfl, hs2, hok2, hseq2⟩ := h' B1 c1 I1 ss S' (hs.same hs1) hok1 h2
  refine ⟨B2, c2, I2, rfl, hs1.trans hs2, hok2, fun ts3 h3 => ?_⟩
  obtain ⟨ts2, h4, h5⟩ := hseq2 ts3 h3
  obtain ⟨ts1, h6, h7⟩ := hseq1 ts2 h4
  exact ⟨ts1, h6, .append h7 h5⟩

/-- One operator, in the situation where it is visited. -/
theorem Sound.one {o : Operator} (h : ∀ (B : Base) (c : List MT) (I : List (BitVec 32))
    (ss : InitSpec.Scopes) (S' : St), Plainly o → Sit E F B → (st B c).Ok F.params F.locals (I :: ss) →
    Run B (visit E o) c () S' →
    ∃ B' c', S' = st B' c' ∧ Same B B' ∧
      ∀ ts2, Conc B'.fr.unreachable c' ts2 →
        ∃ ts1, Conc B.fr.unreachable c ts1 ∧ Seq F I [o] ts1 ts2 (sets o ++ I))
    (hstep : ∀ (I : List (BitVec 32)) (ss : InitSpec.Scopes),
      InitSpec.Scopes.step (I :: ss) o = (sets o ++ I) :: ss) : Sound E F [o] := by
  intro B c I ss S' hs hok hr
  obtain ⟨S1, h1, h2⟩ := runOps_cons hr
  cases runOps_nil h2
  obtain ⟨hp, hv⟩ := op_full_ok hs.full h1
  obtain ⟨B', c', rfl, hsame, hseq⟩ := h B c I ss S' hp hs hok hv
  have := hok.op h1
  rw [hstep] at this
  exact ⟨B', c', _, rfl, hsame, this, hseq⟩

/-! ### Single operators -/

theorem seq_sub_in {I I' : List (BitVec 32)} {os : List Operator} {ts us vs : List VT}
    (h : Seq F I os ts us I') (hs : VTs.Sub F.C.decls vs ts) : Seq F I os vs us I' :=
  .sub hs VTs.Sub.rfl' h

/-- An operator with a fixed type. -/
theorem seq_simple {I : List (BitVec 32)} {o : Operator} {c c' : List MT} {ts2 : List VT}
    (h : HasTy F.C u (Simple F I o) c c') (h2 : Conc u c' ts2) :
    ∃ ts1, Conc u c ts1 ∧ Seq F I [o] ts1 ts2 (sets o ++ I) := by
  obtain ⟨ins, outs, hs, he⟩ := h
  obtain ⟨c1, hp, rfl⟩ := exec_pops.1 he
  obtain ⟨fs, rfl, hc⟩ := h2.pushed_inv
  obtain ⟨vs, h3, h4⟩ := pops_back hp hc
  exact ⟨fs ++ vs, h4, .frame fs (seq_sub_in (.instr (.simple hs)) h3)⟩

def stopBody : PlainBody → Bool
  | .unreachable | .ret | .throwRef => true
  | _ => false

theorem cur_runPlain (b : PlainBody) (h : stopBody b = false) : Cur (runPlain E b) := by
  cases b with
  | unreachable | ret | throwRef => cases h
  | _ => unfold runPlain; cur

theorem stopBody_plain (o : Instr.Plain) : stopBody (plainBody o) =
    (o == .unreachable || o == .return_ || o == .throwRef) := by
  cases o <;> rfl

/-- The operators that only change the operands of the innermost block. -/
def curOp : Operator → Bool
  | .plain o => !(o == .unreachable || o == .return_ || o == .throwRef)
  | .idx .brOnNull _ | .idx .localGet _ => true
  | o => basic o

theorem cur_visit {o : Operator} (hb : curOp o = true) : Cur (visit E o) := by
  cases o with
  | plain o =>
    refine cur_runPlain _ ?_
    rw [stopBody_plain]
    have hb : (!(o == .unreachable || o == .return_ || o == .throwRef)) = true := hb
    simpa using hb
  | idx o i =>
    cases o with
    | br | throw | rethrow | returnCall | returnCallRef | localSet | localTee | structNewDesc
    | structNewDefaultDesc | refGetDesc => cases hb
    | _ => dsimp only [visit, visitIdx]; cur
  | returnCallIndirect | brTable | block | else_ | end_ | catchAll | catch_ | delegate
  | tryTable => cases hb
  | mem o m =>
    show Cur (runMem E m (memBody o))
    cases memBody o <;> (unfold runMem; cur)
  | memLane o m l =>
    show Cur (runMemLane E m l (memLaneBody o))
    cases memLaneBody o <;> (unfold runMemLane; cur)
  | lane o l =>
    show Cur (runLane E l (laneBody o))
    cases laneBody o <;> (unfold runLane; cur)
  | _ => dsimp only [visit]; cur

theorem visit_cur {o : Operator} (hb : curOp o = true) {c : List MT} {S : St}
    (h : Run B (visit E o) c () S) : ∃ c', S = st B c' :=
  (cur_visit hb).spec B c () S h

theorem curOp_basic {o : Operator} (h : basic o = true) : curOp o = true := by
  cases o with
  | plain o => cases o <;> first | rfl | cases h
  | idx o i => cases o <;> first | rfl | cases h
  | _ => exact h

/-- An operator that only changes the operands of the innermost block. -/
theorem Sound.cur {o : Operator} (hb : curOp o = true) (h : ∀ (B : Base) (c c' : List MT)
    (I : List (BitVec 32)) (ss : InitSpec.Scopes), Sit E F B →
    (st B c).Ok F.params F.locals (I :: ss) → Ok B (visit E o) c () c' →
      ∀ ts2, Conc B.fr.unreachable c' ts2 →
        ∃ ts1, Conc B.fr.unreachable c ts1 ∧ Seq F I [o] ts1 ts2 (sets o ++ I))
    (hstep : ∀ (I : List (BitVec 32)) (ss : InitSpec.Scopes),
      InitSpec.Scopes.step (I :: ss) o = (sets o ++ I) :: ss) : Sound E F [o] := by
  refine Sound.one (fun B c I ss S' _ hs hok hr => ?_) hstep
  obtain ⟨c', rfl⟩ := visit_cur hb hr
  exact ⟨B, c', rfl, Same.rfl', h B c c' I ss hs hok hr⟩

theorem step_basic {o : Operator} (h : basic o = true) (I : List (BitVec 32))
    (ss : InitSpec.Scopes) : InitSpec.Scopes.step (I :: ss) o = (sets o ++ I) :: ss := by
  cases o with
  | idx o i => cases o <;> first | rfl | cases h
  | block | else_ | end_ | catchAll | catch_ | delegate | tryTable => cases h
  | _ => rfl

theorem Sound.basic {o : Operator} (hb : basic o = true) (hn : Natural o) : Sound E F [o] :=
  Sound.cur (curOp_basic hb)
    (fun _ _ _ _ _ hs _ hr _ h2 => seq_simple (ok_visit hs hb hn hr) h2) (step_basic hb)

theorem Sound.stop {o : Operator} (hb : isStop o = true) : Sound E F [o] := by
  refine Sound.one (fun B c I ss S' _ hs hok hr => ?_) ?_
  · obtain ⟨⟨ins, c1, h1, h2⟩, rfl⟩ := (run_stop hs hb).1 hr
    refine ⟨B.stop, [], rfl, Same.stop, fun ts2 _ => ?_⟩
    obtain ⟨fs, hf⟩ := Conc.gen B.fr.unreachable c1
    obtain ⟨vs, h3, h4⟩ := pops_back h2 hf
    refine ⟨fs ++ vs, h4, seq_sub_in (.instr (.stops fs ts2 h1)) ?_⟩
    exact f2_append VTs.Sub.rfl' h3
  · intro I ss
    unfold isStop at hb
    split at hb <;> first | rfl | cases hb

theorem Sound.brTable {t : BrTable} (hsafe : Safe F [.brTable t]) : Sound E F [.brTable t] := by
  refine Sound.one (fun B c I ss S' _ hs hok hr => ?_) fun _ _ => rfl
  obtain ⟨⟨ls, l, c1, h1, h2, h3, h4, h5⟩, rfl⟩ := (run_brTable hs).1 hr
  refine ⟨B.stop, [], rfl, Same.stop, fun ts2 _ => ?_⟩
  rcases hsafe with hsafe | ⟨-, hsafe⟩
  · exact absurd (by simp) (hsafe t)
  have hun : ∀ (i : Nat) (l : Label), F.labels[i]? = some l → ∀ t ∈ l.types, Unshared F.C t :=
    fun i l hl => hsafe l (List.mem_of_getElem? hl)
  obtain ⟨below, ts, h6, h7⟩ := match_common (C := F.C) l.types.length c1 (match_cells h4)
  obtain ⟨v, h8, h9⟩ := pop_back h3 h6
  refine ⟨below ++ ts ++ [v], h9, seq_sub_in (.instr (.brTable below ts2 h1 h2
    (h7 _ rfl h4 (hun _ _ h2)) fun i hi => ?_)) (f2_append VTs.Sub.rfl' (.cons h8 .nil))⟩
  obtain ⟨l', h10, h11, h12⟩ := h5 i hi
  exact ⟨l', h10, h7 _ h11 h12 (hun _ _ h10)⟩

theorem popM_back {c c1 : List MT} {m : MT} {fs : List VT} {v : VT} (h : PopM u c m c1)
    (hc : Conc u c1 fs) (hv : G m v) : Conc u c (fs ++ [v]) := by
  rcases h with ⟨rfl, hu, rfl, rfl⟩ | rfl
  · exact .low hu
  · exact .snoc hv hc

theorem select_back {m1 m2 m : MT} {v : VT} (h : selectTy m1 m2 = some m) (hv : G m v) :
    v.Selectable ∧ (∃ v1, G m1 v1 ∧ VT.Sub C.decls v1 v) ∧ ∃ v2, G m2 v2 ∧ VT.Sub C.decls v2 v := by
  cases m1 with
  | unknownRef => cases h
  | bottom =>
    cases m2 with
    | bottom => cases h; cases hv; exact ⟨trivial, ⟨_, .bottom, .bot⟩, _, .bottom, .bot⟩
    | unknownRef => cases h
    | known t =>
      cases t with
      | ref => cases h
      | _ => cases h; cases hv; exact ⟨trivial, ⟨_, .bottom, .bot⟩, _, .known, VT.Sub.rfl'⟩
  | known t1 =>
    cases m2 with
    | bottom =>
      cases t1 with
      | ref => cases h
      | _ => cases h; cases hv; exact ⟨trivial, ⟨_, .known, VT.Sub.rfl'⟩, _, .bottom, .bot⟩
    | unknownRef => cases t1 <;> cases h
    | known t2 =>
      cases t1 with
      | ref => cases h
      | _ =>
        cases t2 with
        | ref => cases h
        | _ =>
          first
          | cases h; done
          | (cases h; cases hv
             exact ⟨trivial, ⟨_, .known, VT.Sub.rfl'⟩, _, .known, VT.Sub.rfl'⟩)

theorem Sound.select : Sound E F [.plain .select] := by
  refine Sound.cur rfl (fun B c c' I ss hs hok hr ts2 h2 => ?_) fun _ _ => rfl
  obtain ⟨c1, m1, c2, m2, c3, m, h3, h4, h5, h6, rfl⟩ := (ok_select hs).1 hr
  obtain ⟨fs, v, rfl, hv, hc⟩ := h2.cons_inv
  obtain ⟨hsel, ⟨v1, hv1, hs1⟩, v2, hv2, hs2⟩ := select_back (C := F.C) h6 hv
  obtain ⟨v0, hs0, hc0⟩ := pop_back h3 (popM_back h4 (popM_back h5 hc hv2) hv1)
  refine ⟨fs ++ [v2, v1, v0], by simpa using hc0, .frame fs (seq_sub_in (.instr (.select hsel)) ?_)⟩
  exact .cons hs2 (.cons hs1 (.cons hs0 .nil))

theorem Sound.refAsNonNull : Sound E F [.plain .refAsNonNull] := by
  refine Sound.cur rfl (fun B c c' I ss hs hok hr ts2 h2 => ?_) fun _ _ => rfl
  obtain ⟨m, c1, h3, rfl⟩ := (ok_refAsNonNull hs).1 hr
  obtain ⟨fs, v, rfl, hv, hc⟩ := h2.cons_inv
  obtain ⟨t, v1, h4, h5, h6⟩ := popR_back (C := F.C) h3 hc hv
  exact ⟨fs ++ [v1], h6, .frame fs (seq_sub_in (.instr (.refAsNonNull h4)) (.cons h5 .nil))⟩

theorem Sound.brOnNull {i : BitVec 32} : Sound E F [.idx .brOnNull i] := by
  refine Sound.cur rfl (fun B c c' I ss hs hok hr ts2 h2 => ?_) fun _ _ => rfl
  obtain ⟨m, c1, l, c2, h3, h4, h5, rfl⟩ := (ok_brOnNull hs).1 hr
  obtain ⟨fs, v, rfl, hv, hc⟩ := h2.cons_inv
  obtain ⟨gs, rfl, hc0⟩ := hc.pushed_inv
  obtain ⟨vs, hvs, hc1⟩ := pops_back h5 hc0
  obtain ⟨t, v1, h6, h7, h8⟩ := popR_back (C := F.C) h3 hc1 hv
  refine ⟨gs ++ (vs ++ [v1]), by simpa using h8, ?_⟩
  rw [List.append_assoc]
  exact .frame gs (seq_sub_in (.instr (.brOnNull h4 h6)) (f2_append hvs (.cons h7 .nil)))

theorem convert_back (hs : Sit E F B) {frm into : AbsHeap} {c c' : List MT}
    (hr : Ok B (visitConvert E frm into) c () c') {ts2 : List VT} (h2 : Conc B.fr.unreachable c' ts2) :
    ∃ fs n s v1, ts2 = fs ++ [.val (.ref ⟨n, .abs s into⟩)] ∧
      VT.Sub F.C.decls v1 (.val (.ref ⟨n, .abs s frm⟩)) ∧ Conc B.fr.unreachable c (fs ++ [v1]) := by
  obtain ⟨m, c1, h3, h4, rfl⟩ := (ok_convert hs).1 hr
  obtain ⟨fs, v, rfl, hv, hc⟩ := h2.cons_inv
  rcases h3 with ⟨rfl, hu, rfl, rfl⟩ | ⟨m', rfl, h3⟩
  · cases hv with
    | some s => exact ⟨fs, false, s, .bot, rfl, .bot, .low hu⟩
  · rcases h3 with ⟨rfl, rfl⟩ | ⟨o, rfl, rfl⟩ | ⟨r, rfl, rfl⟩
    · cases hv with
      | some s => exact ⟨fs, false, s, .bot, rfl, .bot, .snoc .bottom hc⟩
    · cases hv with
      | some s =>
        cases o with
        | none => exact ⟨fs, false, s, .refBot false, rfl, .refVal nofun, .snoc .none hc⟩
        | some b =>
          refine ⟨fs, false, s, .val (.ref ⟨false, .abs s b⟩), rfl,
            .val (valSub_ref_iff.2 ⟨fun h => h, ?_⟩), .snoc (.some s) hc⟩
          exact (abs_sub_iff hs.ctx).2 ⟨rfl, h4⟩
    · have hsh := hs.faith.shared r
      cases hv
      refine ⟨fs, r.nullable, E.R.isShared r, .val (.ref r), rfl, .val (valSub_ref_iff.2 ⟨fun h => h, ?_⟩),
        .snoc .known hc⟩
      rw [hsh]
      exact h4

theorem Sound.anyConvertExtern : Sound E F [.plain .anyConvertExtern] := by
  refine Sound.cur rfl (fun B c c' I ss hs hok hr ts2 h2 => ?_) fun _ _ => rfl
  obtain ⟨fs, n, s, v1, rfl, h3, h4⟩ := convert_back hs hr h2
  exact ⟨_, h4, .frame fs (seq_sub_in (.instr .anyConvertExtern) (.cons h3 .nil))⟩

theorem Sound.externConvertAny : Sound E F [.plain .externConvertAny] := by
  refine Sound.cur rfl (fun B c c' I ss hs hok hr ts2 h2 => ?_) fun _ _ => rfl
  obtain ⟨fs, n, s, v1, rfl, h3, h4⟩ := convert_back hs hr h2
  exact ⟨_, h4, .frame fs (seq_sub_in (.instr .externConvertAny) (.cons h3 .nil))⟩

theorem Sound.localGet {i : BitVec 32} : Sound E F [.idx .localGet i] := by
  refine Sound.cur rfl (fun B c c' I ss hs hok hr ts2 h2 => ?_) fun _ _ => rfl
  obtain ⟨t, h3, h4, rfl⟩ := (ok_localGet hok).1 hr
  refine seq_simple ⟨[], [t], ?_, ?_⟩ h2
  · exact ⟨t, h3, h4, rfl, rfl⟩
  · rfl

theorem Sound.localSet {i : BitVec 32} : Sound E F [.idx .localSet i] := by
  refine Sound.one (fun B c I ss S' _ hs hok hr => ?_) fun _ _ => rfl
  obtain ⟨t, l, c1, h3, h4, h5, rfl⟩ := (run_localSet hs hok.rep).1 hr
  refine ⟨_, c1, rfl, Same.withInits l, fun ts2 h2 => ?_⟩
  refine seq_simple (c' := c1) ⟨[t], [], ?_, ?_⟩ h2
  · exact ⟨t, h3, rfl, rfl⟩
  · exact ⟨c1, h4, rfl⟩

theorem Sound.localTee {i : BitVec 32} : Sound E F [.idx .localTee i] := by
  refine Sound.one (fun B c I ss S' _ hs hok hr => ?_) fun _ _ => rfl
  obtain ⟨t, l, c1, h3, h4, h5, rfl⟩ := (run_localTee hs hok.rep).1 hr
  refine ⟨_, _, rfl, Same.withInits l, fun ts2 h2 => ?_⟩
  refine seq_simple (c' := .known t :: c1) ⟨[t], [t], ?_, ?_⟩ h2
  · exact ⟨t, h3, rfl, rfl⟩
  · exact ⟨c1, h4, rfl⟩

/-- An operator that is not part of the block structure. -/
theorem Sound.other {o : Operator} (ho : tokOp o = .other) (hn : Natural o) (hsafe : Safe F [o]) :
    Sound E F [o] := by
  have hdesc : proposal o = .customDescriptors → Sound E F [o] := by
    intro hp B c I ss S' hs hok hr
    obtain ⟨S1, h1, h2⟩ := runOps_cons hr
    exact absurd hp (op_full_ok hs.full h1).1
  cases o with
  | plain o =>
    by_cases hst : isStop (.plain o) = true
    · exact Sound.stop hst
    by_cases hba : Op.View.basic (.plain o) = true
    · exact Sound.basic hba hn
    cases o with
    | select => exact Sound.select
    | refAsNonNull => exact Sound.refAsNonNull
    | anyConvertExtern => exact Sound.anyConvertExtern
    | externConvertAny => exact Sound.externConvertAny
    | _ => first | exact absurd rfl hba | exact absurd rfl hst
  | idx o i =>
    by_cases hst : isStop (.idx o i) = true
    · exact Sound.stop hst
    by_cases hba : Op.View.basic (.idx o i) = true
    · exact Sound.basic hba hn
    cases o with
    | brOnNull => exact Sound.brOnNull
    | localGet => exact Sound.localGet
    | localSet => exact Sound.localSet
    | localTee => exact Sound.localTee
    | structNewDesc | structNewDefaultDesc | refGetDesc => exact hdesc rfl
    | _ => first | exact absurd rfl hba | exact absurd rfl hst
  | block o t => cases o <;> cases ho
  | tryTable | else_ | end_ | catchAll | catch_ | delegate => cases ho
  | returnCallIndirect => exact Sound.stop rfl
  | brTable t => exact Sound.brTable hsafe
  | heap o h =>
    cases o with
    | refCastDescEqNonNull | refCastDescEqNullable => exact hdesc rfl
    | _ => exact Sound.basic rfl hn
  | cast o d a b =>
    cases o with
    | brOnCastDescEq | brOnCastDescEqFail => exact hdesc rfl
    | _ => exact Sound.basic rfl hn
  | _ => exact Sound.basic rfl hn

end Verif.Op.View
