import Verif.Op.SoundFn
/-! What has a type is accepted. -/
namespace Verif.Op.View
open Verif.Op.Typing
open Verif.Types (AbsHeap HeapType UnpackedIndex RefType ValType)
open Verif.Instr (FrameKind BlockType MemArg Catch Handle BrTable Operator)
open Verif.TypeList.Spec (Field Storage Comp SubT Decls HeapSub RefSub ValSub StorageSub)
open Verif.TypeList (ValSub.trans)

variable {α β : Type} {E : Env} {F : Fn} {B B' B2 : Base} {C : Ctx} {u : Bool} {D : Decls}

/-! ### Stacks below a typed stack -/

theorem VT.Sub.trans {a b c : VT} (h : VT.Sub D a b) (h' : VT.Sub D b c) : VT.Sub D a c := by
  cases h with
  | bot => exact .bot
  | refBot h =>
    cases h' with
    | refBot h' => exact .refBot fun x => h' (h x)
    | refVal h' => exact .refVal fun x => h' (h x)
  | refVal h =>
    cases h' with
    | val h' =>
      obtain ⟨r, rfl, h1⟩ := valSub_ref h'
      exact .refVal fun x => h1.1 (h x)
  | val h =>
    cases h' with
    | val h' => exact .val (ValSub.trans h h')

theorem VTs.Sub.trans {as bs cs : List VT} (h : VTs.Sub D as bs) (h' : VTs.Sub D bs cs) :
    VTs.Sub D as cs := by
  induction h generalizing cs with
  | nil => cases h'; exact .nil
  | cons h1 _ ih =>
    cases h' with
    | cons h2 h3 => exact .cons (VT.Sub.trans h1 h2) (ih h3)

theorem f2_split {γ δ : Type} {P : γ → δ → Prop} {as : List γ} {bs bs' : List δ}
    (h : List.Forall₂ P as (bs ++ bs')) : ∃ xs ys, as = xs ++ ys ∧ List.Forall₂ P xs bs ∧
      List.Forall₂ P ys bs' := by
  induction bs generalizing as with
  | nil => exact ⟨[], as, rfl, .nil, h⟩
  | cons b bs ih =>
    cases h with
    | cons h1 h2 =>
      obtain ⟨xs, ys, rfl, h3, h4⟩ := ih h2
      exact ⟨_ :: xs, ys, rfl, .cons h1 h3, h4⟩

/-- The operands stand for something below this typed stack. -/
def LE (D : Decls) (u : Bool) (c : List MT) (ts : List VT) : Prop :=
  ∃ ts0, Conc u c ts0 ∧ VTs.Sub D ts0 ts

theorem LE.sub {c : List MT} {ts us : List VT} (h : LE D u c ts) (h' : VTs.Sub D ts us) :
    LE D u c us := by
  obtain ⟨ts0, h1, h2⟩ := h
  exact ⟨ts0, h1, VTs.Sub.trans h2 h'⟩

theorem LE.low {ts : List VT} (h : u = true) : LE D u [] ts := ⟨ts, .low h, VTs.Sub.rfl'⟩

theorem LE.snoc {c : List MT} {m : MT} {v w : VT} {ts : List VT} (h : LE D u c ts) (h1 : G m v)
    (h2 : VT.Sub D v w) : LE D u (m :: c) (ts ++ [w]) := by
  obtain ⟨ts0, h3, h4⟩ := h
  exact ⟨ts0 ++ [v], .snoc h1 h3, f2_append h4 (.cons h2 .nil)⟩

theorem LE.pushed {c : List MT} {ts : List VT} (h : LE D u c ts) (outs : List V) :
    LE D u (pushed outs c) (ts ++ vals outs) := by
  obtain ⟨ts0, h1, h2⟩ := h
  exact ⟨_, h1.pushed, f2_append h2 VTs.Sub.rfl'⟩

theorem LE.nil_inv {c : List MT} (h : LE D u c []) : c = [] := by
  obtain ⟨ts0, h1, h2⟩ := h
  cases h2
  cases c with
  | nil => rfl
  | cons m c =>
    obtain ⟨fs, v, h3, -⟩ := h1.cons_inv
    simp at h3

theorem LE.snoc_inv {c : List MT} {v : VT} {ts : List VT} (h : LE D u c (ts ++ [v])) :
    (c = [] ∧ u = true) ∨ ∃ m c1 w, c = m :: c1 ∧ G m w ∧ VT.Sub D w v ∧ LE D u c1 ts := by
  obtain ⟨ts0, h1, h2⟩ := h
  obtain ⟨xs, ys, rfl, h3, h4⟩ := f2_split h2
  obtain ⟨w, rfl⟩ : ∃ w, ys = [w] := by
    cases h4 with
    | cons _ h => cases h; exact ⟨_, rfl⟩
  have h4 : VT.Sub D w v := by cases h4; assumption
  cases c with
  | nil =>
    left
    refine ⟨rfl, ?_⟩
    generalize he : xs ++ [w] = zs at h1
    cases h1 with
    | nil => simp at he
    | low h => exact h
  | cons m c =>
    right
    obtain ⟨fs, v', h5, h6, h7⟩ := h1.cons_inv
    obtain ⟨h8, h9⟩ := List.append_inj' h5 rfl
    cases h9
    subst h8
    exact ⟨m, c, w, rfl, h6, h4, xs, h7, h3⟩

theorem G_chk (hc : CtxOk C) {m : MT} {w : VT} {t : V} (h : G m w)
    (hs : VT.Sub C.decls w (.val t)) : Chk C t m := by
  cases h with
  | bottom => trivial
  | none =>
    cases hs with
    | refVal h => exact ⟨_, rfl⟩
  | some s =>
    cases hs with
    | val h =>
      obtain ⟨r, rfl, h1, h2⟩ := valSub_ref h
      refine ⟨r, rfl, ?_⟩
      rw [← shared_of_sub hc h2]
      exact h2
  | known =>
    cases hs with
    | val h => exact h

theorem pop_fwd (hc : CtxOk C) {t : V} {c : List MT} {ts : List VT}
    (h : LE C.decls u c (ts ++ [.val t])) : ∃ c1, Pop C u t c c1 ∧ LE C.decls u c1 ts := by
  rcases h.snoc_inv with ⟨rfl, hu⟩ | ⟨m, c1, w, rfl, h1, h2, h3⟩
  · exact ⟨[], ⟨hu, rfl⟩, .low hu⟩
  · exact ⟨c1, ⟨G_chk hc h1 h2, rfl⟩, h3⟩

theorem pops_fwd (hc : CtxOk C) {ins : List V} {c : List MT} {ts : List VT}
    (h : LE C.decls u c (ts ++ vals ins)) :
    ∃ c1, Pops C u ins.reverse c c1 ∧ LE C.decls u c1 ts := by
  have : ∀ {ins : List V} {c : List MT}, LE C.decls u c (ts ++ vals ins.reverse) →
      ∃ c1, Pops C u ins c c1 ∧ LE C.decls u c1 ts := by
    intro ins
    induction ins with
    | nil => intro c h; exact ⟨c, rfl, by simpa [vals] using h⟩
    | cons t ins ih =>
      intro c h
      obtain ⟨c1, h1, h2⟩ := pop_fwd (t := t) (ts := ts ++ vals ins.reverse) hc
        (by simpa [vals] using h)
      obtain ⟨c2, h3, h4⟩ := ih h2
      exact ⟨c2, ⟨c1, h1, h3⟩, h4⟩
  exact this (by simpa using h)

/-! ### Sequences -/

/-- A sequence of this type is accepted, on whatever is below a stack that it can be used with. -/
def Complete (E : Env) (F : Fn) (I : List (BitVec 32)) (os : List Operator) (ts us : List VT)
    (I' : List (BitVec 32)) : Prop :=
  ∀ (B : Base) (c : List MT) (ss : InitSpec.Scopes) (t0 : List VT),
    Sit E F B → (st B c).Ok F.params F.locals (I :: ss) →
    LE F.C.decls B.fr.unreachable c (t0 ++ ts) →
    ∃ B' c', runOps E os (st B c) = (.ok (), st B' c') ∧ Same B B' ∧
      (st B' c').Ok F.params F.locals (I' :: ss) ∧ LE F.C.decls B'.fr.unreachable c' (t0 ++ us)

theorem runOps_append' {os os' : List Operator} {S S1 S' : St}
    (h : runOps E os S = (.ok (), S1)) (h' : runOps E os' S1 = (.ok (), S')) :
    runOps E (os ++ os') S = (.ok (), S') := by
  induction os generalizing S with
  | nil => cases runOps_nil h; exact h'
  | cons o os ih =>
    obtain ⟨S2, h1, h2⟩ := runOps_cons h
    exact (bind_ok _ h1).trans (ih h2)

/-- One operator that is visited. -/
theorem one_op' {o : Operator} {S S1 : St} {L : List V} {n : Nat}
    {s : InitSpec.Scopes} (hE : E.f = fullFeatures) (hp : Plainly o) (hok : S.Ok n L s)
    (h : visit E o S = (.ok (), S1)) : op E o S = (.ok (), S1) ∧ S1.Ok n L (s.step o) := by
  rw [← op_full hE o hp] at h
  exact ⟨h, hok.op h⟩

theorem cons_ok {o : Operator} {os : List Operator} {S S1 S2 : St}
    (h : op E o S = (.ok (), S1)) (h' : runOps E os S1 = (.ok (), S2)) :
    runOps E (o :: os) S = (.ok (), S2) := (bind_ok _ h).trans h'

theorem one_ok {o : Operator} {S S1 : St} (h : op E o S = (.ok (), S1)) :
    runOps E [o] S = (.ok (), S1) := cons_ok h rfl

theorem Complete.one {o : Operator} {I : List (BitVec 32)} {ts us : List VT} (hp : Plainly o)
    (h : ∀ (B : Base) (c : List MT) (ss : InitSpec.Scopes) (t0 : List VT), Sit E F B →
      (st B c).Ok F.params F.locals (I :: ss) → LE F.C.decls B.fr.unreachable c (t0 ++ ts) →
      ∃ B' c', Run B (visit E o) c () (st B' c') ∧ Same B B' ∧
        LE F.C.decls B'.fr.unreachable c' (t0 ++ us))
    (hstep : ∀ ss : InitSpec.Scopes,
      InitSpec.Scopes.step (I :: ss) o = (sets o ++ I) :: ss) :
    Complete E F I [o] ts us (sets o ++ I) := by
  intro B c ss t0 hs hok hle
  obtain ⟨B', c', h1, h2, h3⟩ := h B c ss t0 hs hok hle
  obtain ⟨h4, h5⟩ := one_op' hs.full hp hok h1
  rw [hstep] at h5
  exact ⟨B', c', one_ok h4, h2, h5, h3⟩

theorem plainly_basic {o : Operator} (h : basic o = true) : Plainly o := by
  unfold Plainly
  cases o with
  | plain o => cases o <;> first | (cases h; done) | nofun
  | idx o i => cases o <;> first | (cases h; done) | nofun
  | heap o x => cases o <;> first | (cases h; done) | nofun
  | cast o d a b => cases o <;> first | (cases h; done) | nofun
  | idx2 o => cases o <;> nofun
  | mem o => cases o <;> nofun
  | memLane o => cases o <;> nofun
  | lane o => cases o <;> nofun
  | atomic o => cases o <;> nofun
  | atomic2 o => cases o <;> nofun
  | returnCallIndirect | brTable | block | else_ | end_ | catchAll | catch_ | delegate
  | tryTable => cases h
  | _ => nofun

theorem simple_kind {I : List (BitVec 32)} {o : Operator} {ins outs : List V}
    (h : Simple F I o ins outs) : basic o = true ∨
      ∃ x i, o = .idx x i ∧ (x = .localGet ∨ x = .localSet ∨ x = .localTee) := by
  unfold Simple at h
  cases o with
  | plain o => cases o <;> first | exact .inl rfl | cases h
  | idx o i => cases o <;> first | exact .inl rfl | (cases h; done) | (exact .inr ⟨_, _, rfl, by simp⟩)
  | heap o x => cases o <;> first | exact .inl rfl | cases h
  | cast o d a b =>
    cases o with
    | brOnCast | brOnCastFail => exact .inl rfl
    | brOnCastDescEq | brOnCastDescEqFail =>
      obtain ⟨_, _, _, _, _, _, _, _, _, _, _, _, hf⟩ := h
      cases hf
  | returnCallIndirect | brTable | block | else_ | end_ | catchAll | catch_ | delegate
  | tryTable => cases h
  | _ => exact .inl rfl

/-- Marking a local as set does not panic. -/
theorem setInit_some {c : List MT} {n : Nat} {L : List V} {s : InitSpec.Scopes} {i : BitVec 32}
    {t : V} (hok : (st B c).Ok n L s) (hi : L[i.toNat]? = some t) :
    ∃ l, B.inits.setInit i = some l := by
  have hlt : i.toNat < B.inits.localInits.length := by
    have := hok.ini.length
    rw [show (st B c).ini.inits = B.inits from rfl] at this
    rw [this]
    exact (List.getElem?_eq_some_iff.1 hi).1
  unfold LocalInits.setInit LocalInits.isUninit
  split
  · exact ⟨_, rfl⟩
  · rw [List.getElem?_eq_getElem hlt]
    exact ⟨_, rfl⟩

/-- Removing a frame does not panic. -/
theorem popCtrl_some {c : List MT} {n : Nat} {L : List V} {s : InitSpec.Scopes}
    (hok : (st B c).Ok n L s) : ∃ rem l, B.inits.popCtrl B.fr.initHeight = some (rem, l) := by
  have h := hok.ini.scopes
  have hh : (st B c).ini.heights = B.fr.initHeight :: B.frs.map (·.initHeight) := rfl
  rw [hh] at h
  cases s with
  | nil => cases h
  | cons s ss =>
    have : B.fr.initHeight ≤ B.inits.inits.length := h.2.1
    unfold LocalInits.popCtrl
    rw [if_pos this]
    exact ⟨_, _, rfl⟩

theorem Complete.simple {I : List (BitVec 32)} {o : Operator} {ins outs : List V}
    (h : Simple F I o ins outs) (hn : Natural o) (hx : NoExact o) :
    Complete E F I [o] (vals ins) (vals outs) (sets o ++ I) := by
  rcases simple_kind h with hb | ⟨x, i, rfl, hl⟩
  · refine .one (plainly_basic hb) (fun B c ss t0 hs hok hle => ?_) fun ss => step_basic hb I ss
    obtain ⟨c1, h1, h2⟩ := pops_fwd hs.ctx hle
    exact ⟨B, _, ok_visit' hs hb hn hx ⟨ins, outs, h, exec_pops.2 ⟨c1, h1, rfl⟩⟩, Same.rfl',
      h2.pushed outs⟩
  · have hsimple : IdxTy F I x i ins outs := h
    rcases hl with rfl | rfl | rfl
    · refine .one nofun (fun B c ss t0 hs hok hle => ?_) fun ss => rfl
      obtain ⟨t, h1, h2, rfl, rfl⟩ := hsimple
      exact ⟨B, _, (ok_localGet hok).2 ⟨t, h1, h2, rfl⟩, Same.rfl',
        LE.snoc (by simpa [vals] using hle) .known VT.Sub.rfl'⟩
    · refine .one nofun (fun B c ss t0 hs hok hle => ?_) fun ss => rfl
      obtain ⟨t, h1, rfl, rfl⟩ := hsimple
      obtain ⟨c1, h2, h3⟩ := pop_fwd hs.ctx (ts := t0) hle
      obtain ⟨l, h4⟩ := setInit_some hok h1
      exact ⟨_, _, (run_localSet hs hok.rep).2 ⟨t, l, c1, h1, h2, h4, rfl⟩, Same.withInits l,
        show LE F.C.decls B.fr.unreachable _ _ by simpa [vals] using h3⟩
    · refine .one nofun (fun B c ss t0 hs hok hle => ?_) fun ss => rfl
      obtain ⟨t, h1, rfl, rfl⟩ := hsimple
      obtain ⟨c1, h2, h3⟩ := pop_fwd hs.ctx (ts := t0) hle
      obtain ⟨l, h4⟩ := setInit_some hok h1
      exact ⟨_, _, (run_localTee hs hok.rep).2 ⟨t, l, c1, h1, h2, h4, rfl⟩, Same.withInits l,
        LE.snoc h3 .known VT.Sub.rfl'⟩

theorem stops_isStop {o : Operator} {ins : List V} (h : Stops F o ins) : isStop o = true := by
  unfold Stops at h
  split at h <;> first | rfl | cases h

theorem Complete.stops {I : List (BitVec 32)} {o : Operator} {ins : List V} {below after : List VT}
    (h : Stops F o ins) : Complete E F I [o] (below ++ vals ins) after (sets o ++ I) := by
  have hb := stops_isStop h
  refine .one ?_ (fun B c ss t0 hs hok hle => ?_) ?_
  · unfold isStop at hb
    unfold Plainly
    split at hb <;> first | (cases hb; done) | nofun
  · rw [← List.append_assoc] at hle
    obtain ⟨c1, h1, h2⟩ := pops_fwd hs.ctx hle
    exact ⟨B.stop, [], (run_stop hs hb).2 ⟨⟨ins, c1, h, h1⟩, rfl⟩, Same.stop, .low rfl⟩
  · intro ss
    unfold isStop at hb
    split at hb <;> first | rfl | cases hb

theorem f2_length {γ δ : Type} {P : γ → δ → Prop} {as : List γ} {bs : List δ}
    (h : List.Forall₂ P as bs) : as.length = bs.length := by
  induction h with
  | nil => rfl
  | cons _ _ ih => simp [ih]

theorem Complete.brTable {I : List (BitVec 32)} {t : BrTable} {ls : List (BitVec 32)}
    {ts below after : List VT} {l : Label} (h1 : t.targets = .ok ls)
    (h2 : F.labels[t.default.toNat]? = some l) (h3 : VTs.Sub F.C.decls ts (vals l.types))
    (h4 : ∀ i ∈ ls, ∃ l, F.labels[i.toNat]? = some l ∧ VTs.Sub F.C.decls ts (vals l.types)) :
    Complete E F I [.brTable t] (below ++ ts ++ [.val .i32]) after (sets (.brTable t) ++ I) := by
  refine .one nofun (fun B c ss t0 hs hok hle => ?_) fun ss => rfl
  rw [← List.append_assoc, ← List.append_assoc] at hle
  obtain ⟨c1, h5, h6⟩ := pop_fwd hs.ctx hle
  have hm : ∀ l : Label, VTs.Sub F.C.decls ts (vals l.types) →
      Match F.C B.fr.unreachable l.types.reverse c1 := by
    intro l hl
    obtain ⟨c2, h7, -⟩ := pops_fwd hs.ctx (h6.sub (f2_append VTs.Sub.rfl' hl))
    exact match_pops.2 ⟨c2, h7⟩
  refine ⟨B.stop, [], (run_brTable hs).2 ⟨⟨ls, l, c1, h1, h2, h5, hm l h3, fun i hi => ?_⟩, rfl⟩,
    Same.stop, .low rfl⟩
  obtain ⟨l', h8, h9⟩ := h4 i hi
  refine ⟨l', h8, ?_, hm l' h9⟩
  have a := f2_length h3
  have b := f2_length h9
  simp only [vals, List.length_map] at a b
  omega

theorem popM_fwd {c : List MT} {v : VT} {ts : List VT} (h : LE D u c (ts ++ [v])) :
    ∃ m c1 w, PopM u c m c1 ∧ G m w ∧ VT.Sub D w v ∧ LE D u c1 ts := by
  rcases h.snoc_inv with ⟨rfl, hu⟩ | ⟨m, c1, w, rfl, h1, h2, h3⟩
  · exact ⟨.bottom, [], .bot, .inl ⟨rfl, hu, rfl, rfl⟩, .bottom, .bot, .low hu⟩
  · exact ⟨m, c1, w, .inr rfl, h1, h2, h3⟩

/-- What `select` chooses from. -/
theorem selectable_G {m : MT} {w v : VT} (hv : v.Selectable) (h : G m w) (hs : VT.Sub D w v) :
    m = .bottom ∨ ∃ t, NumOrVec t ∧ m = .known t ∧ v = .val t := by
  cases h with
  | bottom => exact .inl rfl
  | none => cases hs <;> cases hv
  | some s =>
    cases hs with
    | val h =>
      obtain ⟨r, rfl, -⟩ := valSub_ref h
      cases hv
  | known =>
    cases hs with
    | val h =>
      cases h with
      | refl => exact .inr ⟨_, hv, rfl, rfl⟩
      | ref => cases hv

theorem select_fwd {m1 m2 : MT} {w1 w2 v : VT} (hv : v.Selectable) (h1 : G m1 w1)
    (h2 : G m2 w2) (hs1 : VT.Sub D w1 v) (hs2 : VT.Sub D w2 v) :
    ∃ m w, selectTy m1 m2 = some m ∧ G m w ∧ VT.Sub D w v := by
  rcases selectable_G hv h1 hs1 with rfl | ⟨t, ht, rfl, rfl⟩
  · rcases selectable_G hv h2 hs2 with rfl | ⟨t, ht, rfl, rfl⟩
    · exact ⟨_, _, rfl, .bottom, .bot⟩
    · cases t with
      | ref => cases ht
      | _ => exact ⟨_, _, rfl, .known, VT.Sub.rfl'⟩
  · rcases selectable_G hv h2 hs2 with rfl | ⟨t', ht', rfl, he⟩
    · cases t with
      | ref => cases ht
      | _ => exact ⟨_, _, rfl, .known, VT.Sub.rfl'⟩
    · cases he
      cases t with
      | ref => cases ht
      | _ => exact ⟨_, _, rfl, .known, VT.Sub.rfl'⟩

theorem Complete.select {I : List (BitVec 32)} {t : VT} (h : t.Selectable) :
    Complete E F I [.plain .select] [t, t, .val .i32] [t] (sets (.plain .select) ++ I) := by
  refine .one nofun (fun B c ss t0 hs hok hle => ?_) fun ss => rfl
  obtain ⟨c1, h1, h2⟩ := pop_fwd (ts := t0 ++ [t, t]) hs.ctx (by simpa using hle)
  obtain ⟨m1, c2, w1, h3, h4, h5, h6⟩ := popM_fwd (ts := t0 ++ [t]) (by simpa using h2)
  obtain ⟨m2, c3, w2, h7, h8, h9, h10⟩ := popM_fwd h6
  obtain ⟨m, w, h11, h12, h13⟩ := select_fwd h h4 h8 h5 h9
  exact ⟨B, _, (ok_select hs).2 ⟨c1, m1, c2, m2, c3, m, h1, h3, h7, h11, rfl⟩, Same.rfl',
    h10.snoc h12 h13⟩

/-- Popping a reference and removing null. -/
theorem popR_fwd {c : List MT} {t t' : VT} {ts : List VT} (hn : NonNull t t')
    (h : LE D u c (ts ++ [t])) :
    ∃ m c1 w, PopR u c m c1 ∧ G m.asNonNull.toMT w ∧ VT.Sub D w t' ∧ LE D u c1 ts := by
  have hbot : VT.Sub D (.refBot false) t' := by
    cases hn
    · exact .refBot fun h => h
    · exact .refVal nofun
  rcases h.snoc_inv with ⟨rfl, hu⟩ | ⟨m, c1, w, rfl, h1, h2, h3⟩
  · exact ⟨.unknownRef none, [], _, .inl ⟨rfl, hu, rfl, rfl⟩, .none, hbot, .low hu⟩
  · cases h1 with
    | bottom => exact ⟨.unknownRef none, c1, _, .inr ⟨_, rfl, .inl ⟨rfl, rfl⟩⟩, .none, hbot, h3⟩
    | none =>
      exact ⟨.unknownRef none, c1, _, .inr ⟨_, rfl, .inr (.inl ⟨_, rfl, rfl⟩)⟩, .none, hbot, h3⟩
    | @some x s =>
      refine ⟨.unknownRef (some x), c1, _, .inr ⟨_, rfl, .inr (.inl ⟨_, rfl, rfl⟩)⟩, .some s, ?_, h3⟩
      cases hn with
      | bot => cases h2
      | ref =>
        cases h2 with
        | val h2 => exact .val (valSub_ref_iff.2 ⟨nofun, (valSub_ref_iff.1 h2).2⟩)
    | known =>
      cases hn with
      | bot => cases h2
      | ref =>
        cases h2 with
        | val h2 =>
          obtain ⟨r, rfl, h4⟩ := valSub_of_ref h2
          exact ⟨.known r, c1, _, .inr ⟨_, rfl, .inr (.inr ⟨_, rfl, rfl⟩)⟩, .known,
            .val (valSub_ref_iff.2 ⟨nofun, h4.2⟩), h3⟩

theorem Complete.refAsNonNull {I : List (BitVec 32)} {t t' : VT} (h : NonNull t t') :
    Complete E F I [.plain .refAsNonNull] [t] [t'] (sets (.plain .refAsNonNull) ++ I) := by
  refine .one nofun (fun B c ss t0 hs hok hle => ?_) fun ss => rfl
  obtain ⟨m, c1, w, h1, h2, h3, h4⟩ := popR_fwd h hle
  exact ⟨B, _, (ok_refAsNonNull hs).2 ⟨m, c1, h1, rfl⟩, Same.rfl', h4.snoc h2 h3⟩

theorem Complete.brOnNull {I : List (BitVec 32)} {t t' : VT} {i : BitVec 32} {l : Label}
    (hl : F.labels[i.toNat]? = some l) (h : NonNull t t') :
    Complete E F I [.idx .brOnNull i] (vals l.types ++ [t]) (vals l.types ++ [t'])
      (sets (.idx .brOnNull i) ++ I) := by
  refine .one nofun (fun B c ss t0 hs hok hle => ?_) fun ss => rfl
  rw [← List.append_assoc] at hle
  obtain ⟨m, c1, w, h1, h2, h3, h4⟩ := popR_fwd h hle
  obtain ⟨c2, h5, h6⟩ := pops_fwd hs.ctx h4
  refine ⟨B, _, (ok_brOnNull hs).2 ⟨m, c1, l, c2, h1, hl, h5, rfl⟩, Same.rfl', ?_⟩
  rw [← List.append_assoc]
  exact (h6.pushed l.types).snoc h2 h3

theorem convert_fwd (hs : Sit E F B) {frm into : AbsHeap} {c : List MT} {n s : Bool} {t0 : List VT}
    (hle : LE F.C.decls B.fr.unreachable c (t0 ++ [.val (.ref ⟨n, .abs s frm⟩)])) :
    ∃ c', Ok B (visitConvert E frm into) c () c' ∧
      LE F.C.decls B.fr.unreachable c' (t0 ++ [.val (.ref ⟨n, .abs s into⟩)]) := by
  have hsome : ∀ {c1 : List MT}, LE F.C.decls B.fr.unreachable c1 t0 →
      LE F.C.decls B.fr.unreachable (.unknownRef (some into) :: c1)
        (t0 ++ [.val (.ref ⟨n, .abs s into⟩)]) := fun h =>
    h.snoc (.some s) (.val (valSub_ref_iff.2 ⟨nofun, .refl⟩))
  rcases hle.snoc_inv with ⟨rfl, hu⟩ | ⟨m, c1, w, rfl, h1, h2, h3⟩
  · exact ⟨_, (ok_convert hs).2 ⟨.unknownRef none, [], .inl ⟨rfl, hu, rfl, rfl⟩, trivial, rfl⟩,
      hsome (.low hu)⟩
  · cases h1 with
    | bottom =>
      exact ⟨_, (ok_convert hs).2 ⟨.unknownRef none, c1, .inr ⟨_, rfl, .inl ⟨rfl, rfl⟩⟩, trivial,
        rfl⟩, hsome h3⟩
    | none =>
      exact ⟨_, (ok_convert hs).2 ⟨.unknownRef none, c1, .inr ⟨_, rfl, .inr (.inl ⟨_, rfl, rfl⟩)⟩,
        trivial, rfl⟩, hsome h3⟩
    | @some b s' =>
      refine ⟨_, (ok_convert hs).2 ⟨.unknownRef (some b), c1,
        .inr ⟨_, rfl, .inr (.inl ⟨_, rfl, rfl⟩)⟩, ?_, rfl⟩, hsome h3⟩
      cases h2 with
      | val h2 => exact ((abs_sub_iff hs.ctx).1 (valSub_ref_iff.1 h2).2).2
    | known =>
      cases h2 with
      | val h2 =>
        obtain ⟨r, rfl, h4, h5⟩ := valSub_of_ref h2
        have hsh : F.C.sharedHeap r.heap = s := shared_abs hs.ctx h5
        have hsh' := hs.faith.shared r
        refine ⟨_, (ok_convert hs).2 ⟨.known r, c1, .inr ⟨_, rfl, .inr (.inr ⟨_, rfl, rfl⟩)⟩, ?_,
          rfl⟩, h3.snoc .known (.val (valSub_ref_iff.2 ⟨h4, ?_⟩))⟩
        · show HeapSub F.C.decls r.heap (.abs (F.C.sharedHeap r.heap) frm)
          rw [hsh]; exact h5
        · show HeapSub F.C.decls (.abs (E.R.isShared r) into) (.abs s into)
          rw [hsh', hsh]
          exact .refl

theorem Complete.instr {I : List (BitVec 32)} {o : Operator} {ts us : List VT}
    (h : InstrTy F I o ts us) (hn : Natural o) (hx : NoExact o) :
    Complete E F I [o] ts us (sets o ++ I) := by
  cases h with
  | simple h => exact .simple h hn hx
  | stops below after h => exact .stops h
  | brTable below after h1 h2 h3 h4 => exact .brTable h1 h2 h3 h4
  | select h => exact .select h
  | refAsNonNull h => exact .refAsNonNull h
  | brOnNull h1 h2 => exact .brOnNull h1 h2
  | anyConvertExtern =>
    refine .one nofun (fun B c ss t0 hs hok hle => ?_) fun ss => rfl
    obtain ⟨c', h1, h2⟩ := convert_fwd hs (into := .any) hle
    exact ⟨B, c', h1, Same.rfl', h2⟩
  | externConvertAny =>
    refine .one nofun (fun B c ss t0 hs hok hle => ?_) fun ss => rfl
    obtain ⟨c', h1, h2⟩ := convert_fwd hs (into := .extern) hle
    exact ⟨B, c', h1, Same.rfl', h2⟩

/-! ### Blocks -/

theorem body_complete {kind : FrameKind} {bt : BT} {ps rs qs : List V} {b : List Operator}
    {c1 : List MT} {I I' : List (BitVec 32)} {ss : InitSpec.Scopes}
    (hb : Complete E (F.label (labelTys kind ps rs) (catchKind kind)) I b (vals qs) (vals rs) I')
    (hs : Sit E F B) (hbt : BTIs F bt ps rs)
    (hok : (st (B.enter c1 kind bt) (pushed qs [])).Ok F.params F.locals (I :: ss)) :
    ∃ B2 c2 rem l, runOps E b (st (B.enter c1 kind bt) (pushed qs [])) = (.ok (), st B2 c2) ∧
      Same (B.enter c1 kind bt) B2 ∧ (st B2 c2).Ok F.params F.locals (I' :: ss) ∧
      Pops F.C B2.fr.unreachable rs.reverse c2 [] ∧
      B2.inits.popCtrl B.inits.inits.length = some (rem, l) := by
  obtain ⟨B2, c2, h1, h2, h3, h4⟩ := hb _ _ ss [] (hs.enter hbt) hok
    (LE.pushed ⟨[], .nil, .nil⟩ qs)
  obtain ⟨c3, h5, h6⟩ := pops_fwd (C := F.C) hs.ctx h4
  cases h6.nil_inv
  obtain ⟨rem, l, h7⟩ := popCtrl_some h3
  rw [show B2.fr.initHeight = B.inits.inits.length from h2.initHeight] at h7
  exact ⟨B2, c2, rem, l, h1, h2, h3, h5, h7⟩

theorem noExactBlock {o : Instr.Blk} {ty : BlockType} (h : NoExact (.block o ty)) :
    NoExactBlock ty := by
  cases ty <;> exact h

theorem noExactTry {cs : List Catch} {ty : BlockType} (h : NoExact (.tryTable ty cs)) :
    NoExactBlock ty := by
  cases ty <;> exact h

theorem Complete.block {o : Instr.Blk} {kind : FrameKind} (ho : (o, kind) = (.block, .block) ∨
    (o, kind) = (.loop, .loop)) {ty : BlockType} {ps rs : List V} {b : List Operator}
    {I I' : List (BitVec 32)} (hF : F.Block ty ps rs) (hx : NoExact (.block o ty))
    (hb : Complete E (F.label (labelTys kind ps rs)) I b (vals ps) (vals rs) I') :
    Complete E F I (.block o ty :: (b ++ [.end_])) (vals ps) (vals rs) I := by
  intro B c ss t0 hs hok hle
  obtain ⟨c1, hp, hle1⟩ := pops_fwd hs.ctx hle
  obtain ⟨bt, hbt, h1⟩ := run_block' (kind := kind) hs (noExactBlock hx) hF hp
  have h1 : visit E (.block o ty) (st B c) =
      (.ok (), st (B.enter c1 kind bt) (pushed ps [])) := by
    rcases ho with ho | ho <;> cases ho <;> exact h1
  obtain ⟨h1, hok1⟩ := one_op' hs.full (by rcases ho with ho | ho <;> cases ho <;> nofun) hok h1
  have hck : catchKind kind = false := by rcases ho with ho | ho <;> cases ho <;> rfl
  obtain ⟨B2, c2, rem, l, h2, hsame, hok2, hP, hl⟩ := body_complete (by rw [hck]; exact hb) hs hbt hok1
  have h3 := (run_end hs hsame hbt).2 ⟨hP, by rcases ho with ho | ho <;> cases ho <;> nofun, rem, l,
    hl, rfl⟩
  obtain ⟨h3, hok3⟩ := one_op' (o := .end_) hs.full nofun hok2 h3
  exact ⟨_, _, cons_ok h1 (runOps_append' h2 (one_ok h3)), Same.withInits l, hok3,
    hle1.pushed rs⟩

theorem Complete.tryTable {ty : BlockType} {cs : List Catch} {ps rs : List V} {b : List Operator}
    {I I' : List (BitVec 32)} (hF : F.Block ty ps rs) (hx : NoExact (.tryTable ty cs))
    (hc : ∀ c ∈ cs, CatchOk F c)
    (hb : Complete E (F.label rs) I b (vals ps) (vals rs) I') :
    Complete E F I (.tryTable ty cs :: (b ++ [.end_])) (vals ps) (vals rs) I := by
  intro B c ss t0 hs hok hle
  obtain ⟨c1, hp, hle1⟩ := pops_fwd hs.ctx hle
  obtain ⟨bt, hbt, h1⟩ := run_tryTable' hs (noExactTry hx) hF hp hc
  obtain ⟨h1, hok1⟩ := one_op' (o := .tryTable ty cs) hs.full nofun hok h1
  obtain ⟨B2, c2, rem, l, h2, hsame, hok2, hP, hl⟩ := body_complete (kind := .tryTable) hb hs hbt hok1
  have h3 := (run_end hs hsame hbt).2 ⟨hP, nofun, rem, l, hl, rfl⟩
  obtain ⟨h3, hok3⟩ := one_op' (o := .end_) hs.full nofun hok2 h3
  exact ⟨_, _, cons_ok h1 (runOps_append' h2 (one_ok h3)), Same.withInits l, hok3,
    hle1.pushed rs⟩

theorem Complete.if_ {ty : BlockType} {ps rs : List V} {b : List Operator}
    {I I' : List (BitVec 32)} (hF : F.Block ty ps rs) (hx : NoExact (.block .if_ ty))
    (hb : Complete E (F.label rs) I b (vals ps) (vals rs) I')
    (hsub : List.Forall₂ (ValSub F.C.decls) ps rs) :
    Complete E F I (.block .if_ ty :: (b ++ [.end_])) (vals ps ++ [.val .i32]) (vals rs) I := by
  intro B c ss t0 hs hok hle
  rw [← List.append_assoc] at hle
  obtain ⟨c0, hp0, hle0⟩ := pop_fwd hs.ctx hle
  obtain ⟨c1, hp, hle1⟩ := pops_fwd hs.ctx hle0
  obtain ⟨bt, hbt, h1⟩ := run_if' hs (noExactBlock hx) hF hp0 hp
  obtain ⟨h1, hok1⟩ := one_op' (o := .block .if_ ty) hs.full nofun hok h1
  obtain ⟨B2, c2, rem, l, h2, hsame, hok2, hP, hl⟩ := body_complete (kind := .if_) hb hs hbt hok1
  have h3 := (run_end hs hsame hbt).2 ⟨hP, fun _ => hsub, rem, l, hl, rfl⟩
  obtain ⟨h3, hok3⟩ := one_op' (o := .end_) hs.full nofun hok2 h3
  exact ⟨_, _, cons_ok h1 (runOps_append' h2 (one_ok h3)), Same.withInits l, hok3,
    hle1.pushed rs⟩

theorem Complete.ifElse {ty : BlockType} {ps rs : List V} {b e : List Operator}
    {I I' I'' : List (BitVec 32)} (hF : F.Block ty ps rs) (hx : NoExact (.block .if_ ty))
    (hb : Complete E (F.label rs) I b (vals ps) (vals rs) I')
    (he : Complete E (F.label rs) I e (vals ps) (vals rs) I'') :
    Complete E F I (.block .if_ ty :: (b ++ .else_ :: (e ++ [.end_]))) (vals ps ++ [.val .i32])
      (vals rs) I := by
  intro B c ss t0 hs hok hle
  rw [← List.append_assoc] at hle
  obtain ⟨c0, hp0, hle0⟩ := pop_fwd hs.ctx hle
  obtain ⟨c1, hp, hle1⟩ := pops_fwd hs.ctx hle0
  obtain ⟨bt, hbt, h1⟩ := run_if' hs (noExactBlock hx) hF hp0 hp
  obtain ⟨h1, hok1⟩ := one_op' (o := .block .if_ ty) hs.full nofun hok h1
  obtain ⟨B2, c2, rem, l, h2, hsame, hok2, hP, hl⟩ := body_complete (kind := .if_) hb hs hbt hok1
  have h3 := (run_else hs hsame hbt).2 ⟨hP, rem, l, hl, rfl⟩
  obtain ⟨h3, hok3⟩ := one_op' (o := .else_) hs.full nofun hok2 h3
  obtain ⟨B4, c4, rem', l', h4, hsame', hok4, hP', hl'⟩ :=
    body_complete (kind := .else_) he (hs.withInits l) hbt hok3
  have h5 := (run_end (hs.withInits l) hsame' hbt).2 ⟨hP', nofun, rem', l', hl', rfl⟩
  obtain ⟨h5, hok5⟩ := one_op' (o := .end_) hs.full nofun hok4 h5
  exact ⟨_, _, cons_ok h1 (runOps_append' h2 (cons_ok h3 (runOps_append' h4 (one_ok h5)))),
    Same.withInits l', hok5, hle1.pushed rs⟩

theorem Complete.delegate {ty : BlockType} {ps rs : List V} {b : List Operator} {d : BitVec 32}
    {lab : Label} {I I' : List (BitVec 32)} (hF : F.Block ty ps rs) (hx : NoExact (.block .try_ ty))
    (hb : Complete E (F.label rs) I b (vals ps) (vals rs) I')
    (hd : F.labels[d.toNat]? = some lab) :
    Complete E F I (.block .try_ ty :: (b ++ [.delegate d])) (vals ps) (vals rs) I := by
  intro B c ss t0 hs hok hle
  obtain ⟨c1, hp, hle1⟩ := pops_fwd hs.ctx hle
  obtain ⟨bt, hbt, h1⟩ := run_block' (kind := .legacyTry) hs (noExactBlock hx) hF hp
  obtain ⟨h1, hok1⟩ := one_op' (o := .block .try_ ty) hs.full nofun hok h1
  obtain ⟨B2, c2, rem, l, h2, hsame, hok2, hP, hl⟩ :=
    body_complete (kind := .legacyTry) hb hs hbt hok1
  have h3 := (run_delegate hs hsame hbt).2 ⟨hP, rem, l, lab, hl, hd, rfl⟩
  obtain ⟨h3, hok3⟩ := one_op' (o := .delegate d) hs.full nofun hok2 h3
  exact ⟨_, _, cons_ok h1 (runOps_append' h2 (one_ok h3)), Same.withInits l, hok3,
    hle1.pushed rs⟩

/-- After the body of a legacy `try`, or of one of its clauses. -/
theorem complete_clauses {rs : List V} {I : List (BitVec 32)}
    {all : Option (List Operator × List (BitVec 32))}
    (hall : ∀ b ∈ all, Complete E (F.label rs true) I b.1 [] (vals rs) b.2) :
    ∀ (cs : List Clause), (∀ c ∈ cs, F.C.Exn c.tag c.types) →
    (∀ c ∈ cs, Complete E (F.label rs true) I c.body (vals c.types) (vals rs) c.set) →
    ∀ (B : Base) (c : List MT) (kind : FrameKind) (bt : BT) (ps : List V) (B2 : Base)
      (c2 : List MT) (I2 : List (BitVec 32)) (ss : InitSpec.Scopes) (rem : List (BitVec 32))
      (l : LocalInits), kind ≠ .if_ → Sit E F B → BTIs F bt ps rs →
      Same (B.enter c kind bt) B2 →
      (st B2 c2).Ok F.params F.locals (I2 :: I :: ss) →
      Pops F.C B2.fr.unreachable rs.reverse c2 [] →
      B2.inits.popCtrl B.inits.inits.length = some (rem, l) →
      ∃ l', runOps E (cs.flatMap Clause.ops ++ (catchAllOps all ++ [.end_])) (st B2 c2) =
        (.ok (), st (B.withInits l') (pushed rs c)) ∧
        (st (B.withInits l') (pushed rs c)).Ok F.params F.locals (I :: ss)
  | [], _, _, B, c, kind, bt, ps, B2, c2, I2, ss, rem, l, hk, hs, hbt, hsame, hok, hP, hl => by
    cases all with
    | none =>
      have h3 := (run_end hs hsame hbt).2 ⟨hP, fun h => absurd h hk, rem, l, hl, rfl⟩
      obtain ⟨h3, hok3⟩ := one_op' (o := .end_) hs.full nofun hok h3
      exact ⟨l, one_ok h3, hok3⟩
    | some b =>
      have h3 := (run_catchAll hs hsame hbt).2 ⟨hP, rem, l, hl, rfl⟩
      obtain ⟨h3, hok3⟩ := one_op' (o := .catchAll) hs.full nofun hok h3
      obtain ⟨B4, c4, rem', l', h4, hsame', hok4, hP', hl'⟩ :=
        body_complete (kind := .legacyCatchAll) (ps := ps) (qs := []) (hall b rfl) (hs.withInits l)
          hbt hok3
      have h5 := (run_end (hs.withInits l) hsame' hbt).2 ⟨hP', nofun, rem', l', hl', rfl⟩
      obtain ⟨h5, hok5⟩ := one_op' (o := .end_) hs.full nofun hok4 h5
      exact ⟨l', cons_ok h3 (runOps_append' h4 (one_ok h5)), hok5⟩
  | x :: cs, hex, hcs, B, c, kind, bt, ps, B2, c2, I2, ss, rem, l, hk, hs, hbt, hsame, hok, hP, hl => by
    have h3 := (run_catch hs hsame hbt (tag := x.tag)).2 ⟨hP, rem, l, x.types, hl, hex x (by simp), rfl⟩
    obtain ⟨h3, hok3⟩ := one_op' (o := .catch_ x.tag) hs.full nofun hok h3
    obtain ⟨B4, c4, rem', l', h4, hsame', hok4, hP', hl'⟩ :=
      body_complete (kind := .legacyCatch) (ps := ps) (hcs x (by simp)) (hs.withInits l) hbt hok3
    obtain ⟨l'', h5, hok5⟩ := complete_clauses hall cs (fun y hy => hex y (by simp [hy]))
      (fun y hy => hcs y (by simp [hy])) (B.withInits l) c .legacyCatch bt ps B4 c4 _ ss rem' l'
      nofun (hs.withInits l) hbt hsame' hok4 hP' hl'
    refine ⟨l'', ?_, hok5⟩
    rw [List.flatMap_cons, Clause.ops, List.append_assoc, List.cons_append]
    exact cons_ok h3 (runOps_append' h4 h5)

theorem Complete.try_ {ty : BlockType} {ps rs : List V} {b : List Operator}
    {I I' : List (BitVec 32)} {cs : List Clause}
    {all : Option (List Operator × List (BitVec 32))}
    (hF : F.Block ty ps rs) (hx : NoExact (.block .try_ ty))
    (hb : Complete E (F.label rs) I b (vals ps) (vals rs) I')
    (hex : ∀ c ∈ cs, F.C.Exn c.tag c.types)
    (hcs : ∀ c ∈ cs, Complete E (F.label rs true) I c.body (vals c.types) (vals rs) c.set)
    (hall : ∀ b ∈ all, Complete E (F.label rs true) I b.1 [] (vals rs) b.2) :
    Complete E F I (.block .try_ ty :: (b ++ (cs.flatMap Clause.ops ++ (catchAllOps all ++ [.end_]))))
      (vals ps) (vals rs) I := by
  intro B c ss t0 hs hok hle
  obtain ⟨c1, hp, hle1⟩ := pops_fwd hs.ctx hle
  obtain ⟨bt, hbt, h1⟩ := run_block' (kind := .legacyTry) hs (noExactBlock hx) hF hp
  obtain ⟨h1, hok1⟩ := one_op' (o := .block .try_ ty) hs.full nofun hok h1
  obtain ⟨B2, c2, rem, l, h2, hsame, hok2, hP, hl⟩ :=
    body_complete (kind := .legacyTry) hb hs hbt hok1
  obtain ⟨l', h3, hok3⟩ := complete_clauses hall cs hex hcs B c1 .legacyTry bt ps B2 c2 _ ss rem l
    nofun hs hbt hsame hok2 hP hl
  exact ⟨_, _, cons_ok h1 (runOps_append' h2 h3), Same.withInits l', hok3, hle1.pushed rs⟩

/-- Everything that has a type is accepted. -/
theorem complete_seq {I I' : List (BitVec 32)} {os : List Operator} {ts us : List VT}
    (h : Seq F I os ts us I') (hn : ∀ o ∈ os, Natural o ∧ NoExact o) :
    Complete E F I os ts us I' := by
  induction h with
  | nil =>
    intro B c ss t0 hs hok hle
    exact ⟨B, c, rfl, Same.rfl', hok, hle⟩
  | instr h => exact .instr h (hn _ (by simp)).1 (hn _ (by simp)).2
  | append _ _ ih1 ih2 =>
    intro B c ss t0 hs hok hle
    obtain ⟨B1, c1, h1, hs1, hok1, hle1⟩ := ih1 (fun o h => hn o (by simp [h])) B c ss t0 hs hok hle
    obtain ⟨B2, c2, h2, hs2, hok2, hle2⟩ := ih2 (fun o h => hn o (by simp [h])) B1 c1 ss t0
      (hs.same hs1) hok1 hle1
    exact ⟨B2, c2, runOps_append' h1 h2, hs1.trans hs2, hok2, hle2⟩
  | frame fs _ ih =>
    intro B c ss t0 hs hok hle
    have := ih hn B c ss (t0 ++ fs) hs hok (by simpa using hle)
    simpa using this
  | sub h1 h2 _ ih =>
    intro B c ss t0 hs hok hle
    obtain ⟨B1, c1, h3, hs1, hok1, hle1⟩ := ih hn B c ss t0 hs hok
      (hle.sub (f2_append VTs.Sub.rfl' h1))
    exact ⟨B1, c1, h3, hs1, hok1, hle1.sub (f2_append VTs.Sub.rfl' h2)⟩
  | block hF _ ih =>
    exact .block (.inl rfl) hF (hn _ (by simp)).2 (ih fun o h => hn o (by simp [h]))
  | loop hF _ ih =>
    exact .block (.inr rfl) hF (hn _ (by simp)).2 (ih fun o h => hn o (by simp [h]))
  | ifElse hF _ _ ih1 ih2 =>
    exact .ifElse hF (hn _ (by simp)).2 (ih1 fun o h => hn o (by simp [h]))
      (ih2 fun o h => hn o (by simp [h]))
  | if_ hF _ hsub ih =>
    exact .if_ hF (hn _ (by simp)).2 (ih fun o h => hn o (by simp [h])) hsub
  | tryTable hF hc _ ih =>
    exact .tryTable hF (hn _ (by simp)).2 hc (ih fun o h => hn o (by simp [h]))
  | try_ hF _ hex _ _ ih ihc iha =>
    refine .try_ hF (hn _ (by simp)).2 (ih fun o h => hn o (by simp [h])) hex ?_ ?_
    · intro x hx
      refine ihc x hx fun o h => hn o ?_
      simp only [List.mem_cons, List.mem_append, List.mem_flatMap]
      exact .inr (.inr (.inl ⟨x, hx, by simp [Clause.ops, h]⟩))
    · intro b hb
      refine iha b hb fun o h => hn o ?_
      cases hb
      simp [catchAllOps, h]
  | delegate hF _ hd ih =>
    exact .delegate hF (hn _ (by simp)).2 (ih fun o h => hn o (by simp [h])) hd

end Verif.Op.View
