import Verif.Op.Reach
import Verif.Op.InitSpec
import Verif.Op.LocalsLemmas
/-! What operators do to the initialization of locals. -/
namespace Verif.Op
open Verif.Types (ValType)
open Verif.Instr (FrameKind BlockType Catch Operator)
open InitSpec

/-- The part of the state that matters. -/
structure Ini where
  locals : Locals
  inits : LocalInits
  heights : List Nat

/-- The part of the state that matters. -/
def St.ini (S : St) : Ini := ⟨S.locals, S.inits, S.control.map (·.initHeight)⟩

/-- Closing a block. -/
def Ini.close (a : Ini) : Option Ini :=
  match a.heights with
  | [] => none
  | h :: hs => (a.inits.popCtrl h).map fun p => { a with inits := p.2, heights := hs }

/-- Opening a block. -/
def Ini.open (a : Ini) : Ini := { a with heights := a.inits.inits.length :: a.heights }

/-- Setting a local. -/
def Ini.set (a : Ini) (i : BitVec 32) : Option Ini :=
  if a.heights = [] then none else (a.inits.setInit i).map fun l => { a with inits := l }

/-- What an operator does. -/
def Ini.step (a : Ini) : Operator → Option Ini
  | .block _ _ => some a.open
  | .tryTable _ _ => some a.open
  | .else_ => a.close.map Ini.open
  | .catch_ _ => a.close.map Ini.open
  | .catchAll => a.close.map Ini.open
  | .end_ => a.close
  | .delegate _ => a.close
  | .idx .localSet i => a.set i
  | .idx .localTee i => a.set i
  | _ => some a

theorem opOnly_ini {α : Type} {m : M α} (hm : OpOnly m) {S S' : St} {r : Except Fail α}
    (h : m S = (r, S')) : S'.ini = S.ini ∧ S'.control = S.control ∧ S'.inits = S.inits := by
  obtain ⟨r', ops, d, -, hs⟩ := hm.spec S
  have := hs S.log
  rw [show ({ S with log := S.log } : St) = S from rfl, h] at this
  cases this
  exact ⟨rfl, rfl, rfl⟩

/-- Taking a successful bind apart. -/
theorem bind_eq_ok {α β : Type} {m : M α} {k : α → M β} {S S' : St} {b : β}
    (h : (m >>= k) S = (.ok b, S')) : ∃ a S1, m S = (.ok a, S1) ∧ k a S1 = (.ok b, S') := by
  rw [bind_def] at h
  rcases hm : m S with ⟨r, S1⟩
  rw [hm] at h
  cases r with
  | error e => cases h
  | ok a => exact ⟨a, S1, rfl, h⟩

theorem take_ini {S S' : St} {fr : Frame} (h : takeFrame S = (.ok fr, S')) :
    S.ini.close = some S'.ini := by
  rw [takeFrame_eq] at h
  unfold Ini.close St.ini
  split at h
  · cases h
  · next fr' rest hc =>
    split at h
    · cases h
    · next rm i' hp =>
      cases h
      simp [hc, hp]

theorem pushBare_ini {S S' : St} {kind : FrameKind} {bt : BT} {u : Unit}
    (h : pushBareCtrl kind bt S = (.ok u, S')) : S'.ini = S.ini.open := by
  cases h
  rfl

theorem setInit_ini {S S' : St} {i : BitVec 32} {u : Unit} (hc : S.control ≠ [])
    (h : setInit i S = (.ok u, S')) : S.ini.set i = some S'.ini := by
  rw [setInit_eq] at h
  unfold Ini.set St.ini
  split at h
  · next l hl =>
    cases h
    simp [hl, hc]
  · cases h

theorem unreachable_ini {S S' : St} {u : Unit} (h : unreachable S = (.ok u, S')) :
    S'.ini = S.ini := by
  unfold unreachable at h
  split at h
  · cases h
  · next fr rest hc =>
    dsimp only at h
    split at h
    · cases h
      simp [St.ini, hc]
    · cases h

theorem pop_control {E : Env} {x : Option Val} {S S' : St} {t : MT}
    (h : pop E x S = (.ok t, S')) : S.control ≠ [] := by
  intro hc
  unfold pop at h
  split at h
  · next t' ops hf =>
    unfold popFast at hf
    split at hf
    · split at hf
      · rw [hc] at hf
        cases hf
      · cases hf
    · cases hf
  · unfold popSlow at h
    dsimp only at h
    rw [hc] at h
    cases h

variable {E : Env}

theorem popCtrl_ini {S S' : St} {fr : Frame} (h : popCtrl E S = (.ok fr, S')) :
    S.ini.close = some S'.ini := by
  rw [popCtrl_eq] at h
  obtain ⟨_, S1, h1, h2⟩ := bind_eq_ok h
  have h3 := take_ini h2
  rw [(opOnly_ini inferInstance h1).1] at h3
  exact h3

theorem pushCtrl_ini {S S' : St} {kind : FrameKind} {bt : BT} {u : Unit}
    (h : pushCtrl E kind bt S = (.ok u, S')) : S'.ini = S.ini.open := by
  rw [pushCtrl_eq] at h
  obtain ⟨_, S1, h1, h2⟩ := bind_eq_ok h
  rw [(opOnly_ini inferInstance h2).1]
  exact pushBare_ini h1

theorem stop_ini {α : Type} {m : M α} (hm : OpOnly m) {S S' : St} {u : Unit}
    (h : (m >>= fun _ => unreachable) S = (.ok u, S')) : S'.ini = S.ini := by
  obtain ⟨_, S1, h1, h2⟩ := bind_eq_ok h
  rw [unreachable_ini h2, (opOnly_ini hm h1).1]

theorem block_ini {c : BT → M Unit} (hc : ∀ bt, OpOnly (c bt)) {ty : BlockType} {kind : FrameKind}
    {S S' : St} {u : Unit} (h : (do
      let bt ← checkBlockType E ty
      c bt
      pushCtrl E kind bt) S = (.ok u, S')) : S'.ini = S.ini.open := by
  obtain ⟨bt, S1, h1, h⟩ := bind_eq_ok h
  obtain ⟨_, S2, h2, h3⟩ := bind_eq_ok h
  rw [pushCtrl_ini h3, (opOnly_ini (hc bt) h2).1, (opOnly_ini inferInstance h1).1]

theorem blk_ini {o : Instr.Blk} {ty : BlockType} {S S' : St} {u : Unit}
    (h : visitBlk E o ty S = (.ok u, S')) : S'.ini = S.ini.open := by
  have block : ∀ kind, visitBlock E kind ty S = (.ok u, S') → S'.ini = S.ini.open := by
    intro kind h
    refine block_ini (E := E) (c := popParams E) (ty := ty) (kind := kind)
      (fun _ => inferInstance) (u := u) ?_
    unfold popParams
    simp only [bind_assoc]
    exact h
  cases o
  · exact block _ h
  · exact block _ h
  · refine block_ini (E := E) (c := fun bt => do popT E .i32; popParams E bt) (ty := ty)
      (kind := .if_) (fun _ => inferInstance) (u := u) ?_
    unfold popParams
    simp only [bind_assoc]
    exact h
  · exact block _ h

theorem tryTable_ini {cs : List Catch} {ty : BlockType} {S S' : St} {u : Unit}
    (h : visitTryTable E ty cs S = (.ok u, S')) : S'.ini = S.ini.open := by
  refine block_ini (E := E) (c := fun bt => do popParams E bt; each (checkCatch E) cs) (ty := ty)
      (kind := .tryTable) (fun _ => inferInstance) (u := u) ?_
  unfold popParams
  simp only [bind_assoc]
  exact h

theorem else_ini {S S' : St} {u : Unit} (h : visitElse E S = (.ok u, S')) :
    S.ini.close.map Ini.open = some S'.ini := by
  obtain ⟨fr, S1, h1, h2⟩ := bind_eq_ok h
  rw [popCtrl_ini h1, pushCtrl_ini h2]
  rfl

theorem catch_ini {S S' : St} {u : Unit} {tag : BitVec 32} (h : visitCatch E tag S = (.ok u, S')) :
    S.ini.close.map Ini.open = some S'.ini := by
  obtain ⟨fr, S1, h1, h⟩ := bind_eq_ok h
  obtain ⟨_, S2, h2, h⟩ := bind_eq_ok h
  rw [popCtrl_ini h1, (opOnly_ini inferInstance h).1, pushBare_ini h2]
  rfl

theorem catchAll_ini {S S' : St} {u : Unit} (h : visitCatchAll E S = (.ok u, S')) :
    S.ini.close.map Ini.open = some S'.ini := by
  obtain ⟨fr, S1, h1, h⟩ := bind_eq_ok h
  rw [popCtrl_ini h1, pushBare_ini h]
  rfl

theorem close_open (a : Ini) : a.open.close = some a := by
  unfold Ini.open Ini.close
  simp [popCtrl_self]

theorem end_ini {S S' : St} {u : Unit} (h : visitEnd E S = (.ok u, S')) :
    S.ini.close = some S'.ini := by
  obtain ⟨fr, S1, h1, h⟩ := bind_eq_ok h
  rw [popCtrl_ini h1]
  dsimp only at h
  split at h
  · obtain ⟨fr', S2, h2, h⟩ := bind_eq_ok h
    obtain ⟨_, S3, h3, h4⟩ := bind_eq_ok h2
    have h5 := popCtrl_ini h4
    rw [pushCtrl_ini h3, close_open] at h5
    rw [(opOnly_ini inferInstance h).1]
    exact h5
  · rw [pure_bind] at h
    rw [(opOnly_ini inferInstance h).1]

theorem delegate_ini {S S' : St} {u : Unit} {d : BitVec 32}
    (h : visitDelegate E d S = (.ok u, S')) : S.ini.close = some S'.ini := by
  obtain ⟨fr, S1, h1, h⟩ := bind_eq_ok h
  rw [popCtrl_ini h1, (opOnly_ini inferInstance h).1]

theorem plain_ini {b : PlainBody} {S S' : St} {u : Unit} (h : runPlain E b S = (.ok u, S')) :
    S'.ini = S.ini := by
  cases b with
  | unreachable => exact unreachable_ini h
  | ret =>
    refine stop_ini (m := do let rs ← functionResults E; popAll E rs) inferInstance (u := u) ?_
    simp only [bind_assoc]
    exact h
  | throwRef => exact stop_ini (m := popT E exnref) inferInstance h
  | _ => exact (opOnly_ini (by unfold runPlain; op_only) h).1

theorem returnCallTy_ini {m : M FuncTy} (hm : OpOnly m) {S S' : St} {u : Unit}
    (h : (do let ty ← m; checkReturnCallTy E ty) S = (.ok u, S')) : S'.ini = S.ini := by
  refine stop_ini (m := do
        let ty ← m
        checkFuncTypeSameResults E ty
        popAll E ty.params
        pushAll ty.results
        let rs ← functionResults E
        popAll E rs) inferInstance (u := u) ?_
  unfold checkReturnCallTy checkReturn at h
  simp only [bind_assoc]
  exact h

theorem popT_control {t : Val} {S S' : St} {u : Unit} (h : popT E t S = (.ok u, S')) :
    S.control ≠ [] := by
  obtain ⟨_, S1, h1, h2⟩ := bind_eq_ok h
  exact pop_control h1

theorem idx_ini {o : Instr.Idx} {i : BitVec 32} {S S' : St} {u : Unit}
    (h : visitIdx E o i S = (.ok u, S')) : S.ini.step (.idx o i) = some S'.ini := by
  have same : S'.ini = S.ini → some S.ini = some S'.ini := fun h => by rw [h]
  cases o with
  | br =>
    refine same (stop_ini (m := do let ts ← jumpTypes E i; popAll E ts) inferInstance (u := u) ?_)
    simp only [bind_assoc]
    exact h
  | throw =>
    refine same (stop_ini (m := do let ty ← exceptionTagAt E i; popAll E ty.params)
      inferInstance (u := u) ?_)
    simp only [bind_assoc]
    exact h
  | rethrow =>
    refine same (stop_ini (m := do
      let p ← jump i
      require (p.2 == .legacyCatch || p.2 == .legacyCatchAll)) inferInstance (u := u) ?_)
    simp only [bind_assoc]
    exact h
  | returnCall => exact same (returnCallTy_ini inferInstance h)
  | returnCallRef => exact same (returnCallTy_ini inferInstance h)
  | localSet =>
    obtain ⟨ty, S1, h1, h⟩ := bind_eq_ok h
    obtain ⟨_, S2, h2, h⟩ := bind_eq_ok h
    have hc := popT_control h2
    obtain ⟨e2, c2, -⟩ := opOnly_ini inferInstance h2
    have := setInit_ini (by rw [c2]; exact hc) h
    rw [e2, (opOnly_ini inferInstance h1).1] at this
    exact this
  | localTee =>
    obtain ⟨ty, S1, h1, h⟩ := bind_eq_ok h
    obtain ⟨_, S2, h2, h⟩ := bind_eq_ok h
    obtain ⟨_, S3, h3, h⟩ := bind_eq_ok h
    have hc := popT_control h2
    obtain ⟨e2, c2, -⟩ := opOnly_ini inferInstance h2
    have := setInit_ini (by rw [c2]; exact hc) h3
    rw [e2, (opOnly_ini inferInstance h1).1] at this
    rw [(opOnly_ini inferInstance h).1]
    exact this
  | _ => exact same (opOnly_ini (by unfold visitIdx; op_only) h).1

theorem visit_ini {o : Operator} {S S' : St} {u : Unit} (h : visit E o S = (.ok u, S')) :
    S.ini.step o = some S'.ini := by
  have same : S'.ini = S.ini → some S.ini = some S'.ini := fun h => by rw [h]
  cases o with
  | plain o => exact same (plain_ini h)
  | else_ => exact else_ini h
  | end_ => exact end_ini h
  | catchAll => exact catchAll_ini h
  | block o ty => exact congrArg some (blk_ini h).symm
  | tryTable ty cs => exact congrArg some (tryTable_ini h).symm
  | idx o i => exact idx_ini h
  | catch_ tag => exact catch_ini h
  | delegate d => exact delegate_ini h
  | returnCallIndirect i j => exact same (returnCallTy_ini inferInstance h)
  | brTable t =>
    refine same (stop_ini (m := do
        popT E .i32
        let ds ← jumpTypes E t.default
        each (checkBrTarget E ds.length) (brItems t.reader t.cnt)
        popAll E ds) inferInstance (u := u) ?_)
    simp only [bind_assoc]
    exact h
  | _ => exact same (opOnly_ini (by unfold visit; op_only) h).1

theorem op_ini {o : Operator} {S S' : St} {u : Unit} (h : op E o S = (.ok u, S')) :
    S.ini.step o = some S'.ini := by
  obtain ⟨_, S1, h1, h⟩ := bind_eq_ok h
  have := visit_ini h
  rw [(opOnly_ini inferInstance h1).1] at this
  exact this

/-! ## The invariant -/

/-- The relation between the stack of heights and the scopes: below each height are the indices
that were set before the block began. `base` says which locals need no initialization. -/
def ScopesOk (base : Nat → Bool) : List Nat → Scopes → List (BitVec 32) → Prop
  | [], [], ins => ins = []
  | h :: hs, s :: ss, ins =>
    (∀ x : BitVec 32, base x.toNat = false → (x ∈ s ↔ x ∈ ins)) ∧ h ≤ ins.length ∧
      ScopesOk base hs ss (ins.drop (ins.length - h))
  | _, _, _ => False

/-- What holds about the initialization of locals. -/
structure Ini.Ok (n : Nat) (base : Nat → Bool) (a : Ini) (s : Scopes) : Prop where
  length : a.inits.localInits.length = n
  bits : ∀ x : BitVec 32, x.toNat < n →
    a.inits.localInits[x.toNat]? = some (base x.toNat || decide (x ∈ a.inits.inits))
  nondefault : ∀ x ∈ a.inits.inits, x.toNat < n ∧ base x.toNat = false
  first : ∀ x : BitVec 32, x < a.inits.first → x.toNat < n → base x.toNat = true
  nodup : a.inits.inits.Nodup
  scopes : ScopesOk base a.heights s a.inits.inits

theorem ScopesOk.top {base : Nat → Bool} {hs : List Nat} {s : Scopes} {ins : List (BitVec 32)}
    (h : ScopesOk base hs s ins) (x : BitVec 32) (hx : base x.toNat = false) :
    x ∈ s.top ↔ x ∈ ins := by
  cases hs with
  | nil =>
    cases s with
    | nil => rw [show ins = [] from h]; rfl
    | cons t ss => exact h.elim
  | cons n hs =>
    cases s with
    | nil => exact h.elim
    | cons t ss => exact h.1 x hx

theorem Ini.Ok.open {n : Nat} {base : Nat → Bool} {a : Ini} {s : Scopes} (h : a.Ok n base s) :
    a.open.Ok n base (s.top :: s) :=
  ⟨h.length, h.bits, h.nondefault, h.first, h.nodup, fun x hx => h.scopes.top x hx,
    Nat.le_refl _, by simpa [Ini.open] using h.scopes⟩

theorem Ini.Ok.close {n : Nat} {base : Nat → Bool} {a b : Ini} {s : Scopes} (h : a.Ok n base s)
    (hc : a.close = some b) : b.Ok n base s.tail ∧ b.locals = a.locals := by
  unfold Ini.close at hc
  have hs := h.scopes
  split at hc
  · cases hc
  · next k ks hk =>
    obtain ⟨⟨rm, i'⟩, hp, rfl⟩ := Option.map_eq_some_iff.1 hc
    rw [hk] at hs
    cases s with
    | nil => exact hs.elim
    | cons t ss =>
      obtain ⟨-, hle, hrest⟩ := hs
      unfold LocalInits.popCtrl at hp
      rw [if_pos hle] at hp
      simp only [Option.some.injEq, Prod.mk.injEq] at hp
      obtain ⟨rfl, rfl⟩ := hp
      have hsplit := List.take_append_drop (a.inits.inits.length - k) a.inits.inits
      have hnd := h.nodup
      rw [← hsplit, List.nodup_append] at hnd
      refine ⟨⟨?_, ?_, ?_, h.first, hnd.2.1, hrest⟩, rfl⟩
      · dsimp only
        rw [resetInits_length, h.length]
      · intro x hx
        dsimp only
        by_cases hm : x ∈ a.inits.inits.take (a.inits.inits.length - k)
        · rw [resetInits_mem _ _ _ (List.mem_reverse.2 hm) (by rw [h.length]; exact hx)]
          have hb := (h.nondefault x (List.mem_of_mem_take hm)).2
          have hnot : x ∉ a.inits.inits.drop (a.inits.inits.length - k) :=
            fun hd => hnd.2.2 x hm x hd rfl
          rw [hb, decide_eq_false hnot]
          rfl
        · rw [resetInits_get]
          · rw [h.bits x hx]
            have : x ∈ a.inits.inits ↔ x ∈ a.inits.inits.drop (a.inits.inits.length - k) := by
              conv => lhs; rw [← hsplit, List.mem_append]
              exact ⟨fun h => h.resolve_left hm, .inr⟩
            simp only [this]
          · intro j hj he
            exact hm (BitVec.eq_of_toNat_eq he ▸ List.mem_reverse.1 hj)
      · intro x hx
        exact h.nondefault x (List.mem_of_mem_drop hx)

theorem ScopesOk.set {base : Nat → Bool} {hs : List Nat} {s : Scopes} {ins : List (BitVec 32)}
    (h : ScopesOk base hs s ins) {i : BitVec 32} (hne : hs ≠ [])
    {ins' : List (BitVec 32)} (hi : ins' = i :: ins ∨ (ins' = ins ∧ (base i.toNat = true ∨ i ∈ ins))) :
    ScopesOk base hs ((i :: s.top) :: s.tail) ins' := by
  cases hs with
  | nil => exact absurd rfl hne
  | cons k ks =>
    cases s with
    | nil => exact h.elim
    | cons t ss =>
      obtain ⟨h1, h2, h3⟩ := h
      rcases hi with rfl | ⟨rfl, hi⟩
      · refine ⟨fun x hx => ?_, Nat.le_succ_of_le h2, ?_⟩
        · simp only [Scopes.top, List.headD_cons, List.mem_cons, h1 x hx]
        · rw [List.length_cons, Nat.succ_sub h2, List.drop_succ_cons]
          exact h3
      · refine ⟨fun x hx => ?_, h2, h3⟩
        simp only [Scopes.top, List.headD_cons, List.mem_cons, h1 x hx]
        constructor
        · rintro (rfl | h)
          · rcases hi with hi | hi
            · rw [hi] at hx
              cases hx
            · exact hi
          · exact h
        · exact .inr

theorem Ini.Ok.set {n : Nat} {base : Nat → Bool} {a b : Ini} {s : Scopes} (h : a.Ok n base s)
    {i : BitVec 32} (hi : i.toNat < n) (hs : a.set i = some b) :
    b.Ok n base ((i :: s.top) :: s.tail) ∧ b.locals = a.locals := by
  unfold Ini.set at hs
  split at hs
  · cases hs
  · next hne =>
    obtain ⟨l, hl, rfl⟩ := Option.map_eq_some_iff.1 hs
    unfold LocalInits.setInit at hl
    obtain ⟨u, hu, rfl⟩ := Option.map_eq_some_iff.1 hl
    unfold LocalInits.isUninit at hu
    split at hu
    · next hlt =>
      cases hu
      refine ⟨⟨h.length, h.bits, h.nondefault, h.first, h.nodup, ?_⟩, rfl⟩
      exact h.scopes.set hne (.inr ⟨rfl, .inl (h.first i hlt hi)⟩)
    · next hlt =>
      rw [h.bits i hi] at hu
      simp only [Option.map_some, Option.some.injEq] at hu
      cases u with
      | false =>
        refine ⟨⟨h.length, h.bits, h.nondefault, h.first, h.nodup, ?_⟩, rfl⟩
        refine h.scopes.set hne (.inr ⟨rfl, ?_⟩)
        have : (base i.toNat || decide (i ∈ a.inits.inits)) = true := by
          cases hb : (base i.toNat || decide (i ∈ a.inits.inits)) with
          | true => rfl
          | false => rw [hb] at hu; cases hu
        rw [Bool.or_eq_true, decide_eq_true_eq] at this
        exact this
      | true =>
        have : (base i.toNat || decide (i ∈ a.inits.inits)) = false := by
          cases hb : (base i.toNat || decide (i ∈ a.inits.inits)) with
          | true => rw [hb] at hu; cases hu
          | false => rfl
        rw [Bool.or_eq_false_iff, decide_eq_false_iff_not] at this
        obtain ⟨hb, hn⟩ := this
        refine ⟨⟨?_, ?_, ?_, h.first, List.nodup_cons.2 ⟨hn, h.nodup⟩,
          h.scopes.set hne (.inl rfl)⟩, rfl⟩
        · simp [h.length]
        · intro x hx
          by_cases hxi : x = i
          · subst hxi
            simp [h.length, hx]
          · have hne' : i.toNat ≠ x.toNat := fun he => hxi (BitVec.eq_of_toNat_eq he.symm)
            simp only [if_true]
            rw [List.getElem?_set_ne hne', h.bits x hx]
            simp [hxi]
        · intro x hx
          rcases List.mem_cons.1 hx with rfl | hx
          · exact ⟨hi, hb⟩
          · exact h.nondefault x hx

/-- The locals of a state, by what they mean. -/
structure St.Ok (params : Nat) (L : List Val) (S : St) (s : Scopes) : Prop where
  rep : S.locals.Rep L
  ini : S.ini.Ok L.length (fun x => decide (x < params) || (L[x]?).any isDefaultable) s

theorem localTy_ok {i : BitVec 32} {S S' : St} {t : Val} (h : localTy E i S = (.ok t, S')) :
    S.locals.get E.bs i = some t := by
  obtain ⟨S1, S2, h1, h2⟩ := bind_eq_ok h
  cases h1
  cases hg : S.locals.get E.bs i with
  | none => rw [hg] at h2; cases h2
  | some a => rw [hg] at h2; cases h2; rfl

theorem idx_local {o : Instr.Idx} (ho : o = .localSet ∨ o = .localTee) {i : BitVec 32} {S S' : St}
    {u : Unit} (h : op E (.idx o i) S = (.ok u, S')) : ∃ t, S.locals.get E.bs i = some t := by
  obtain ⟨_, S1, h1, h⟩ := bind_eq_ok h
  have hl : S1.locals = S.locals := by
    have := congrArg Ini.locals (opOnly_ini inferInstance h1).1
    exact this
  rw [← hl]
  rcases ho with rfl | rfl
  · obtain ⟨ty, S1, h1, h⟩ := bind_eq_ok h
    exact ⟨ty, localTy_ok h1⟩
  · obtain ⟨ty, S1, h1, h⟩ := bind_eq_ok h
    exact ⟨ty, localTy_ok h1⟩

theorem St.Ok.op {params : Nat} {L : List Val} {S S' : St} {s : Scopes} (hok : S.Ok params L s)
    {o : Operator} {u : Unit} (h : op E o S = (.ok u, S')) : S'.Ok params L (s.step o) := by
  have hi := op_ini h
  have mk : ∀ {a : Ini} {s : Scopes}, some a = some S'.ini →
      a.Ok L.length (fun x => decide (x < params) || (L[x]?).any isDefaultable) s →
      a.locals = S.locals → S'.Ok params L s := by
    intro a s he ha hl
    cases he
    exact ⟨by rw [show S'.locals = S.locals from hl]; exact hok.rep, ha⟩
  have lt : ∀ {i : BitVec 32}, (∃ t, S.locals.get E.bs i = some t) → i.toNat < L.length := by
    rintro i ⟨t, ht⟩
    rw [Locals.rep_get hok.rep] at ht
    exact (List.getElem?_eq_some_iff.1 ht).1
  have closeOpen : ∀ s' : Scopes, S.ini.close.map Ini.open = some S'.ini →
      S'.Ok params L (Scopes.top s.tail :: s.tail) := by
    intro _ hi
    obtain ⟨b, hb, he⟩ := Option.map_eq_some_iff.1 hi
    obtain ⟨h1, h2⟩ := hok.ini.close hb
    exact mk (congrArg some he) h1.open h2
  have close : S.ini.close = some S'.ini → S'.Ok params L s.tail := by
    intro hi
    obtain ⟨h1, h2⟩ := hok.ini.close hi
    exact mk rfl h1 h2
  cases o with
  | block _ _ => exact mk hi hok.ini.open rfl
  | tryTable _ _ => exact mk hi hok.ini.open rfl
  | else_ => exact closeOpen s hi
  | catch_ _ => exact closeOpen s hi
  | catchAll => exact closeOpen s hi
  | end_ => exact close hi
  | delegate _ => exact close hi
  | idx o i =>
    cases o with
    | localSet =>
      obtain ⟨h1, h2⟩ := hok.ini.set (lt (idx_local (.inl rfl) h)) hi
      exact mk rfl h1 h2
    | localTee =>
      obtain ⟨h1, h2⟩ := hok.ini.set (lt (idx_local (.inr rfl) h)) hi
      exact mk rfl h1 h2
    | _ => exact mk hi hok.ini rfl
  | _ => exact mk hi hok.ini rfl

theorem St.Ok.runOps {params : Nat} {L : List Val} : ∀ (os : List Operator) {S S' : St}
    {s : Scopes} {u : Unit}, S.Ok params L s → runOps E os S = (.ok u, S') →
    S'.Ok params L (os.foldl Scopes.step s)
  | [], S, S', s, u, h, hr => by cases hr; exact h
  | o :: os, S, S', s, u, h, hr => by
    obtain ⟨_, S1, h1, h2⟩ := bind_eq_ok hr
    exact St.Ok.runOps os (h.op h1) h2

/-- `local.get` in such a state. -/
theorem St.Ok.get {params : Nat} {L : List Val} {S : St} {s : Scopes} (h : S.Ok params L s)
    (x : BitVec 32) : (∃ S', Op.op E (.idx .localGet x) S = (.ok (), S')) ↔
    ∃ t, L[x.toNat]? = some t ∧ (x.toNat < params ∨ isDefaultable t = true ∨ x ∈ s.top) := by
  have hop : Op.op E (.idx .localGet x) S = visitLocalGet E x S := rfl
  have hlt : localTy E x S = match S.locals.get E.bs x with
      | some t => (.ok t, S)
      | none => (.error .error, S) := by
    unfold localTy
    rw [bind_ok _ (show getS S = (.ok S, S) from rfl)]
    unfold orError
    cases S.locals.get E.bs x <;> rfl
  rw [hop]
  unfold visitLocalGet
  rw [Locals.rep_get h.rep] at hlt
  cases ht : L[x.toNat]? with
  | none =>
    rw [ht] at hlt
    rw [bind_error _ hlt]
    simp
  | some t =>
    rw [ht] at hlt
    rw [bind_ok _ hlt, bind_ok _ (show getS S = (.ok S, S) from rfl)]
    have hl : x.toNat < L.length := (List.getElem?_eq_some_iff.1 ht).1
    have hbits := h.ini.bits x hl
    have hfirst := h.ini.first x
    have htop := h.ini.scopes.top x
    rw [ht] at hbits hfirst htop
    simp only [Option.any_some] at hbits hfirst htop
    have key : S.inits.isUninit x = some (!(decide (x.toNat < params) || isDefaultable t ||
        decide (x ∈ s.top))) := by
      have hb : S.inits.localInits[x.toNat]? = some (decide (x.toNat < params) ||
          isDefaultable t || decide (x ∈ s.top)) := by
        show S.ini.inits.localInits[x.toNat]? = _
        rw [hbits]
        cases hd : (decide (x.toNat < params) || isDefaultable t) with
        | true => simp
        | false =>
          have : x ∈ s.top ↔ x ∈ S.ini.inits.inits := htop hd
          simp [this]
      unfold LocalInits.isUninit
      split
      · next hlt' =>
        rw [hfirst hlt' hl]
        rfl
      · rw [hb]
        rfl
    rw [key]
    simp only [orPanic, pure_bind, Bool.not_not, Option.some.injEq, exists_eq_left']
    unfold require
    split
    · next hc =>
      rw [Bool.or_eq_true, Bool.or_eq_true, decide_eq_true_eq, decide_eq_true_eq] at hc
      refine ⟨fun _ => ?_, fun _ => ⟨_, rfl⟩⟩
      rcases hc with (h | h) | h
      · exact .inl h
      · exact .inr (.inl h)
      · exact .inr (.inr h)
    · next hc =>
      rw [Bool.or_eq_true, Bool.or_eq_true, decide_eq_true_eq, decide_eq_true_eq] at hc
      constructor
      · rintro ⟨S', h⟩
        cases h
      · rintro (h | h | h)
        · exact absurd (.inl (.inl h)) hc
        · exact absurd (.inl (.inr h)) hc
        · exact absurd (.inr h) hc

/-! ## Declarations -/

/-- Declaring groups of locals. -/
def defineAllLocals (E : Env) (ds : List (BitVec 32 × ValType)) : M Unit :=
  each (fun d => defineLocals E d.1 d.2) ds

/-- Before the first operator. -/
structure St.Pre (params : Nat) (L : List Val) (S : St) : Prop where
  rep : S.locals.Rep L
  params_le : params ≤ L.length
  length : S.inits.localInits.length = L.length
  bits : ∀ x t, L[x]? = some t → S.inits.localInits[x]? = some (decide (x < params) || isDefaultable t)
  inits : S.inits.inits = []
  heights : S.control.map (·.initHeight) = [0]
  first : (S.inits.first = BitVec.allOnes 32 ∧
      ∀ x t, L[x]? = some t → (decide (x < params) || isDefaultable t) = true) ∨
    (S.inits.first.toNat ≤ L.length ∧
      ∀ x t, x < S.inits.first.toNat → L[x]? = some t →
        (decide (x < params) || isDefaultable t) = true)

theorem St.Pre.ok {params : Nat} {L : List Val} {S : St} (h : S.Pre params L) :
    S.Ok params L [[]] := by
  refine ⟨h.rep, h.length, ?_, ?_, ?_, ?_, ?_⟩
  · intro x hx
    show S.inits.localInits[x.toNat]? = some (_ || decide (x ∈ S.inits.inits))
    rw [h.bits x.toNat _ (List.getElem?_eq_getElem hx), h.inits, List.getElem?_eq_getElem hx]
    simp
  · intro x hx
    have : x ∈ S.inits.inits := hx
    rw [h.inits] at this
    cases this
  · intro x hx hl
    rw [List.getElem?_eq_getElem hl]
    rcases h.first with ⟨-, hf⟩ | ⟨-, hf⟩
    · exact hf _ _ (List.getElem?_eq_getElem hl)
    · exact hf _ _ hx (List.getElem?_eq_getElem hl)
  · show S.inits.inits.Nodup
    rw [h.inits]
    exact .nil
  · show ScopesOk _ (S.control.map (·.initHeight)) _ S.inits.inits
    rw [h.heights, h.inits]
    exact ⟨fun _ _ => Iff.rfl, Nat.le_refl _, rfl⟩

theorem rep_defineParams : ∀ (ps : List Val) {l : Locals} {L : List Val}, l.Rep L →
    L.length + ps.length ≤ 50000 → (defineParams ps l).Rep (L ++ ps)
  | [], l, L, h, _ => by simpa [defineParams] using h
  | t :: ps, l, L, h, hl => by
    simp only [List.length_cons] at hl
    have h1 := ((Locals.rep_define h 1 t).1 (by simp; omega)).2
    have h2 := rep_defineParams ps h1 (by simp; omega)
    simpa [defineParams] using h2

theorem newFunc_pre {ty : BitVec 32} {S : St} {sub : TypeList.Spec.SubT Nat} {ps rs : List Val}
    (h : newFunc E ty = .ok S) (hsub : E.R.subTypeAt ty = some sub) (hf : sub.comp = .func ps rs)
    (hl : ps.length ≤ 50000) : S.Pre ps.length ps := by
  unfold newFunc at h
  rw [hsub] at h
  dsimp only at h
  rw [hf] at h
  cases h
  refine ⟨?_, Nat.le_refl _, ?_, ?_, rfl, rfl, .inl ⟨rfl, ?_⟩⟩
  · have := rep_defineParams ps Locals.rep_new (by simpa using hl)
    simpa using this
  · simp [LocalInits.defineParams, LocalInits.new]
  · intro x t hx
    have hlt := (List.getElem?_eq_some_iff.1 hx).1
    simp [LocalInits.defineParams, LocalInits.new, hlt, List.getElem?_replicate]
  · intro x t hx
    have hlt := (List.getElem?_eq_some_iff.1 hx).1
    simp [hlt]

theorem getElem?_append_replicate {L : List Val} {n : Nat} {v : Val} {x : Nat} {t : Val}
    (h : (L ++ List.replicate n v)[x]? = some t) :
    L[x]? = some t ∨ (L.length ≤ x ∧ x < L.length + n ∧ t = v) := by
  rcases Nat.lt_or_ge x L.length with hx | hx
  · rw [List.getElem?_append_left hx] at h
    exact .inl h
  · rw [List.getElem?_append_right hx, List.getElem?_replicate] at h
    split at h
    · cases h
      exact .inr ⟨hx, by omega, rfl⟩
    · cases h

theorem St.Pre.define {params : Nat} {L : List Val} {S S' : St} (h : S.Pre params L)
    {n : BitVec 32} {t : ValType} {v : Val} {S1 : St} {u : Unit}
    (hv : checkValueType E t S = (.ok v, S1)) (hd : defineLocals E n t S = (.ok u, S')) :
    S'.Pre params (L ++ List.replicate n.toNat v) := by
  have hS1 : S1.ini = S.ini := (opOnly_ini inferInstance hv).1
  have hl1 : S1.locals = S.locals := congrArg Ini.locals hS1
  have hi1 : S1.inits = S.inits := congrArg Ini.inits hS1
  have hh1 : S1.control.map (·.initHeight) = [0] := (congrArg Ini.heights hS1).trans h.heights
  unfold defineLocals at hd
  rw [bind_ok _ hv] at hd
  dsimp only at hd
  split at hd
  · next h0 =>
    cases hd
    subst h0
    rw [show List.replicate (BitVec.toNat (0 : BitVec 32)) v = [] from rfl, List.append_nil]
    exact ⟨hl1 ▸ h.rep, h.params_le, hi1 ▸ h.length, hi1 ▸ h.bits, hi1 ▸ h.inits, hh1,
      hi1 ▸ h.first⟩
  · next h0 =>
    dsimp only [bind_def, getS, modifyS, require] at hd
    split at hd
    · next hok =>
      split at hok
      · next hdef =>
        cases hok
        cases hd
        rw [hl1] at hdef
        obtain ⟨hr1, hr2⟩ := Locals.rep_define h.rep n v
        have hle : L.length + n.toNat ≤ 50000 := by
          rcases Nat.lt_or_ge 50000 (L.length + n.toNat) with hgt | hle
          · rw [hr2 (by omega)] at hdef
            cases hdef
          · exact hle
        have hbits : ∀ x w, (L ++ List.replicate n.toNat v)[x]? = some w →
            (S.inits.localInits ++ List.replicate n.toNat (isDefaultable v))[x]? =
              some (decide (x < params) || isDefaultable w) := by
          intro x w hx
          rcases getElem?_append_replicate hx with hx | ⟨hx1, hx2, rfl⟩
          · have hlt := (List.getElem?_eq_some_iff.1 hx).1
            rw [List.getElem?_append_left (by rw [h.length]; exact hlt)]
            exact h.bits x w hx
          · rw [List.getElem?_append_right (by rw [h.length]; exact hx1), h.length,
              List.getElem?_replicate, if_pos (by omega)]
            have := h.params_le
            rw [decide_eq_false (by omega)]
            rfl
        refine ⟨?_, ?_, ?_, ?_, ?_, hh1, ?_⟩
        · show ((S1.locals.define n v).2).Rep _
          rw [hl1]
          exact (hr1 hle).2
        · have := h.params_le
          simp
          omega
        · show (S1.inits.defineLocals n v).localInits.length = _
          rw [hi1]
          simp [LocalInits.defineLocals, h.length]
        · show ∀ x t, _ → (S1.inits.defineLocals n v).localInits[x]? = _
          rw [hi1]
          exact hbits
        · show (S1.inits.defineLocals n v).inits = []
          rw [hi1]
          exact h.inits
        · show ((S1.inits.defineLocals n v).first = _ ∧ _) ∨
            ((S1.inits.defineLocals n v).first.toNat ≤ _ ∧
              ∀ x t, x < (S1.inits.defineLocals n v).first.toNat → _)
          rw [hi1]
          have hall : ∀ {x : Nat} {w : Val}, L[x]? = some w →
              S.inits.first = BitVec.allOnes 32 →
              (decide (x < params) || isDefaultable w) = true := by
            intro x w hx hf
            rcases h.first with ⟨-, hf'⟩ | ⟨hf', -⟩
            · exact hf' x w hx
            · rw [hf] at hf'
              simp only [BitVec.toNat_allOnes] at hf'
              omega
          have hfirst : (S.inits.defineLocals n v).first =
              if !isDefaultable v && S.inits.first == BitVec.allOnes 32 then
                BitVec.ofNat 32 S.inits.localInits.length else S.inits.first := rfl
          rw [hfirst]
          split
          · next hc =>
            simp only [Bool.and_eq_true, beq_iff_eq] at hc
            right
            have hto : (BitVec.ofNat 32 S.inits.localInits.length).toNat = L.length := by
              rw [h.length, BitVec.toNat_ofNat, Nat.mod_eq_of_lt (by omega)]
            rw [hto]
            refine ⟨by simp, fun x w hx hw => ?_⟩
            rcases getElem?_append_replicate hw with hw | ⟨hx1, -, -⟩
            · exact hall hw hc.2
            · omega
          · next hc =>
            rcases h.first with ⟨hf, hf'⟩ | ⟨hf, hf'⟩
            · refine .inl ⟨hf, fun x w hw => ?_⟩
              rcases getElem?_append_replicate hw with hw | ⟨-, -, rfl⟩
              · exact hf' x w hw
              · have : isDefaultable w = true := by simpa [hf] using hc
                rw [this]
                simp
            · refine .inr ⟨by simp; omega, fun x w hx hw => ?_⟩
              rcases getElem?_append_replicate hw with hw | ⟨hx1, -, -⟩
              · exact hf' x w hx hw
              · omega
      · cases hok
    · cases hd

theorem checkValueType_ini {t : ValType} {v : Val} {S S1 : St}
    (h : checkValueType E t S = (.ok v, S1)) (S' : St) :
    ∃ S1', checkValueType E t S' = (.ok v, S1') := by
  have hlift : ∀ {α : Type} (x : Except Fail α) (S : St), lift x S = (x, S) := by
    intro α x S
    cases x <;> rfl
  have horp : ∀ {α : Type} (x : Option α) (S : St), orPanic x S =
      (match x with | some a => .ok a | none => .error .panic, S) := by
    intro α x S
    cases x <;> rfl
  have hfc : ∀ {α : Type} (x : TypeList.M α) (S S' : St),
      (featuresCheck x S).1 = (featuresCheck x S').1 ∧ (featuresCheck x S).2 = S := by
    intro α x S S'
    unfold featuresCheck
    split <;> exact ⟨rfl, rfl⟩
  unfold checkValueType at h ⊢
  obtain ⟨_, S2, h1, h2⟩ := bind_eq_ok h
  obtain ⟨e1, e2⟩ := hfc (TypeList.checkValueType E.f.types t) S' S
  rcases hx : featuresCheck (TypeList.checkValueType E.f.types t) S' with ⟨r, S3⟩
  rw [hx, h1] at e1
  dsimp only at e1
  subst e1
  rw [bind_ok _ hx]
  cases t with
  | ref r =>
    have h2 : (checkRefType E r >>= fun a => pure (.ref a)) S2 = (.ok v, S1) := h2
    obtain ⟨a, S4, h3, h4⟩ := bind_eq_ok h2
    cases h4
    unfold checkRefType at h3
    obtain ⟨ht, S5, h5, h6⟩ := bind_eq_ok h3
    obtain ⟨ht', S6, h7, h8⟩ := bind_eq_ok h6
    rw [horp] at h5 h8
    rw [hlift] at h7
    have hc : E.R.checkHeapType ht = .ok ht' := congrArg Prod.fst h7
    show ∃ S1', (checkRefType E r >>= fun a => pure (TypeList.Spec.Val.ref a)) S3 = _
    unfold checkRefType
    refine ⟨S3, ?_⟩
    have hp : r.heapType = some ht := by
      cases hr : r.heapType with
      | none => rw [hr] at h5; cases h5
      | some x => rw [hr] at h5; cases h5; rfl
    have hm : mkRef r.isNullable ht' = some a := by
      cases hr : mkRef r.isNullable ht' with
      | none => rw [hr] at h8; cases h8
      | some x => rw [hr] at h8; cases h8; rfl
    rw [hp]
    simp only [orPanic, pure_bind, hc, lift, hm]
    rfl
  | _ => cases h2; exact ⟨_, rfl⟩

theorem St.Pre.defineAll : ∀ (ds : List (BitVec 32 × ValType)) (vs : List (BitVec 32 × Val))
    {params : Nat} {L : List Val} {S S' : St} {u : Unit}, S.Pre params L →
    List.Forall₂ (fun d v => d.1 = v.1 ∧ ∃ S1, checkValueType E d.2 S = (.ok v.2, S1)) ds vs →
    defineAllLocals E ds S = (.ok u, S') → S'.Pre params (L ++ expand vs)
  | [], vs, params, L, S, S', u, h, hf, hd => by
    cases hf
    cases hd
    simpa [expand] using h
  | (n, t) :: ds, vs, params, L, S, S', u, h, hf, hd => by
    cases hf with
    | @cons _ v _ vs hv hvs =>
    obtain ⟨n', v⟩ := v
    obtain ⟨hn, S1, hv⟩ := hv
    dsimp only at hn hv
    subst hn
    obtain ⟨_, S2, h1, h2⟩ := bind_eq_ok hd
    have h3 := h.define hv h1
    have h4 := St.Pre.defineAll ds vs h3 (hvs.imp fun a b hab => ⟨hab.1, by
      obtain ⟨S5, h5⟩ := hab.2
      exact checkValueType_ini h5 S2⟩) h2
    simpa [expand, List.append_assoc] using h4

end Verif.Op
