import Verif.Op.TypingComplete
/-! The bodies of functions that are valid are accepted. -/
namespace Verif.Op.View
open Verif.Op.Typing
open Verif.Types (AbsHeap HeapType UnpackedIndex RefType ValType)
open Verif.Instr (FrameKind BlockType MemArg Catch Handle BrTable Operator)
open Verif.TypeList.Spec (Field Storage Comp SubT Decls HeapSub RefSub ValSub StorageSub)

variable {α β : Type} {E : Env} {F : Fn} {B B' B2 : Base} {C : Ctx} {u : Bool}

/-! ### Locals -/

theorem define_complete (h : Sit E F B) {n : BitVec 32} {t : ValType} {v : V} {L : List V}
    (hv : F.C.ValTy t v) (hn : NoExactVal t) (hl : B.locals.Rep L)
    (hlen : L.length + n.toNat ≤ 50000) :
    ∃ l i, defineLocals E n t (st B []) = (.ok (), st { B with locals := l, inits := i } []) ∧
      l.Rep (L ++ List.replicate n.toNat v) := by
  have h1 : checkValueType E t (st B []) = (.ok v, st B []) := ok_checkValueType' h hn hv
  unfold defineLocals
  rw [bind_ok _ h1]
  dsimp only
  split
  · next h0 =>
    subst h0
    exact ⟨B.locals, B.inits, rfl, by simpa using hl⟩
  · obtain ⟨hd1, hd2⟩ := (Locals.rep_define hl n v).1 hlen
    refine ⟨(B.locals.define n v).2, B.inits.defineLocals n v, ?_, hd2⟩
    dsimp only [bind_def, getS, modifyS, require, st]
    rw [hd1]
    rfl

theorem defineAll_complete : ∀ (ds : List (BitVec 32 × ValType)) (vs : List (BitVec 32 × V))
    {B : Base} {L : List V}, Sit E F B →
    List.Forall₂ (fun d v => d.1 = v.1 ∧ F.C.ValTy d.2 v.2) ds vs →
    (∀ d ∈ ds, NoExactVal d.2) → B.locals.Rep L →
    (L ++ InitSpec.expand vs).length ≤ 50000 →
    ∃ S, defineAllLocals E ds (st B []) = (.ok (), S)
  | [], vs, B, L, h, hf, hn, hl, hlen => ⟨_, rfl⟩
  | (n, t) :: ds, vs, B, L, h, hf, hn, hl, hlen => by
    cases hf with
    | @cons _ v _ vs hv hvs =>
    obtain ⟨m, v⟩ := v
    obtain ⟨rfl, hv⟩ := hv
    have he : InitSpec.expand ((n, v) :: vs) = List.replicate n.toNat v ++ InitSpec.expand vs := rfl
    rw [he, ← List.append_assoc] at hlen
    have hle : L.length + n.toNat ≤ 50000 := by
      simp only [List.length_append, List.length_replicate] at hlen
      omega
    obtain ⟨l, i, h1, h2⟩ := define_complete h hv (hn _ (by simp)) hl hle
    obtain ⟨S, h3⟩ := defineAll_complete ds vs (B := { B with locals := l, inits := i })
      (h.withLocals l i) hvs (fun d hd => hn d (by simp [hd])) h2 hlen
    exact ⟨S, (bind_ok _ h1).trans h3⟩

variable {ty : BitVec 32} {sub : SubT Nat} {ps rs : List V}

theorem start_complete (hf : Faithful E.R C) (hc : CtxOk C) (hE : E.f = fullFeatures)
    (hty : C.type ty = some sub) (hcomp : sub.comp = .func ps rs)
    {ds : List (BitVec 32 × ValType)} {vs : List (BitVec 32 × V)}
    (hd : List.Forall₂ (fun d v => d.1 = v.1 ∧ C.ValTy d.2 v.2) ds vs)
    (hn : ∀ d ∈ ds, NoExactVal d.2) (hlen : (ps ++ InitSpec.expand vs).length ≤ 50000) :
    ∃ S0 S1, newFunc E ty = .ok S0 ∧ defineAllLocals E ds S0 = (.ok (), S1) := by
  have hsub : E.R.subTypeAt ty = some sub := (hf.subType ty).trans hty
  obtain ⟨l, i, h0⟩ := newFunc_st hf hty hcomp
  have hpre := newFunc_pre h0 hsub hcomp (by rw [List.length_append] at hlen; omega)
  obtain ⟨S1, h1⟩ := defineAll_complete ds vs (start_sit hf hc hE hty hcomp [] l i) hd hn hpre.rep hlen
  exact ⟨_, S1, h0, h1⟩

/-! ### The end of the body -/

theorem results_func {x : SubT Nat} {S : St} (h : E.R.subTypeAt ty = some x)
    (hx : x.comp = .func ps rs) (hs : S.shared = true → x.shared = true) :
    results E (.func ty) S = (.ok rs, S) := by
  have h1 : subTypeAt E ty S = (.ok x, S) := by
    unfold subTypeAt
    rw [h]
    rfl
  have h2 : requireAccess x.shared S = (.ok (), S) := by
    have h6 : (!(S.shared && !x.shared)) = true := by
      cases hb : S.shared
      · rfl
      · rw [hs hb]; rfl
    show require (!(S.shared && !x.shared)) S = _
    rw [h6]
    rfl
  have h3 : funcTypeAt E ty S = (.ok ⟨ps, rs⟩, S) := by
    unfold funcTypeAt
    rw [bind_ok _ h1, hx]
    exact bind_ok _ h2
  show (funcTypeAt E ty >>= fun t => Pure.pure t.results) S = _
  rw [bind_ok _ h3]
  rfl

theorem pushAll_ok : ∀ (ts : List V) (S : St), ∃ S', pushAll ts S = (.ok (), S')
  | [], S => ⟨S, rfl⟩
  | t :: ts, S => by
    have h : ∃ S1, push t S = (.ok (), S1) := ⟨_, rfl⟩
    obtain ⟨S1, h⟩ := h
    obtain ⟨S2, h2⟩ := pushAll_ok ts S1
    exact ⟨S2, (bind_ok _ h).trans h2⟩

theorem last_end (hs : Sit E F B) (hf : B.frs = []) (hk : B.fr.kind ≠ .if_)
    {n : Nat} {L : List V} {s : InitSpec.Scopes} {c : List MT} (hok : (st B c).Ok n L s)
    (hbt : B.fr.blockType = .func ty) (hF : F.Func ty ps rs)
    (hp : Pops F.C B.fr.unreachable rs.reverse c []) :
    ∃ S, op E .end_ (st B c) = (.ok (), S) ∧ S.control = [] := by
  obtain ⟨rem, l, h1⟩ := popCtrl_some hok
  have htake : ∃ S1 : St, takeFrame (st B []) = (.ok B.fr, S1) ∧ S1.control = [] ∧
      S1.shared = B.shared := by
    unfold takeFrame st
    dsimp only
    rw [h1]
    exact ⟨_, rfl, hf, rfl⟩
  obtain ⟨S1, h2, h3, h4⟩ := htake
  have hbt' : BTIs F B.fr.blockType ps rs := by rw [hbt]; exact hF
  obtain ⟨x, h5, h6, h7⟩ := hF
  have h8 : results E B.fr.blockType S1 = (.ok rs, S1) := by
    rw [hbt]
    refine results_func ((hs.faith.subType ty).trans h5) h6 fun h => h7 ?_
    rw [← hs.shared, ← h4]
    exact h
  obtain ⟨S2, h9⟩ := pushAll_ok rs S1
  refine ⟨S2, ?_, (opOnly_ini inferInstance h9).2.1.trans h3⟩
  have hpl : Plainly .end_ := nofun
  rw [op_full hs.full _ hpl]
  show Run B (visitEnd E) c () S2
  rw [visitEnd_eq, run_popCtrl0 hs hbt']
  refine ⟨hp, ?_⟩
  unfold Run
  rw [bind_ok _ h2, if_neg hk]
  show (results E B.fr.blockType >>= fun rs => pushAll rs) S1 = _
  rw [bind_ok _ h8]
  exact h9

theorem complete_fn (hf : Faithful E.R C) (hc : CtxOk C) (hE : E.f = fullFeatures)
    (hty : C.type ty = some sub) (hcomp : sub.comp = .func ps rs) (hl : ps.length ≤ 50000)
    {ds : List (BitVec 32 × ValType)} {vs : List (BitVec 32 × V)} {os : List Operator}
    {S0 S1 : St} (h0 : newFunc E ty = .ok S0)
    (hd : List.Forall₂ (fun d v => d.1 = v.1 ∧ C.ValTy d.2 v.2) ds vs)
    (h1 : defineAllLocals E ds S0 = (.ok (), S1))
    (hv : Valid (Fn.body C ps rs (InitSpec.expand vs) sub.shared) os)
    (hn : ∀ o ∈ os, Natural o ∧ NoExact o) :
    ∃ S2, runOps E os S1 = (.ok (), S2) ∧ S2.control = [] := by
  obtain ⟨l, i, rfl, hok⟩ := start hf hc hE hty hcomp hl h0 hd h1
  obtain ⟨body, I', rfl, hseq⟩ := hv
  have hsit := start_sit hf hc hE hty hcomp (InitSpec.expand vs) l i
  obtain ⟨B2, c2, h2, hsame, hok2, hle⟩ := complete_seq hseq (fun o h => hn o (by simp [h]))
    _ _ [] [] hsit hok ⟨[], .nil, .nil⟩
  obtain ⟨c3, h3, h4⟩ := pops_fwd (ins := rs) (C := C) (ts := []) hc hle
  cases h4.nil_inv
  obtain ⟨S, h5, h6⟩ := last_end (hsit.same hsame) hsame.frs (by rw [hsame.kind]; nofun) hok2
    hsame.blockType (start_func hty hcomp _) h3
  exact ⟨S, runOps_append' h2 (one_ok h5), h6⟩

end Verif.Op.View
