import Verif.Op.ArityOps
import Verif.Op.Reach
/-! The arity of the operators that change the frames, and all together. -/
namespace Verif.Op.AritySpec
open Verif.Op
open Verif.Types (AbsHeap HeapType RefType ValType)
open Verif.Instr (FrameKind BlockType MemArg Catch Handle BrTable Operator)
open Verif.TypeList.Spec (Field Storage Comp SubT)

/-- Frames begin where the operands of the frames around them end. -/
def Nested (S : St) : Prop :=
  (S.operands.length :: S.control.map Frame.height).Pairwise (· ≥ ·)

theorem Nested.top {S : St} {fr : Frame} {rest : List Frame} (h : Nested S)
    (hc : S.control = fr :: rest) : fr.height ≤ S.operands.length := by
  unfold Nested at h
  rw [hc] at h
  exact (List.pairwise_cons.1 h).1 _ List.mem_cons_self

theorem Nested.pop {S S' : St} {fr : Frame} {rest : List Frame} (h : Nested S)
    (hc : S.control = fr :: rest) (hc' : S'.control.map Frame.height = rest.map Frame.height)
    (hl : fr.height ≤ S'.operands.length) : Nested S' := by
  unfold Nested at *
  rw [hc']
  rw [hc] at h
  have h1 := (List.pairwise_cons.1 h).2
  rw [List.map_cons] at h1
  obtain ⟨h2, h3⟩ := List.pairwise_cons.1 h1
  exact List.pairwise_cons.2 ⟨fun x hx => Nat.le_trans (h2 x hx) hl, h3⟩

theorem Nested.same {S S' : St} {fr fr' : Frame} {rest : List Frame} (h : Nested S)
    (hc : S.control = fr :: rest) (hc' : S'.control = fr' :: rest) (hh : fr'.height = fr.height)
    (hl : fr.height ≤ S'.operands.length) : Nested S' := by
  unfold Nested at *
  rw [hc', List.map_cons, hh]
  rw [hc, List.map_cons] at h
  obtain ⟨h1, h2⟩ := List.pairwise_cons.1 h
  refine List.pairwise_cons.2 ⟨fun x hx => ?_, h2⟩
  rcases List.mem_cons.1 hx with rfl | hx
  · exact hl
  · exact Nat.le_trans ((List.pairwise_cons.1 h2).1 x hx) hl

theorem Nested.push {S S' : St} {fr : Frame} (h : Nested S) (hc : S'.control = fr :: S.control)
    (hh : fr.height = S.operands.length) (hl : S.operands.length ≤ S'.operands.length) :
    Nested S' := by
  unfold Nested at *
  rw [hc, List.map_cons, hh]
  refine List.pairwise_cons.2 ⟨fun x hx => ?_, h⟩
  rcases List.mem_cons.1 hx with rfl | hx
  · exact hl
  · exact Nat.le_trans ((List.pairwise_cons.1 h).1 x hx) hl

/-- What an accepted operator with arity `r` does. -/
structure Did (st : Bool) (r : Ar (Nat × Nat)) (fr : Frame) (S S' : St) : Prop where
  nested : Nested S'
  arity : ∃ a b S1, r = .ok (a, b) ∧
    Moves fr.unreachable (S.operands.length - fr.height) a b S S1 ∧
    (st = true → b = 0 ∧ S1.control = S.control) ∧ Fin st S1 S'

section
variable {S S' : St} {fr : Frame} {rest : List Frame}

theorem Moves.leaves {u : Bool} {a b : Nat}
    (hm : Moves u (S.operands.length - fr.height) a b S S')
    (hl : fr.height ≤ S.operands.length) : fr.height ≤ S'.operands.length := by
  have := hm.length
  omega

theorem did_false {m : M Unit} {r : Ar (Nat × Nat)}
    (h : Agr false (fr :: rest) m fun a b => r = .ok (a, b))
    (hn : Nested S) (hc : S.control = fr :: rest) (hm : m S = (.ok (), S')) :
    Did false r fr S S' := by
  obtain ⟨a, b, S1, hp, hc1, hmv, hf⟩ := h S () S' fr rest hc rfl (hn.top hc) hm
  cases (hf : S' = S1)
  exact ⟨hn.same hc (hc1.trans hc) rfl (hmv.leaves (hn.top hc)), a, b, S', hp, hmv, nofun, rfl⟩

theorem unreachable_inv (hc : S.control = fr :: rest) (h : unreachable S = (.ok (), S')) :
    S'.control = { fr with unreachable := true } :: rest ∧ fr.height ≤ S.operands.length ∧
      S'.operands = S.operands.drop (S.operands.length - fr.height) := by
  unfold unreachable at h
  rw [hc] at h
  dsimp only at h
  split at h
  · next hl =>
    cases h
    exact ⟨rfl, hl, rfl⟩
  · cases h

theorem did_true {m : M Unit} {r : Ar (Nat × Nat)}
    (h : Agr true (fr :: rest) m fun a b => r = .ok (a, b)) (hr : ∀ a b, r = .ok (a, b) → b = 0)
    (hn : Nested S) (hc : S.control = fr :: rest) (hm : m S = (.ok (), S')) :
    Did true r fr S S' := by
  obtain ⟨a, b, S1, hp, hc1, hmv, hf⟩ := h S () S' fr rest hc rfl (hn.top hc) hm
  obtain ⟨h1, h2, h3⟩ := unreachable_inv (hc1.trans hc) hf
  refine ⟨hn.same hc h1 rfl ?_, a, b, S1, hp, hmv, fun _ => ⟨hr a b hp, hc1⟩, hf⟩
  rw [h3, List.length_drop]
  omega

end

/-! ### Frames -/

section
variable (E : Env)

theorem pushAll_moves : ∀ (ts : List Val) (S S' : St), pushAll ts S = (.ok (), S') →
    S'.control = S.control ∧ ∀ u h, Moves u h 0 ts.length S S'
  | [], S, S', hr => by
    cases hr
    exact ⟨rfl, fun _ _ => .refl⟩
  | t :: ts, S, S', hr => by
    obtain ⟨_, S1, h1, h2⟩ := bind_inv (m := push t) hr
    have hp : S1.control = S.control ∧ ∀ u h, Moves u h 0 1 S S1 := by
      cases h1
      refine ⟨rfl, fun u h => ⟨fun _ => Nat.zero_le _, ⟨[.known t], rfl, by simp [St.recordPush]⟩,
        fun L hL => ?_⟩⟩
      refine ⟨[none], { L with operands := none :: L.operands }, ?_, rfl, fun _ => rfl⟩
      show Option.map _ S.log = _
      rw [hL]
      rfl
    obtain ⟨c2, m2⟩ := pushAll_moves ts S1 S' h2
    refine ⟨c2.trans hp.1, fun u h => Moves.cast ((hp.2 u h).trans (m2 u _)) (by omega) ?_⟩
    simp only [List.length_cons]
    omega

theorem pushBare_moves {k : FrameKind} {bt : BT} {S S' : St}
    (h : pushBareCtrl k bt S = (.ok (), S')) :
    (∃ n, S'.control = ⟨k, bt, S.operands.length, false, n⟩ :: S.control) ∧
      S'.operands = S.operands ∧ ∀ u h, Moves u h 0 0 S S' := by
  cases h
  refine ⟨⟨_, rfl⟩, rfl, fun u h => .same rfl fun L hL => ?_⟩
  exact ⟨{ L with frames := none :: L.frames }, by show Option.map _ S.log = _; rw [hL]; rfl, rfl⟩

variable {E}

theorem pushCtrl_moves {k : FrameKind} {bt : BT} {S S' : St}
    (h : pushCtrl E k bt S = (.ok (), S')) :
    ∃ ps rs n, frameArity E bt = .ok (ps, rs) ∧
      S'.control = ⟨k, bt, S.operands.length, false, n⟩ :: S.control ∧
      ∀ u h, Moves u h 0 ps S S' := by
  obtain ⟨_, S1, h1, h2⟩ := bind_inv (m := pushBareCtrl k bt) h
  obtain ⟨ps, S2, h3, h4⟩ := bind_inv h2
  have he := (inferInstance : Reads (params E bt)).spec S1
  rw [h3] at he
  dsimp only at he
  subst he
  obtain ⟨⟨n, hc⟩, -, hm⟩ := pushBare_moves h1
  obtain ⟨rs, hrs⟩ := gives_params E S2.control bt S2 ps S2 rfl h3
  obtain ⟨hc', hm'⟩ := pushAll_moves ps S2 S' h4
  exact ⟨_, rs, n, hrs, hc'.trans hc, fun u h =>
    Moves.cast ((hm u h).trans (hm' u _)) (by omega) (by omega)⟩

theorem takeFrame_moves {S S' : St} {fr fr' : Frame} {rest : List Frame}
    (hc : S.control = fr :: rest) (h : takeFrame S = (.ok fr', S')) :
    fr' = fr ∧ S'.control = rest ∧ S'.operands = S.operands ∧ ∀ u h, Moves u h 0 0 S S' := by
  unfold takeFrame at h
  rw [hc] at h
  dsimp only at h
  split at h
  · cases h
  · next removed inits _ =>
    cases h
    refine ⟨rfl, rfl, rfl, fun u h => .same rfl fun L hL => ?_⟩
    exact ⟨{ L with frames := some fr :: L.frames, inits := L.inits ++ removed },
      by show Option.map _ S.log = _; rw [hL]; rfl, rfl⟩

theorem popCtrl_moves {S S' : St} {fr fr' : Frame} {rest : List Frame}
    (hc : S.control = fr :: rest) (hl : fr.height ≤ S.operands.length)
    (h : popCtrl E S = (.ok fr', S')) :
    fr' = fr ∧ ∃ ps rs, frameArity E fr.blockType = .ok (ps, rs) ∧ S'.control = rest ∧
      S'.operands.length = fr.height ∧
      Moves fr.unreachable (S.operands.length - fr.height) rs 0 S S' := by
  unfold popCtrl at h
  obtain ⟨fr0, S1, h1, h2⟩ := bind_inv h
  obtain ⟨rs, S2, h3, h4⟩ := bind_inv h2
  obtain ⟨_, S3, h5, h6⟩ := bind_inv h4
  obtain ⟨S4, S5, h7, h8⟩ := bind_inv h6
  obtain ⟨_, S6, h9, h10⟩ := bind_inv h8
  cases h7
  have hf : fr0 = fr ∧ S1 = S := by
    unfold topFrame at h1
    obtain ⟨S7, S8, e1, e2⟩ := bind_inv h1
    cases e1
    rw [hc] at e2
    cases e2
    exact ⟨rfl, rfl⟩
  obtain ⟨rfl, rfl⟩ := hf
  have he := (inferInstance : Reads (results E fr0.blockType)).spec S1
  rw [h3] at he
  dsimp only at he
  subst he
  obtain ⟨ps, hps⟩ := gives_results E S2.control _ S2 rs S2 rfl h3
  obtain ⟨c1, m1⟩ := (inferInstance : Eff (popAll E rs) rs.length 0).spec S2 _ S3 fr0 rest hc hl h5
  have hlen := Gives.require (c := S3.control) _ S3 _ S6 rfl h9
  have he := (inferInstance : Reads (require (S3.operands.length == fr0.height))).spec S3
  rw [h9] at he
  dsimp only at he
  subst he
  obtain ⟨rfl, c2, o2, m2⟩ := takeFrame_moves (c1.trans hc) h10
  refine ⟨rfl, ps, _, hps, c2, ?_, Moves.cast (m1.trans (m2 _ _)) (by omega) (by omega)⟩
  rw [o2]
  simpa using hlen

variable {S S' : St} {fr : Frame} {rest : List Frame}

theorem arEnd_eq {ps rs : Nat} (h : frameArity E fr.blockType = .ok (ps, rs)) :
    arEnd E (fr :: rest) = .ok (rs, rs) := by
  show (frameArity E fr.blockType >>= _) = _
  rw [h]
  rfl

theorem did_block {k : FrameKind} {n : Nat} {r : Ar (Nat × Nat)} {bt : BT} (hn : Nested S) (hc : S.control = fr :: rest)
    {S1 : St} (hm1 : Moves fr.unreachable (S.operands.length - fr.height) n 0 S S1)
    (hc1 : S1.control = S.control)
    (h : pushCtrl E k bt S1 = (.ok (), S'))
    (hr : ∀ ps rs, frameArity E bt = .ok (ps, rs) → r = .ok (n, ps)) :
    Did false r fr S S' := by
  obtain ⟨ps, rs, i, ha, hc2, hm2⟩ := pushCtrl_moves h
  have hl := hm1.leaves (hn.top hc)
  have hn1 : Nested S1 := hn.same hc (hc1.trans hc) rfl hl
  have hlen := (hm2 true 0).length
  refine ⟨hn1.push hc2 rfl (by omega), n, ps, S', hr ps rs ha, ?_, nofun, rfl⟩
  exact Moves.cast (hm1.trans (hm2 _ _)) (by omega) (by omega)

/-- What comes after a computation that leaves the frames alone. -/
theorem did_after {m : M Unit} {k : FrameKind} {n : Nat} {r : Ar (Nat × Nat)} {bt : BT}
    [hm : Eff m n 0] {S0 : St} (hn : Nested S) (hc : S.control = fr :: rest)
    (h1 : m S = (.ok (), S0)) (h : pushCtrl E k bt S0 = (.ok (), S'))
    (hr : ∀ ps rs, frameArity E bt = .ok (ps, rs) → r = .ok (n, ps)) :
    Did false r fr S S' := by
  obtain ⟨c1, m1⟩ := hm.spec S () S0 fr rest hc (hn.top hc) h1
  exact did_block hn hc m1 c1 h hr

theorem read_inv {α β : Type} {m : M α} [hm : Reads m] {k : α → M β} {y : β} {Q : α → Prop}
    (h : (m >>= k) S = (.ok y, S')) (hg : Gives S.control m Q) :
    ∃ x, Q x ∧ k x S = (.ok y, S') := by
  obtain ⟨x, S1, h1, h2⟩ := bind_inv h
  have he := hm.spec S
  rw [h1] at he
  dsimp only at he
  subst he
  exact ⟨x, hg _ x _ rfl h1, h2⟩

theorem did_visitBlock {k : FrameKind} {ty : BlockType} (hn : Nested S)
    (hc : S.control = fr :: rest) (h : visitBlock E k ty S = (.ok (), S')) :
    Did false (arBlock E ty) fr S S' := by
  obtain ⟨bt, hbt, h1⟩ := read_inv h (gives_checkBlockType E _ ty)
  obtain ⟨ps, ⟨rs, hps⟩, h2⟩ := read_inv h1 (gives_params E _ bt)
  obtain ⟨_, S1, h3, h4⟩ := bind_inv h2
  refine did_after hn hc h3 h4 fun ps' rs' ha => ?_
  rw [hps] at ha
  cases ha
  unfold arBlock
  rw [hbt, hps]
  rfl

theorem did_visitIf {ty : BlockType} (hn : Nested S)
    (hc : S.control = fr :: rest) (h : visitIf E ty S = (.ok (), S')) :
    Did false (arIf E ty) fr S S' := by
  obtain ⟨bt, hbt, h1⟩ := read_inv h (gives_checkBlockType E _ ty)
  obtain ⟨_, S0, h0, h1⟩ := bind_inv h1
  obtain ⟨ps, ⟨rs, hps⟩, h2⟩ := read_inv h1 (gives_params E _ bt)
  obtain ⟨_, S1, h3, h4⟩ := bind_inv h2
  have he : Eff (popT E .i32 >>= fun _ => popAll E ps) (ps.length + 1) 0 :=
    Eff.castBind (inferInstance : Eff (popT E .i32) 1 0) (fun _ => inferInstance)
      (by omega) (by omega)
  refine did_after (m := popT E .i32 >>= fun _ => popAll E ps) hn hc ?_ h4 fun ps' rs' ha => ?_
  · rw [bind_def, h0]
    exact h3
  rw [hps] at ha
  cases ha
  unfold arIf arBlock
  rw [hbt, hps]
  rfl

theorem did_visitTryTable {ty : BlockType} {cs : List Catch} (hn : Nested S)
    (hc : S.control = fr :: rest) (h : visitTryTable E ty cs S = (.ok (), S')) :
    Did false (arBlock E ty) fr S S' := by
  obtain ⟨bt, hbt, h1⟩ := read_inv h (gives_checkBlockType E _ ty)
  obtain ⟨ps, ⟨rs, hps⟩, h2⟩ := read_inv h1 (gives_params E _ bt)
  obtain ⟨_, S1, h3, h4⟩ := bind_inv h2
  obtain ⟨_, S2, h5, h6⟩ := bind_inv h4
  have he : Eff (popAll E ps >>= fun _ => each (checkCatch E) cs) ps.length 0 :=
    Eff.castBind (inferInstance : Eff (popAll E ps) ps.length 0) (fun _ => inferInstance)
      (by omega) (by omega)
  refine did_after (m := popAll E ps >>= fun _ => each (checkCatch E) cs) hn hc ?_ h6
    fun ps' rs' ha => ?_
  · rw [bind_def, h3]
    exact h5
  rw [hps] at ha
  cases ha
  unfold arBlock
  rw [hbt, hps]
  rfl

theorem did_visitElse (hn : Nested S)
    (hc : S.control = fr :: rest) (h : visitElse E S = (.ok (), S')) :
    Did false (arElse E (fr :: rest)) fr S S' := by
  obtain ⟨fr', S1, h1, h2⟩ := bind_inv h
  obtain ⟨rfl, ps, rs, ha, c1, l1, m1⟩ := popCtrl_moves hc (hn.top hc) h1
  obtain ⟨ps', rs', i, ha', c2, m2⟩ := pushCtrl_moves h2
  rw [ha] at ha'
  cases ha'
  have hn1 : Nested S1 := hn.pop hc (by rw [c1]) (by omega)
  have hlen := (m2 true 0).length
  refine ⟨hn1.push c2 rfl (by omega), rs, ps, S', ?_, ?_, nofun, rfl⟩
  · show (frameArity E fr'.blockType >>= _) = _
    rw [ha]
    rfl
  · exact Moves.cast (m1.trans (m2 _ _)) (by omega) (by omega)

theorem did_pushAll {r : Ar (Nat × Nat)} {S1 : St} {rs : Nat} {ts : List Val} (hn : Nested S)
    (hc : S.control = fr :: rest) (c1 : S1.control = rest)
    (l1 : S1.operands.length = fr.height)
    (m1 : Moves fr.unreachable (S.operands.length - fr.height) rs 0 S S1)
    (h : pushAll ts S1 = (.ok (), S')) (hr : r = .ok (rs, ts.length)) : Did false r fr S S' := by
  obtain ⟨c2, m2⟩ := pushAll_moves ts S1 S' h
  have hlen := (m2 true 0).length
  refine ⟨hn.pop hc (by rw [c2, c1]) (by omega), rs, ts.length, S', hr, ?_, nofun, rfl⟩
  exact Moves.cast (m1.trans (m2 _ _)) (by omega) (by omega)

theorem endIf_moves {S1 S2 : St} {fr' : Frame} {ps rs : Nat}
    (ha : frameArity E fr.blockType = .ok (ps, rs)) (h : endIf E fr S1 = (.ok fr', S2)) :
    fr'.blockType = fr.blockType ∧ S2.control = S1.control ∧
      S2.operands.length = S1.operands.length ∧ ∀ u h, Moves u h 0 0 S1 S2 := by
  obtain ⟨_, S3, h1, h2⟩ := bind_inv h
  obtain ⟨ps', rs', i, ha', c1, m1⟩ := pushCtrl_moves h1
  rw [ha] at ha'
  cases ha'
  have l1 := (m1 true 0).length
  obtain ⟨rfl, ps', rs', ha', c2, l2, m2⟩ := popCtrl_moves c1 (by dsimp only; omega) h2
  rw [ha] at ha'
  cases ha'
  have l3 := m2.length
  have he := m2.enough rfl
  dsimp only at l2 he m2 l3
  refine ⟨rfl, c2, l2, fun u h => ?_⟩
  have m3 := m2.widen (h' := h - 0 + ps) (by omega) u
  exact Moves.cast ((m1 u h).trans m3) (by omega) (by omega)

theorem did_visitEnd (hn : Nested S)
    (hc : S.control = fr :: rest) (h : visitEnd E S = (.ok (), S')) :
    Did false (arEnd E (fr :: rest)) fr S S' := by
  unfold visitEnd at h
  obtain ⟨fr', S1, h1, h2⟩ := bind_inv h
  obtain ⟨rfl, ps, rs, ha, c1, l1, m1⟩ := popCtrl_moves hc (hn.top hc) h1
  have hmid : ∃ (fr2 : Frame) (S2 : St), (fr2.blockType = fr'.blockType ∧
      S2.control = S1.control ∧ S2.operands.length = S1.operands.length ∧
      ∀ u h, Moves u h 0 0 S1 S2) ∧
      (results E fr2.blockType >>= pushAll) S2 = (.ok (), S') := by
    dsimp only at h2
    split at h2
    · obtain ⟨fr2, S2, h3, h4⟩ := bind_inv h2
      exact ⟨fr2, S2, endIf_moves ha h3, h4⟩
    · obtain ⟨fr2, S2, h3, h4⟩ := bind_inv h2
      cases h3
      exact ⟨_, _, ⟨rfl, rfl, rfl, fun _ _ => .refl⟩, h4⟩
  obtain ⟨fr2, S2, hmid, h4⟩ := hmid
  obtain ⟨hb, c2, l2, m2⟩ := hmid
  obtain ⟨ts, ⟨ps', hts⟩, h5⟩ := read_inv h4 (gives_results E _ _)
  rw [hb, ha] at hts
  cases hts
  exact did_pushAll hn hc (c2.trans c1) (l2.trans l1)
    (Moves.cast (m1.trans (m2 _ _)) (by omega) (by omega)) h5 (arEnd_eq ha)

theorem did_visitDelegate {d : BitVec 32} (hn : Nested S)
    (hc : S.control = fr :: rest) (h : visitDelegate E d S = (.ok (), S')) :
    Did false (arEnd E (fr :: rest)) fr S S' := by
  unfold visitDelegate at h
  obtain ⟨fr', S1, h1, h2⟩ := bind_inv h
  obtain ⟨rfl, ps, rs, ha, c1, l1, m1⟩ := popCtrl_moves hc (hn.top hc) h1
  obtain ⟨_, -, h4⟩ := read_inv h2 Gives.any
  obtain ⟨ts, ⟨ps', hts⟩, h5⟩ := read_inv h4 (gives_results E _ _)
  rw [ha] at hts
  cases hts
  exact did_pushAll hn hc c1 l1 m1 h5 (arEnd_eq ha)

theorem did_visitCatch {t : BitVec 32} (hn : Nested S)
    (hc : S.control = fr :: rest) (h : visitCatch E t S = (.ok (), S')) :
    Did false (arCatch E (fr :: rest) t) fr S S' := by
  unfold visitCatch at h
  obtain ⟨fr', S1, h1, h2⟩ := bind_inv h
  obtain ⟨rfl, ps, rs, ha, c1, l1, m1⟩ := popCtrl_moves hc (hn.top hc) h1
  obtain ⟨_, S2, h3, h4⟩ := bind_inv h2
  obtain ⟨⟨n, c2⟩, o2, m2⟩ := pushBare_moves h3
  obtain ⟨ty, hty, h5⟩ := read_inv h4 (gives_exceptionTagAt E _ t)
  obtain ⟨c3, m3⟩ := pushAll_moves _ S2 S' h5
  have hn1 : Nested S1 := hn.pop hc (by rw [c1]) (by omega)
  have hlen := (m3 true 0).length
  refine ⟨hn1.push (c3.trans c2) rfl (by rw [o2] at hlen; omega), rs, ty.params.length, S', ?_, ?_,
    nofun, rfl⟩
  · unfold arCatch
    rw [arEnd_eq ha]
    show (tagTypeArity E t >>= _) = _
    rw [hty]
    rfl
  · exact Moves.cast ((m1.trans (m2 _ _)).trans (m3 _ _)) (by omega) (by omega)

theorem did_visitCatchAll (hn : Nested S)
    (hc : S.control = fr :: rest) (h : visitCatchAll E S = (.ok (), S')) :
    Did false (arCatchAll E (fr :: rest)) fr S S' := by
  unfold visitCatchAll at h
  obtain ⟨fr', S1, h1, h2⟩ := bind_inv h
  obtain ⟨rfl, ps, rs, ha, c1, l1, m1⟩ := popCtrl_moves hc (hn.top hc) h1
  obtain ⟨⟨n, c2⟩, o2, m2⟩ := pushBare_moves h2
  have hn1 : Nested S1 := hn.pop hc (by rw [c1]) (by omega)
  refine ⟨hn1.push c2 rfl (by rw [o2]; exact Nat.le_refl _), rs, 0, S', ?_, ?_, nofun, rfl⟩
  · unfold arCatchAll
    rw [arEnd_eq ha]
    rfl
  · exact Moves.cast (m1.trans (m2 _ _)) (by omega) (by omega)

/-! ### All operators -/

theorem arReturn_zero {c : List Frame} {a b : Nat} (h : arReturn E c = .ok (a, b)) : b = 0 := by
  unfold arReturn at h
  split at h
  · cases h
  · cases hl : labelBlock c (c.length - 1) with
    | error e => rw [hl] at h; cases h
    | ok fr =>
      rw [hl] at h
      change (frameArity E fr.blockType >>= _) = _ at h
      rcases hf : frameArity E fr.blockType with e | ⟨p, q⟩
      · rw [hf] at h; cases h
      · rw [hf] at h
        cases h
        rfl

theorem arBr_zero {c : List Frame} {d : BitVec 32} {a b : Nat}
    (h : arBr E c d = .ok (a, b)) : b = 0 := by
  unfold arBr at h
  cases hl : labelBlock c d.toNat with
  | error e => rw [hl] at h; cases h
  | ok fr =>
    rw [hl] at h
    change (frameArity E fr.blockType >>= _) = _ at h
    rcases hf : frameArity E fr.blockType with e | ⟨p, q⟩
    · rw [hf] at h; cases h
    · rw [hf] at h
      cases h
      rfl

theorem pair_zero {r : Ar (Nat × Nat)} {a b : Nat}
    (h : (do let (ps, _) ← r; pure (ps, 0)) = (.ok (a, b) : Ar (Nat × Nat))) : b = 0 := by
  rcases r with e | ⟨p, q⟩
  · cases h
  · cases h
    rfl

theorem did_eff {m : M Unit} {p : Nat × Nat} (he : Eff m p.1 p.2) (hn : Nested S)
    (hc : S.control = fr :: rest) (h : m S = (.ok (), S')) :
    Did false (.ok p) fr S S' :=
  did_false (Agr.last (h := he) rfl) hn hc h

theorem did_plain (o : Instr.Plain) (hn : Nested S) (hc : S.control = fr :: rest)
    (h : runPlain E (plainBody o) S = (.ok (), S')) :
    Did (stops (.plain o)) (arPlain E (fr :: rest) o) fr S S' := by
  cases hp : plainNumbers (plainBody o) with
  | some p =>
    have h1 := plainArity_eq o p hp
    have hs : stops (.plain o) = false := by
      cases o <;> first
        | rfl
        | cases hp
    have h2 : arPlain E (fr :: rest) o = .ok p := by
      unfold arPlain
      rw [h1]
    rw [hs, h2]
    exact did_eff (eff_runPlain E _ p hp) hn hc h
  | none =>
    have ho : o = .unreachable ∨ o = .return_ ∨ o = .throwRef := by
      cases o <;> first
        | exact .inl rfl
        | exact .inr (.inl rfl)
        | exact .inr (.inr rfl)
        | cases hp
    rcases ho with rfl | rfl | rfl
    · exact did_true (r := .ok (0, 0)) (m := unreachable) (Agr.halt rfl)
        (fun a b h => by cases h; rfl) hn hc h
    · exact did_true (r := arReturn E (fr :: rest)) (agr_checkReturn E _)
        (fun a b h => arReturn_zero h) hn hc h
    · exact did_true (r := .ok (1, 0)) (agr_throwRef E _)
        (fun a b h => by cases h; rfl) hn hc h

theorem did_idx (o : Instr.Idx) (i : BitVec 32) (hn : Nested S) (hc : S.control = fr :: rest)
    (h : visitIdx E o i S = (.ok (), S')) :
    Did (stops (.idx o i)) (arIdx E (fr :: rest) o i) fr S S' := by
  cases hp : idxArity o with
  | some p =>
    by_cases hr : o = .rethrow
    · subst hr
      exact did_true (r := .ok (0, 0)) (agr_rethrow _ i) (fun a b h => by cases h; rfl) hn hc h
    have hs : stops (.idx o i) = false := by
      cases o <;> first
        | rfl
        | cases hp; done
        | exact absurd rfl hr
    have h2 : arIdx E (fr :: rest) o i = .ok p := by
      unfold arIdx
      rw [hp]
    rw [hs, h2]
    exact did_eff (eff_visitIdx E o i p hr hp) hn hc h
  | none =>
    cases o <;> first
      | cases hp; done
      | exact did_true (agr_br E _ i) (fun a b h => arBr_zero h) hn hc h
      | exact did_false (agr_brIf E _ i) hn hc h
      | exact did_false (agr_brOnNull E _ i) hn hc h
      | exact did_false (agr_brOnNonNull E _ i) hn hc h
      | exact did_false (agr_call E _ i) hn hc h
      | exact did_false (agr_callRef E _ i) hn hc h
      | exact did_true (agr_returnCallRef E _ i) (fun a b h => pair_zero h) hn hc h
      | exact did_true (agr_returnCall E _ i) (fun a b h => pair_zero h) hn hc h
      | exact did_true (agr_throw E _ i) (fun a b h => pair_zero h) hn hc h
      | exact did_false (agr_structNew E _ i) hn hc h
      | exact did_false (agr_structNewDesc E _ i) hn hc h
      | exact did_false (agr_suspend E _ i) hn hc h

theorem did_idx2 (o : Instr.Idx2) (i j : BitVec 32) (hn : Nested S) (hc : S.control = fr :: rest)
    (h : visitIdx2 E o i j S = (.ok (), S')) :
    Did false (arIdx2 E o i j) fr S S' := by
  cases hp : idx2Arity o with
  | some p =>
    have h2 : arIdx2 E o i j = .ok p := by
      unfold arIdx2
      rw [hp]
    rw [h2]
    exact did_eff (eff_visitIdx2 E o i j p hp) hn hc h
  | none =>
    cases o <;> first
      | cases hp; done
      | exact did_eff (p := (j.toNat, 1)) (inferInstance : Eff (visitArrayNewFixed E i j) _ _) hn hc h
      | exact did_false (agr_contBind E _ i j) hn hc h
      | exact did_false (agr_switch E _ i j) hn hc h

theorem arBrTable_zero {c : List Frame} {t : BrTable} {a b : Nat}
    (h : arBrTable E c t = .ok (a, b)) : b = 0 := by
  unfold arBrTable at h
  rcases hb : arBr E c t.default with e | ⟨p, q⟩
  · rw [hb] at h; cases h
  · rw [hb] at h
    have := arBr_zero hb
    cases h
    exact this

theorem did_visit (o : Operator) (hn : Nested S) (hc : S.control = fr :: rest)
    (h : visit E o S = (.ok (), S')) :
    Did (stops o) (operatorArity E (fr :: rest) o) fr S S' := by
  cases o with
  | plain o => exact did_plain o hn hc h
  | else_ => exact did_visitElse hn hc h
  | end_ => exact did_visitEnd hn hc h
  | catchAll => exact did_visitCatchAll hn hc h
  | atomicFence =>
    exact did_eff (m := pure ()) (p := (0, 0)) (inferInstance : Eff (pure () : M Unit) 0 0) hn hc h
  | block o ty =>
    cases o with
    | block => exact did_visitBlock hn hc h
    | loop => exact did_visitBlock hn hc h
    | if_ => exact did_visitIf hn hc h
    | try_ => exact did_visitBlock hn hc h
  | tryTable ty cs => exact did_visitTryTable hn hc h
  | idx o i => exact did_idx o i hn hc h
  | catch_ t => exact did_visitCatch hn hc h
  | delegate d => exact did_visitDelegate hn hc h
  | memorySize i =>
    exact did_eff (p := (0, 1)) (inferInstance : Eff (visitMemorySize E i) 0 1) hn hc h
  | memoryGrow i =>
    exact did_eff (p := (1, 1)) (inferInstance : Eff (visitMemoryGrow E i) 1 1) hn hc h
  | idx2 o i j => exact did_idx2 o i j hn hc h
  | callIndirect i j => exact did_false (agr_callIndirect E _ i j) hn hc h
  | returnCallIndirect i j =>
    exact did_true (agr_returnCallIndirect E _ i j) (fun a b h => pair_zero h) hn hc h
  | memoryInit i j =>
    exact did_eff (p := (3, 0)) (inferInstance : Eff (visitMemoryInit E i j) 3 0) hn hc h
  | tableInit i j =>
    exact did_eff (p := (3, 0)) (inferInstance : Eff (visitTableInit E i j) 3 0) hn hc h
  | brTable t => exact did_true (agr_brTable E _ t) (fun a b h => arBrTable_zero h) hn hc h
  | mem o m =>
    show Did false (.ok (memArity o)) fr S S'
    rw [memArity_eq]
    exact did_eff (eff_runMem E m _) hn hc h
  | memLane o m l =>
    show Did false (.ok (memLaneArity o)) fr S S'
    rw [memLaneArity_eq]
    exact did_eff (eff_runMemLane E m l _) hn hc h
  | lane o l =>
    show Did false (.ok (laneArity o)) fr S S'
    rw [laneArity_eq]
    exact did_eff (eff_runLane E l _) hn hc h
  | i8x16Shuffle ls =>
    exact did_eff (p := (2, 1)) (inferInstance : Eff (visitShuffle E ls) 2 1) hn hc h
  | heap o t => exact did_eff (eff_visitHeap E o t) hn hc h
  | cast o d f t => exact did_false (agr_cast E _ o d f t) hn hc h
  | atomic o ord i => exact did_eff (eff_visitAtomic E o i) hn hc h
  | atomic2 o ord i j => exact did_eff (eff_visitAtomic2 E o i j) hn hc h
  | i32Const _ => exact did_eff (p := (0, 1)) (inferInstance : Eff (push .i32) 0 1) hn hc h
  | i64Const _ => exact did_eff (p := (0, 1)) (inferInstance : Eff (push .i64) 0 1) hn hc h
  | f32Const _ =>
    have he : Eff (checkFloatsEnabled E >>= fun _ => push .f32) 0 1 := by eff
    exact did_eff (p := (0, 1)) he hn hc h
  | f64Const _ =>
    have he : Eff (checkFloatsEnabled E >>= fun _ => push .f64) 0 1 := by eff
    exact did_eff (p := (0, 1)) he hn hc h
  | v128Const _ => exact did_eff (p := (0, 1)) (inferInstance : Eff (push .v128) 0 1) hn hc h
  | typedSelect t =>
    exact did_eff (p := (3, 1)) (inferInstance : Eff (visitTypedSelect E t) 3 1) hn hc h
  | typedSelectMulti ts => cases h
  | resume i hs => exact did_false (agr_resume E _ i hs) hn hc h
  | resumeThrow i t hs => exact did_false (agr_resumeThrow E _ i t hs) hn hc h
  | resumeThrowRef i hs => exact did_false (agr_resumeThrowRef E _ i hs) hn hc h

theorem did_op (o : Operator) (hn : Nested S) (hc : S.control = fr :: rest)
    (h : op E o S = (.ok (), S')) :
    Did (stops o) (operatorArity E (fr :: rest) o) fr S S' := by
  obtain ⟨_, -, h1⟩ := read_inv (m := require (E.f.has (proposal o))) h Gives.any
  exact did_visit o hn hc h1

/-! ### Runs -/

theorem Runs.reachable (h : Runs E S) : Reachable E S := by
  induction h with
  | func h => exact .func h
  | constExpr ty => exact .constExpr ty
  | locals _ h ih => exact .locals ih h nofun
  | op _ _ h ih => exact .op ih h nofun
  | tryOp _ _ h hr ih => exact .tryOp ih h hr

theorem defineLocals_inv {n : BitVec 32} {t : ValType}
    (h : defineLocals E n t S = (.ok (), S')) :
    S'.control = S.control ∧ S'.operands = S.operands := by
  obtain ⟨ty, -, h1⟩ := read_inv (m := checkValueType E t) h Gives.any
  split at h1
  · cases h1
    exact ⟨rfl, rfl⟩
  · obtain ⟨S0, -, h2⟩ := read_inv (m := getS) h1 Gives.any
    dsimp only at h2
    obtain ⟨_, S1, h3, h4⟩ := bind_inv h2
    cases h3
    obtain ⟨_, -, h5⟩ := read_inv h4 Gives.any
    cases h5
    exact ⟨rfl, rfl⟩

theorem Runs.nested (h : Runs E S) : Nested S := by
  induction h with
  | @func ty S h =>
    unfold newFunc at h
    split at h
    · cases h
    · split at h
      · cases h
        exact List.pairwise_pair.2 (Nat.le_refl _)
      · cases h
  | constExpr ty => exact List.pairwise_pair.2 (Nat.le_refl _)
  | locals _ h ih =>
    obtain ⟨h1, h2⟩ := defineLocals_inv h
    unfold Nested at *
    rw [h1, h2]
    exact ih
  | @op o S S' _ hc h ih =>
    cases hS : S.control with
    | nil => exact absurd hS hc
    | cons fr rest => exact (did_op o ih hS h).nested
  | @tryOp o S S' r hrun hc h hr ih =>
    cases hS : S.control with
    | nil => exact absurd hS hc
    | cons fr rest =>
      obtain ⟨h1, h2, h3⟩ := tryOp_eq (E := E) hrun.reachable.ready o
      rcases hop : Op.op E o S with ⟨r', S''⟩
      rcases r' with e | u
      · cases e with
        | error =>
          rw [h2 _ hop] at h
          cases h
          exact ih
        | panic =>
          obtain ⟨S3, h3⟩ := h3 _ hop
          rw [h3] at h
          cases h
          exact absurd rfl hr
      · rw [h1 _ hop] at h
        cases h
        exact (did_op o ih hS hop).nested

theorem Moves.takes {a b : Nat} (hc : S.control = fr :: rest)
    (hm : Moves fr.unreachable (S.operands.length - fr.height) a b S S') : Takes a b S S' := by
  have ha : avail S = S.operands.length - fr.height := by
    unfold avail
    rw [hc]
  refine ⟨?_, ?_⟩
  · rintro ⟨fr', rest', h1, h2⟩
    rw [hc] at h1
    cases h1
    rw [ha]
    exact hm.enough h2
  · rw [ha]
    exact hm.left

theorem Moves.leaves' {a : Nat} {S1 : St} (hc : S.control = fr :: rest)
    (hm : Moves fr.unreachable (S.operands.length - fr.height) a 0 S S1)
    (hc1 : S1.control = S.control) (h : unreachable S1 = (.ok (), S')) : Leaves a S S' := by
  have ha : avail S = S.operands.length - fr.height := by
    unfold avail
    rw [hc]
  obtain ⟨h1, h2, h3⟩ := unreachable_inv (hc1.trans hc) h
  have hl := hm.length
  obtain ⟨new, hn, hd⟩ := hm.left
  refine ⟨(hm.takes hc).enough, ?_, ?_⟩
  · rw [List.eq_nil_of_length_eq_zero hn, List.nil_append] at hd
    rw [h3, ha, hd, List.drop_drop, List.length_drop]
    congr 1
    omega
  · rintro ⟨fr', rest', e1, e2⟩
    rw [h1] at e1
    cases e1
    cases e2

end

end Verif.Op.AritySpec
