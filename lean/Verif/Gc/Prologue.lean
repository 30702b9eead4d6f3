import Verif.Gc.Folds
/-! Bodies with a call put before their operators. -/
namespace Verif.Gc
open Verif.Reader Verif.Instr Verif.Instr.Spec Verif.Items Verif.Reenc Verif.Reenc.Spec Spec

variable {f : Instr.Features} {m : Maps}

theorem corr_call {k : BitVec 32} {op : Operator} (h : Corr (.idx .call k) op) :
    op = .idx .call k := by
  cases op <;> first
    | (exact h.elim)
    | (obtain ⟨rfl, rfl⟩ := h; rfl)

theorem callOk {k : BitVec 32} : FrameOk .block (tok (.idx .call k)) :=
  ⟨(fun h => nomatch h), (fun h => h.elim (fun h => nomatch h) (fun h => nomatch h)),
    (fun h => nomatch h)⟩

theorem steps_call {st : ControlStack} {bs : List UInt8} {is : List Instr.Enc.Instr}
    {k : BitVec 32} {cb : List UInt8} (hc : Instr.Enc.Instr.encode (.idx .call k) = some cb)
    (h : Steps f ⟨[], some .block⟩ bs is st) :
    Steps f ⟨[], some .block⟩ (cb ++ bs) (.idx .call k :: is) st :=
  Steps.cons (st := ⟨[], some .block⟩) .block rfl (encode_ne_nil hc)
    (decP_instr f .block _ _ hc trivial callOk) trivial callOk nofun h

theorem newFunction_is {body : Reader} {es : List (BitVec 32 × Types.Enc.ValType)}
    {is : List Instr.Enc.Instr} {st : ControlStack} (h : BodyIs f body es is st) :
    newFunction m body = functionNew (es.map (renameLocal m)) := by
  obtain ⟨ds, r, bs, h1, h2, h3, h4, h5⟩ := h.read
  unfold newFunction localsOf
  rw [h1]
  dsimp only
  rw [Types.mapM_forall₂ (g := local_ m) (k := renameLocal m) (fun _ _ => local_is) h2]
  rfl

theorem instructions_is {body : Reader} {es : List (BitVec 32 × Types.Enc.ValType)}
    {is : List Instr.Enc.Instr} {st : ControlStack} (h : BodyIs f body es is st)
    {s : OperatorsReader} (hs : operatorsReader body = .ok s) :
    instructionsFrom m f s.reader.bytesRemaining s = Instr.Enc.encodeSeq (is.map (rename m)) := by
  obtain ⟨ds, r, bs, h1, h2, h3, h4, h5⟩ := h.read
  unfold operatorsReader at hs
  rw [h3] at hs
  cases hs
  exact instructions_of_steps h5 rfl h4
    (by rw [← h4]; exact Nat.le_of_eq (Reader.bytesRemaining_eq _).symm)

theorem bind_some' {α β : Type} {x : Option α} {g : α → Option β} {b : β}
    (h : (x >>= g) = some b) : ∃ a, x = some a ∧ g a = some b := by
  cases x with
  | none => cases h
  | some a => exact ⟨a, rfl, h⟩

theorem bodyWithCall_some {k : BitVec 32} {body : Reader} {b : List UInt8}
    (h : bodyWithCall f m k body = some b) : ∃ head cb s ib, newFunction m body = some head ∧
      Instr.Enc.Instr.encode (.idx .call k) = some cb ∧ operatorsReader body = .ok s ∧
      instructionsFrom m f s.reader.bytesRemaining s = some ib ∧ b = head ++ cb ++ ib := by
  unfold bodyWithCall at h
  obtain ⟨head, h1, h⟩ := bind_some' h
  obtain ⟨cb, h2, h⟩ := bind_some' h
  cases h3 : operatorsReader body with
  | error e => rw [h3] at h; cases h
  | ok s =>
    rw [h3] at h
    obtain ⟨ib, h4, h⟩ := bind_some' h
    cases h
    exact ⟨head, cb, s, ib, h1, h2, rfl, h4, rfl⟩

theorem call_ren (hm : MapsFit m f) {k : BitVec 32} {body : Reader} {b : List UInt8}
    (h : bodyWithCall f m k body = some b) : BodyRen m f [.idx .call k] body b := by
  obtain ⟨head, cb, s0, ib, h1, h2, h3, h4, rfl⟩ := bodyWithCall_some h
  have hb : functionBody m f body = some (head ++ ib) := by
    unfold functionBody
    rw [h1, h3]
    dsimp only
    rw [h4]
    rfl
  obtain ⟨ds, ops, s, e1, e2⟩ := functionBody_some hb
  obtain ⟨es, is, g1, g2, g3, g4⟩ := bodyIs_of e1 e2
  have hl : (es.map (renameLocal m)).length < 2 ^ 32 := by rw [List.length_map]; exact g1.len
  have hf : ∀ e ∈ es.map (renameLocal m), e.2.Fits := by
    intro e he
    obtain ⟨e', he', rfl⟩ := List.mem_map.1 he
    exact fits_val hm (g1.fits e' he')
  obtain ⟨head', k1, k2, k3⟩ := functionNew_read hl hf (total_rename g1.total)
  rw [newFunction_is g1, k1] at h1
  cases h1
  obtain ⟨dsx, r, bs0, j1, j2, j3, j4, j5⟩ := g1.read
  obtain ⟨bs', l1, l2⟩ := Steps.rename hm j5
  rw [instructions_is g1 h3, l1] at h4
  cases h4
  intro q hq
  rw [List.append_assoc] at hq
  obtain ⟨ds', e3, e4⟩ := k2 q _ hq
  have hq' : BodyIs f q (es.map (renameLocal m)) (.idx .call k :: is.map (rename m)) s.stack :=
    ⟨hl, hf, total_rename g1.total, ds', _, cb ++ ib, e3, e4, k3 q _ hq, by simp [hq],
      steps_call h2 l2⟩
  obtain ⟨ds2, ops2, s', p1, p2, p3, p4, p5, p6⟩ := bodyIs_read hq'
  cases p4 with
  | @cons _ op _ ops' c1 c2 =>
    rw [corr_call c1] at p3
    exact ⟨ds, ops, s, ds2, ops', s', e1, e2, p1, p3, local_renamed g2 p2, ops_renamed g3 c2, p5,
      g4, p6⟩

end Verif.Gc
