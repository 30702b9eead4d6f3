import Verif.Op.CalmRead
import Verif.Op.Body
import Verif.Op.LocalsLemmas
import Verif.Reenc.Ops
/-! Validating the body of a function does not panic. -/
namespace Verif.Op.Calm
open Verif.Types (ValType)
open Verif.Instr (Operator)
open Verif.Reader

variable {α β : Type} {E : Env} {n : Nat} {A : Answers}

/-! ## Operators -/

theorem bytesRemaining_eq (r : Reader) : r.bytesRemaining = r.rest.length := by
  simp [Reader.bytesRemaining, Reader.maxPosition, Reader.rest]

theorem visitOperator_consumes {rf : Instr.Features} {k : Option Instr.FrameKind} {r r' : Reader}
    {o : Operator} (h : Instr.visitOperator rf k r = .ok (o, r')) :
    r'.bytesRemaining < r.bytesRemaining := by
  obtain ⟨b, bs, h1, -, -⟩ := Instr.visitOperator_same rf k r o r' h
  rw [bytesRemaining_eq, bytesRemaining_eq, h1]
  simp
  omega

theorem eof_of {r : Reader} (h : r.bytesRemaining = 0) : r.eof = true := by
  unfold Reader.bytesRemaining at h
  unfold Reader.eof
  simp
  omega

theorem trip_validateFrom (hf : Fine E.R n) (hs : Same E.R n A) (rf : Instr.Features) :
    ∀ (k : Nat) (r : Reader), r.bytesRemaining ≤ k →
      Trip (Wf0 E n) (validateFrom E rf k r) (validateFrom (alt E A) rf k r) fun _ S => Wf0 E n S
  | 0, r, hr => by
    unfold validateFrom
    rw [if_pos (eof_of (by omega))]
    exact Trip.pure fun _ h => h
  | k + 1, r, hr => by
    unfold validateFrom
    split
    · exact Trip.pure fun _ h => h
    · refine Trip.getS fun S hS => ?_
      cases hv : Instr.visitOperator rf (S.control.head?.map (·.kind)) r with
      | error e => exact ⟨rfl, nofun, nofun⟩
      | ok x =>
        obtain ⟨o, r'⟩ := x
        obtain ⟨fk, hk, ha⟩ := Instr.visitOperator_allowed hv
        have hw : Wf E n S := ⟨hS, fun h => by rw [h] at hk; cases hk⟩
        have hfit : FitsKind S o := by
          cases o with
          | delegate d =>
            have : S.kinds.head? = some fk := by
              unfold St.kinds
              rw [List.head?_map]
              exact hk
            show S.kinds.head? = _
            rw [this, ha.2.2 rfl]
          | _ => trivial
        exact Trip.bind (calm_op hf hs (visitOperator_modular hv))
          (fun _ => trip_validateFrom hf hs rf k r' (by
            have := visitOperator_consumes hv
            omega)) S ⟨hw, hfit⟩

theorem trip_validateBody (hf : Fine E.R n) (hs : Same E.R n A) (rf : Instr.Features) (r : Reader) :
    Trip (Wf0 E n) (validateBody E rf r) (validateBody (alt E A) rf r) fun _ _ => True := by
  refine Trip.bind (trip_validateFrom hf hs rf _ r (Nat.le_refl _)) fun _ => ?_
  refine Trip.getS fun S hS => ⟨rfl, ?_, fun _ _ _ => trivial⟩
  unfold require
  split
  · exact nofun
  · exact nofun

/-! ## Locals -/

/-- States of a validator while locals are declared. -/
structure Wf1 (E : Env) (n : Nat) (S : St) : Prop extends Wf E n S where
  rep : ∃ L, S.locals.Rep L ∧ ValsIn n L ∧ L.length ≤ S.inits.localInits.length

theorem rep_locals {L : List Val} {l : Locals} {k : Nat} (h : l.Rep L) (hv : ValsIn n L)
    (hl : L.length ≤ k) (i : BitVec 32) (t : Val) (hg : l.get E.bs i = some t) :
    ValIn n t ∧ i.toNat < k := by
  rw [Locals.rep_get h] at hg
  have := (List.getElem?_eq_some_iff.1 hg).1
  exact ⟨hv t (List.mem_of_getElem? hg), by omega⟩

theorem opOnly_locals {m : M α} (h : OpOnly m) {S S' : St} {a : α} (hm : m S = (.ok a, S')) :
    S'.locals = S.locals := by
  obtain ⟨r, ops, d, _, h⟩ := h.spec S
  have := h S.log
  rw [show m { S with log := S.log } = m S from rfl, hm] at this
  cases this
  rfl

theorem trip_define {c : BitVec 32} {t : Val} (ht : ValIn n t) :
    Trip (Wf1 E n) (do
      let S ← getS
      let (ok, locals) := S.locals.define c t
      modifyS fun S => { S with locals }
      require ok
      modifyS fun S => { S with inits := S.inits.defineLocals c t }) (do
      let S ← getS
      let (ok, locals) := S.locals.define c t
      modifyS fun S => { S with locals }
      require ok
      modifyS fun S => { S with inits := S.inits.defineLocals c t }) fun _ S => Wf1 E n S := by
  refine Trip.getS fun S hS => ⟨rfl, ?_⟩
  obtain ⟨L, h1, h2, h3⟩ := hS.rep
  obtain ⟨h4, h5⟩ := Locals.rep_define h1 c t
  by_cases hle : L.length + c.toNat ≤ 50000
  · obtain ⟨h6, h7⟩ := h4 hle
    rcases hd : S.locals.define c t with ⟨ok, l⟩
    rw [hd] at h6 h7
    cases h6
    refine ⟨nofun, fun _ S' h => ?_⟩
    cases h
    have hv : ValsIn n (L ++ List.replicate c.toNat t) := by
      intro v hv
      rcases List.mem_append.1 hv with hv | hv
      · exact h2 v hv
      · rw [(List.mem_replicate.1 hv).2]; exact ht
    have hl : (L ++ List.replicate c.toNat t).length ≤
        (S.inits.defineLocals c t).localInits.length := by
      unfold LocalInits.defineLocals
      simp only [List.length_append, List.length_replicate]
      omega
    exact { nested := hS.nested, blocks := hS.blocks, operands := hS.operands,
            locals := rep_locals h7 hv hl, bottom := hS.bottom, frame := hS.frame,
            rep := ⟨_, h7, hv, hl⟩ }
  · rw [h5 hle]
    exact ⟨nofun, nofun⟩

theorem trip_defineLocals (hf : Fine E.R n) {c : BitVec 32} {t : ValType} (ht : ModularVal t) :
    Trip (Wf1 E n) (defineLocals E c t) (defineLocals (alt E A) c t) fun _ S => Wf1 E n S := by
  refine Trip.bind (P := fun (t : Val) S => Wf1 E n S ∧ ValIn n t) ?_ fun t => ?_
  · intro S hS
    obtain ⟨h1, h2, h3⟩ := calm_checkValueType (A := A) hf ht S hS.toWf
    refine ⟨h1, h2, fun a S' h => ?_⟩
    obtain ⟨h4, h5⟩ := h3 a S' h
    refine ⟨⟨h4, ?_⟩, h5⟩
    rw [opOnly_locals (by op_only) h, opOnly_inits (by op_only) h]
    exact hS.rep
  · refine Trip.of fun S0 h0 => ?_
    show Trip _ (if c = 0 then _ else _) (if c = 0 then _ else _) _
    split
    · exact Trip.pure (by rintro _ rfl; exact h0.1)
    · exact Trip.pre (trip_define h0.2) (by rintro _ rfl; exact h0.1)

theorem trip_readLocalsFrom (hf : Fine E.R n) : ∀ (k : Nat) (r : Reader),
    Trip (Wf1 E n) (readLocalsFrom E k r) (readLocalsFrom (alt E A) k r) fun _ S => Wf1 E n S
  | 0, _ => Trip.pure fun _ h => h
  | k + 1, r => by
    unfold readLocalsFrom
    split
    · exact Trip.fail
    · split
      · exact Trip.fail
      · next hv =>
        exact Trip.bind (trip_defineLocals hf (yields_modularVal _ _ _ hv)) fun _ =>
          trip_readLocalsFrom hf k _

theorem trip_validate (hf : Fine E.R n) (hs : Same E.R n A) (rf : Instr.Features) (r : Reader) :
    Trip (Wf1 E n) (validate E rf r) (validate (alt E A) rf r) fun _ _ => True := by
  refine Trip.bind (P := fun _ S => Wf1 E n S) ?_ fun _ =>
    Trip.pre (trip_validateBody hf hs rf _) fun _ h => h.toWf0
  unfold readLocals
  split
  · exact Trip.fail
  · exact trip_readLocalsFrom hf _ _

theorem rep_params : ∀ (ps : List Val) {l : Locals} {L : List Val}, l.Rep L → ValsIn n L →
    ValsIn n ps → ∃ L', (defineParams ps l).Rep L' ∧ ValsIn n L' ∧
      L'.length ≤ L.length + ps.length
  | [], l, L, h, hv, _ => ⟨L, h, hv, by simp⟩
  | t :: ts, l, L, h, hv, hp => by
    unfold defineParams
    obtain ⟨h4, h5⟩ := Locals.rep_define h 1 t
    by_cases hle : L.length + (1 : BitVec 32).toNat ≤ 50000
    · obtain ⟨_, h7⟩ := h4 hle
      obtain ⟨L', h8, h9, h10⟩ := rep_params ts h7 (by
        intro v hv'
        rcases List.mem_append.1 hv' with hv' | hv'
        · exact hv v hv'
        · rw [(List.mem_replicate.1 hv').2]; exact hp t (by simp)) fun v hv => hp v (by simp [hv])
      refine ⟨L', h8, h9, ?_⟩
      simp at h10 ⊢
      omega
    · rw [h5 hle]
      obtain ⟨L', h8, h9, h10⟩ := rep_params ts h hv fun v hv => hp v (by simp [hv])
      exact ⟨L', h8, h9, by simp; omega⟩

theorem newFunc_wf (hf : Fine E.R n) {ty : BitVec 32} {S : St} (h : newFunc E ty = .ok S) :
    Wf1 E n S := by
  unfold newFunc at h
  split at h
  · cases h
  · next sub hsub =>
    split at h
    · next ps rs hc =>
      cases h
      obtain ⟨L, h1, h2, h3⟩ := rep_params ps Locals.rep_new nil_in
        ((hf.sub ty sub hsub).params hc).1
      have hl : L.length ≤ (LocalInits.new.defineParams ps.length).localInits.length := by
        simpa [LocalInits.defineParams, LocalInits.new] using h3
      exact
        { nested := ⟨Nat.le_refl _, Nat.le_refl _, trivial⟩
          blocks := fun fr hfr => by rw [List.mem_singleton.1 hfr]; trivial
          operands := fun _ h => (List.not_mem_nil h).elim
          locals := rep_locals h1 h2 hl
          bottom := fun fr h => by cases h; exact nofun
          frame := nofun
          rep := ⟨L, h1, h2, hl⟩ }
    · cases h

theorem newFunc_calm (ty : BitVec 32) : newFunc E ty ≠ .error .panic := by
  unfold newFunc
  split
  · nofun
  · split
    · nofun
    · nofun

end Verif.Op.Calm
