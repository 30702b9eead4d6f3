import Verif.Reenc.Steps
/-! Function bodies: the declarations of locals. -/
namespace Verif.Reenc
open Verif.Reader Verif.Leb Verif.Instr Verif.Instr.Spec Spec Verif.Items

variable {f : Instr.Features} {m : Maps}

/-- The declaration corresponds to what the encoder is given. -/
def LocalIs (d : BitVec 32 × Types.ValType) (e : BitVec 32 × Types.Enc.ValType) : Prop :=
  d.1 = e.1 ∧ d.2.Is e.2 ∧ e.2.Fits

/-- The running total stays below the limit. -/
def Total : Nat → List (BitVec 32 × Types.Enc.ValType) → Prop
  | _, [] => True
  | t, e :: es => t + e.1.toNat < 2 ^ 32 ∧ Total (t + e.1.toNat) es

def skipLocal : R Unit := do
  let _ ← readVarU32
  let _ ← Types.readValType
  pure ()

theorem readLocalsFrom_ok : ∀ {n t : Nat} {r r' : Reader} {ds : List (BitVec 32 × Types.ValType)},
    readLocalsFrom n t r = .ok (ds, r') → ∃ es, List.Forall₂ LocalIs ds es ∧ es.length = n ∧
      Total t es ∧ ∃ us, readMany skipLocal n r = .ok (us, r')
  | 0, t, r, r', ds, h => by cases h; exact ⟨[], .nil, rfl, trivial, [], rfl⟩
  | n + 1, t, r, r', ds, h => by
    obtain ⟨c, r1, e1, h⟩ := bind_ok.mp h
    obtain ⟨pos, r2, e2, h⟩ := bind_ok.mp h
    cases e2
    split at h
    · cases h
    · next ht =>
      obtain ⟨ty, r3, e3, h⟩ := bind_ok.mp h
      obtain ⟨rest, r4, e4, h⟩ := bind_ok.mp h
      cases h
      obtain ⟨e, he1, he2⟩ := Types.yields_valType _ _ _ e3
      obtain ⟨es, g1, g2, g3, us, g4⟩ := readLocalsFrom_ok e4
      refine ⟨(c, e) :: es, .cons ⟨rfl, he1, he2⟩ g1, by rw [List.length_cons, g2], ⟨by simp only; omega, g3⟩,
        () :: us, ?_⟩
      have : skipLocal r = .ok ((), r3) := by
        refine bind_ok.mpr ⟨c, r1, e1, bind_ok.mpr ⟨ty, r3, e3, rfl⟩⟩
      exact bind_ok.mpr ⟨(), r3, this, bind_ok.mpr ⟨us, _, g4, rfl⟩⟩

/-- What is read can also be skipped. -/
theorem readLocals_ok {r r' : Reader} {ds : List (BitVec 32 × Types.ValType)}
    (h : readLocals r = .ok (ds, r')) : ∃ es, List.Forall₂ LocalIs ds es ∧ es.length < 2 ^ 32 ∧
      Total 0 es ∧ skipLocals r = .ok ((), r') := by
  obtain ⟨n, r1, e1, h⟩ := bind_ok.mp h
  obtain ⟨es, h1, h2, h3, us, h4⟩ := readLocalsFrom_ok h
  refine ⟨es, h1, by rw [h2]; exact n.isLt, h3, ?_⟩
  exact bind_ok.mpr ⟨n, r1, e1, bind_ok.mpr ⟨us, r', h4, rfl⟩⟩

theorem decP_locals : ∀ {es : List (BitVec 32 × Types.Enc.ValType)} {t : Nat},
    (∀ e ∈ es, e.2.Fits) → Total t es →
    DecP (readLocalsFrom es.length t) (es.flatMap encodeLocal) (List.Forall₂ LocalIs · es)
  | [], _, _, _ => .pure .nil
  | e :: es, t, hf, ht => by
    rw [List.flatMap_cons]
    unfold encodeLocal
    rw [List.append_assoc]
    refine (Dec.u32 e.1).bindP (.readPos fun pos => ?_)
    rw [if_neg (by have := ht.1; omega)]
    refine (Types.decP_valType e.2 (hf e (List.mem_cons_self ..))).bind fun ty hty => ?_
    refine (decP_locals (fun x hx => hf x (List.mem_cons_of_mem _ hx)) ht.2).bind_nil fun ds hds => ?_
    exact .pure (.cons ⟨rfl, hty, hf e (List.mem_cons_self ..)⟩ hds)

theorem decP_skipLocal : ∀ {es : List (BitVec 32 × Types.Enc.ValType)}, (∀ e ∈ es, e.2.Fits) →
    DecP (readMany skipLocal es.length) (es.flatMap encodeLocal) (fun _ => True)
  | [], _ => .pure trivial
  | e :: es, hf => by
    rw [List.flatMap_cons]
    have h1 : DecP skipLocal (encodeLocal e) (fun _ => True) :=
      (Dec.u32 e.1).bindP ((Types.decP_valType e.2 (hf e (List.mem_cons_self ..))).bind_nil
        fun _ _ => .pure trivial)
    exact h1.bind fun _ _ => (decP_skipLocal fun x hx => hf x (List.mem_cons_of_mem _ hx)).bind_nil
      fun _ _ => .pure trivial

/-- The declarations that `Function::new` writes are read back and skipped. -/
theorem functionNew_read {es : List (BitVec 32 × Types.Enc.ValType)} (hl : es.length < 2 ^ 32)
    (hf : ∀ e ∈ es, e.2.Fits) (ht : Total 0 es) : ∃ b, functionNew es = some b ∧
      DecP readLocals b (List.Forall₂ LocalIs · es) ∧ Dec skipLocals b () := by
  refine ⟨encodeU32 (BitVec.ofNat 32 es.length) ++ es.flatMap encodeLocal, ?_, ?_, ?_⟩
  · unfold functionNew Framing.encodeUsize
    rw [if_pos (by omega)]
    rfl
  · refine (Dec.u32 _).bindP ?_
    rw [toNat_ofNat32 hl]
    exact decP_locals hf ht
  · exact dec_skipItems hl (decP_skipLocal hf)

def renameLocal (m : Maps) (e : BitVec 32 × Types.Enc.ValType) : BitVec 32 × Types.Enc.ValType :=
  (e.1, e.2.rename m.type)

theorem local_is {d : BitVec 32 × Types.ValType} {e : BitVec 32 × Types.Enc.ValType}
    (h : LocalIs d e) : local_ m d = some (renameLocal m e) := by
  obtain ⟨h1, h2, -⟩ := h
  simp only [local_, Types.re_val m.type h2, h1]
  rfl

theorem total_rename : ∀ {es : List (BitVec 32 × Types.Enc.ValType)} {t : Nat}, Total t es →
    Total t (es.map (renameLocal m))
  | [], _, _ => trivial
  | _ :: _, _, h => ⟨h.1, total_rename h.2⟩

theorem localIs_fits {ds : List (BitVec 32 × Types.ValType)}
    {es : List (BitVec 32 × Types.Enc.ValType)} (h : List.Forall₂ LocalIs ds es) :
    ∀ e ∈ es, e.2.Fits := by
  induction h with
  | nil => nofun
  | cons h _ ih =>
    intro e he
    rcases List.mem_cons.1 he with rfl | he
    · exact h.2.2
    · exact ih e he

theorem local_renamed {ds ds' : List (BitVec 32 × Types.ValType)}
    {es : List (BitVec 32 × Types.Enc.ValType)} (h : List.Forall₂ LocalIs ds es) :
    List.Forall₂ LocalIs ds' (es.map (renameLocal m)) →
    List.Forall₂ (LocalRenamed m) ds ds' := by
  induction h generalizing ds' with
  | nil => intro h'; cases h'; exact .nil
  | @cons d e ds es h _ ih =>
    intro h'
    cases h' with
    | @cons d' _ ds' _ g1 g2 =>
      exact .cons ⟨g1.1.trans h.1.symm, e.2, h.2.1, g1.2.1⟩ (ih g2)

theorem ops_renamed {is : List Enc.Instr} {ops ops' : List Operator}
    (h : List.Forall₂ Corr is ops) : List.Forall₂ Corr (is.map (rename m)) ops' →
    List.Forall₂ (OpRenamed m) ops ops' := by
  induction h generalizing ops' with
  | nil => intro h'; cases h'; exact .nil
  | cons h _ ih =>
    intro h'
    cases h' with
    | cons g1 g2 => exact .cons ⟨_, h, g1⟩ (ih g2)

/-- A body that was read: its declarations and its operators apart from the reader. -/
structure BodyIs (f : Instr.Features) (body : Reader) (es : List (BitVec 32 × Types.Enc.ValType))
    (is : List Enc.Instr) (st : ControlStack) : Prop where
  len : es.length < 2 ^ 32
  fits : ∀ e ∈ es, e.2.Fits
  total : Total 0 es
  read : ∃ ds r bs, readLocals body = .ok (ds, r) ∧ List.Forall₂ LocalIs ds es ∧
    skipLocals body = .ok ((), r) ∧ r.rest = bs ∧ Steps f ⟨[], some .block⟩ bs is st

theorem localsOf_ok {body : Reader} {ds : List (BitVec 32 × Types.ValType)}
    (h : localsOf body = .ok ds) : ∃ r, readLocals body = .ok (ds, r) := by
  unfold localsOf at h
  split at h
  · cases h
  · next ds' r hr => cases h; exact ⟨r, hr⟩

theorem bodyIs_of {body : Reader} {ds : List (BitVec 32 × Types.ValType)} {ops : List Operator}
    {s : OperatorsReader} (h1 : localsOf body = .ok ds) (h2 : operatorsOf f body = .ok (ops, s)) :
    ∃ es is, BodyIs f body es is s.stack ∧ List.Forall₂ LocalIs ds es ∧
      List.Forall₂ Corr is ops ∧ s.reader.eof = true := by
  obtain ⟨r, e1⟩ := localsOf_ok h1
  obtain ⟨es, g1, g2, g3, g4⟩ := readLocals_ok e1
  unfold operatorsOf operatorsReader at h2
  rw [g4] at h2
  obtain ⟨is, k1, k2, k3⟩ := steps_of_collect (Nat.le_of_eq (Reader.bytesRemaining_eq _).symm) h2
  exact ⟨es, is, ⟨g2, localIs_fits g1, g3, ds, r, _, e1, g1, g4, rfl, k1⟩, g1, k2, k3⟩

/-- The bytes of a re-encoded body. -/
theorem functionBody_eq {body : Reader} {es : List (BitVec 32 × Types.Enc.ValType)}
    {is : List Enc.Instr} {st : ControlStack} (h : BodyIs f body es is st) :
    functionBody m f body = (do
      let head ← functionNew (es.map (renameLocal m))
      let bs ← Enc.encodeSeq (is.map (rename m))
      pure (head ++ bs)) := by
  obtain ⟨ds, r, bs, h1, h2, h3, h4, h5⟩ := h.read
  unfold functionBody newFunction localsOf operatorsReader
  rw [h1, h3]
  dsimp only
  rw [Types.mapM_forall₂ (g := local_ m) (k := renameLocal m) (fun _ _ => local_is) h2, instructions_of_steps h5 rfl h4
    (by rw [← h4]; exact Nat.le_of_eq (Reader.bytesRemaining_eq _).symm)]
  rfl

/-- Re-encoding succeeds and the result is the renamed body. -/
theorem functionBody_is (hm : MapsFit m f) {body : Reader}
    {es : List (BitVec 32 × Types.Enc.ValType)} {is : List Enc.Instr} {st : ControlStack}
    (h : BodyIs f body es is st) : ∃ b, functionBody m f body = some b ∧
      ∀ q : Reader, q.rest = b → BodyIs f q (es.map (renameLocal m)) (is.map (rename m)) st := by
  have hl : (es.map (renameLocal m)).length < 2 ^ 32 := by rw [List.length_map]; exact h.len
  have hf : ∀ e ∈ es.map (renameLocal m), e.2.Fits := by
    intro e he
    obtain ⟨e', he', rfl⟩ := List.mem_map.1 he
    exact fits_val hm (h.fits e' he')
  obtain ⟨head, g1, g2, g3⟩ := functionNew_read hl hf (total_rename h.total)
  obtain ⟨ds, r, bs, h1, h2, h3, h4, h5⟩ := h.read
  obtain ⟨bs', k1, k2⟩ := Steps.rename hm h5
  refine ⟨head ++ bs', ?_, ?_⟩
  · rw [functionBody_eq h, g1, k1]; rfl
  · intro q hq
    obtain ⟨ds', e1, e2⟩ := g2 q bs' hq
    refine ⟨hl, hf, total_rename h.total, ds', _, bs', e1, e2, g3 q bs' hq, ?_, k2⟩
    simp [hq]

theorem bodyIs_read {q : Reader} {es : List (BitVec 32 × Types.Enc.ValType)}
    {is : List Enc.Instr} {st : ControlStack} (h : BodyIs f q es is st) :
    ∃ ds ops s, localsOf q = .ok ds ∧ List.Forall₂ LocalIs ds es ∧
      operatorsOf f q = .ok (ops, s) ∧ List.Forall₂ Corr is ops ∧ s.stack = st ∧
      s.reader.eof = true := by
  obtain ⟨ds, r, bs, h1, h2, h3, h4, h5⟩ := h.read
  obtain ⟨ops, s, k1, k2, k3, k4⟩ := collect_of_steps h5 (n := r.bytesRemaining)
    (s := OperatorsReader.new r) rfl h4
    (by rw [← h4]; exact Nat.le_of_eq (Reader.bytesRemaining_eq _).symm)
  refine ⟨ds, ops, s, ?_, h2, ?_, k2, k3, k4⟩
  · unfold localsOf; rw [h1]
  · unfold operatorsOf operatorsReader; rw [h3]; exact k1

/-- If re-encoding succeeds, everything was read. -/
theorem functionBody_some {body : Reader} {b : List UInt8} (h : functionBody m f body = some b) :
    ∃ ds ops s, localsOf body = .ok ds ∧ operatorsOf f body = .ok (ops, s) := by
  unfold functionBody newFunction at h
  cases hl : localsOf body with
  | error e => simp [hl] at h
  | ok ds =>
    cases hn : (do functionNew (← ds.mapM (local_ m)) : Option (List UInt8)) with
    | none => simp only [hl] at h; rw [hn] at h; cases h
    | some head =>
      simp only [hl] at h
      rw [hn] at h
      cases ho : operatorsReader body with
      | error e => simp [ho] at h
      | ok s =>
        simp only [ho] at h
        cases hi : instructionsFrom m f s.reader.bytesRemaining s with
        | none => simp [hi] at h
        | some bs =>
          obtain ⟨ops, s', e⟩ := collect_of_instructions hi
          exact ⟨ds, ops, s', rfl, by unfold operatorsOf; rw [ho]; exact e⟩

/-! ### Corresponding operators -/

theorem leValue_inj : ∀ {a b : List UInt8}, a.length = b.length → leValue a = leValue b → a = b
  | [], [], _, _ => rfl
  | x :: a, y :: b, hl, h => by
    simp only [leValue] at h
    have hx := x.toNat_lt
    have hy := y.toNat_lt
    have h1 : x.toNat = y.toNat := by omega
    have h2 : leValue a = leValue b := by omega
    rw [UInt8.toNat_inj.1 h1, leValue_inj (by simpa using hl) h2]

theorem corr_left {i : Enc.Instr} {op op' : Operator} (h : Corr i op) (h' : Corr i op') :
    OpEq op op' := by
  have hb : ∀ {t : Enc.BlockType} {a b : BlockType}, BlockCorr t a → BlockCorr t b → a = b := by
    intro t a b ha hb
    cases t <;> cases a <;> first | (exact ha.elim) | skip
    all_goals cases b <;> first | (exact hb.elim) | skip
    · rfl
    · rw [Types.lu_val _ _ _ ha hb]
    · rw [← (show _ = _ from ha), ← (show _ = _ from hb)]
  have hc : Types.LeftUnique (fun (b : Catch) (a : Enc.Catch) => CatchCorr a b) := by
    intro a b t ha hb
    cases t <;> cases a <;> first | (exact ha.elim) | skip
    all_goals cases b <;> first | (exact hb.elim) | skip
    · rw [← (show _ ∧ _ from ha).1, ← (show _ ∧ _ from ha).2, ← (show _ ∧ _ from hb).1, ← (show _ ∧ _ from hb).2]
    · rw [← (show _ ∧ _ from ha).1, ← (show _ ∧ _ from ha).2, ← (show _ ∧ _ from hb).1, ← (show _ ∧ _ from hb).2]
    · rw [← (show _ = _ from ha), ← (show _ = _ from hb)]
    · rw [← (show _ = _ from ha), ← (show _ = _ from hb)]
  have hh : Types.LeftUnique (fun (b : Handle) (a : Enc.Handle) => HandleCorr a b) := by
    intro a b t ha hb
    cases t <;> cases a <;> first | (exact ha.elim) | skip
    all_goals cases b <;> first | (exact hb.elim) | skip
    · rw [← (show _ ∧ _ from ha).1, ← (show _ ∧ _ from ha).2, ← (show _ ∧ _ from hb).1, ← (show _ ∧ _ from hb).2]
    · rw [← (show _ = _ from ha), ← (show _ = _ from hb)]
  have hm : ∀ {n : Nat} {t : Enc.MemArg} {a b : MemArg}, MemCorr n t a → MemCorr n t b → a = b := by
    rintro n t ⟨a1, a2, a3, a4⟩ ⟨b1, b2, b3, b4⟩ ⟨p1, p2, p3, p4⟩ ⟨q1, q2, q3, q4⟩
    simp only at p1 p2 p3 p4 q1 q2 q3 q4
    have e1 : a2.toNat = b2.toNat := by
      have : 2 ^ a2.toNat = 2 ^ b2.toNat := by omega
      exact (Nat.pow_right_inj (by decide)).1 this
    rw [UInt8.toNat_inj.1 e1, UInt8.toNat_inj.1 (p1.trans q1.symm), p2, p3, q2, q3]
  have ho : ∀ {t : Enc.Ordering} {a b : Instr.Ordering}, OrderCorr t a → OrderCorr t b → a = b := by
    intro t a b ha hb
    cases t <;> cases a <;> cases b <;> first | rfl | exact ha.elim | exact hb.elim
  cases i <;> cases op <;> first | (exact h.elim) | skip
  all_goals cases op' <;> first | (exact h'.elim) | skip
  case plain.plain.plain => exact congrArg _ ((show _ = _ from h).symm.trans h')
  case else_.else_.else_ => rfl
  case end_.end_.end_ => rfl
  case catchAll.catchAll.catchAll => rfl
  case atomicFence.atomicFence.atomicFence => rfl
  case block.block.block =>
    obtain ⟨rfl, h⟩ := h; obtain ⟨rfl, h'⟩ := h'
    exact congrArg _ (hb h h')
  case tryTable.tryTable.tryTable =>
    obtain ⟨h1, h2⟩ := h; obtain ⟨h1', h2'⟩ := h'
    rw [hb h1 h1', hc.forall₂ _ _ _ (List.Forall₂.flip h2) (List.Forall₂.flip h2')]
    rfl
  case brTable.brTable.brTable =>
    obtain ⟨h1, h2, h3⟩ := h; obtain ⟨h1', h2', h3'⟩ := h'
    exact ⟨h3.trans h3'.symm, h2.trans h2'.symm, _, h1, h1'⟩
  case mem.mem.mem =>
    obtain ⟨rfl, h⟩ := h; obtain ⟨rfl, h'⟩ := h'
    exact congrArg _ (hm h h')
  case memLane.memLane.memLane =>
    obtain ⟨rfl, h, rfl⟩ := h; obtain ⟨rfl, h', rfl⟩ := h'
    rw [hm h h']; rfl
  case cast.cast.cast =>
    obtain ⟨rfl, rfl, h1, h2⟩ := h; obtain ⟨rfl, rfl, h1', h2'⟩ := h'
    rw [Option.some.inj (h1.symm.trans h1'), Option.some.inj (h2.symm.trans h2')]; rfl
  case heap.heap.heap =>
    obtain ⟨rfl, rfl⟩ := h; obtain ⟨rfl, rfl⟩ := h'; rfl
  case atomic.atomic.atomic =>
    obtain ⟨rfl, h, rfl⟩ := h; obtain ⟨rfl, h', rfl⟩ := h'
    rw [ho h h']; rfl
  case atomic2.atomic2.atomic2 =>
    obtain ⟨rfl, h, rfl, rfl⟩ := h; obtain ⟨rfl, h', rfl, rfl⟩ := h'
    rw [ho h h']; rfl
  case v128Const.v128Const.v128Const =>
    obtain ⟨h1, h2⟩ := h; obtain ⟨h1', h2'⟩ := h'
    exact congrArg _ (leValue_inj (h1.trans h1'.symm) (h2.trans h2'.symm))
  case typedSelect.typedSelect.typedSelect => exact congrArg _ (Types.lu_val _ _ _ h h')
  case typedSelectMulti.typedSelectMulti.typedSelectMulti =>
    exact congrArg _ (Types.lu_val.forall₂ _ _ _ h h')
  case resume.resume.resume =>
    obtain ⟨rfl, h2⟩ := h; obtain ⟨rfl, h2'⟩ := h'
    rw [hh.forall₂ _ _ _ (List.Forall₂.flip h2) (List.Forall₂.flip h2')]
    rfl
  case resumeThrowRef.resumeThrowRef.resumeThrowRef =>
    obtain ⟨rfl, h2⟩ := h; obtain ⟨rfl, h2'⟩ := h'
    rw [hh.forall₂ _ _ _ (List.Forall₂.flip h2) (List.Forall₂.flip h2')]
    rfl
  case resumeThrow.resumeThrow.resumeThrow =>
    obtain ⟨rfl, rfl, h2⟩ := h; obtain ⟨rfl, rfl, h2'⟩ := h'
    rw [hh.forall₂ _ _ _ (List.Forall₂.flip h2) (List.Forall₂.flip h2')]
    rfl
  case idx2.idx2.idx2 => obtain ⟨rfl, rfl, rfl⟩ := h; obtain ⟨rfl, rfl, rfl⟩ := h'; rfl
  all_goals first
    | (obtain rfl := h; obtain rfl := h'; rfl)
    | (obtain ⟨rfl, rfl⟩ := h; obtain ⟨rfl, rfl⟩ := h'; rfl)

end Verif.Reenc
