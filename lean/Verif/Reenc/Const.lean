import Verif.Reenc.Body
/-! Constant expressions. -/
namespace Verif.Reenc
open Verif.Reader Verif.Leb Verif.Instr Verif.Instr.Spec Spec Verif.Items

variable {f : Instr.Features} {m : Maps}

/-- The bytes are these instructions and a final `end`. -/
def ConstSteps (f : Instr.Features) (bs : List UInt8) (is : List Enc.Instr) : Prop :=
  ∃ st, Steps f ⟨[], some .block⟩ bs (is ++ [.end_]) st ∧ Enc.Instr.end_ ∉ is ∧ st.top = none

theorem dec_skip {bs : List UInt8} {is : List Enc.Instr} (h : ConstSteps f bs is) :
    Dec (skipConstExpr f) bs () := by
  obtain ⟨st, h1, h2, h3⟩ := h
  intro q tail hq
  obtain ⟨s', k1, k2, k3⟩ := skip_of_steps h1 (n := q.bytesRemaining + 1)
    (s := OperatorsReader.new q) rfl h2 h3 rfl hq (by
      rw [Reader.bytesRemaining_eq, hq]; simp; omega)
  unfold skipConstExpr
  rw [k1]
  dsimp only
  rw [k3]
  rfl

theorem ConstSteps.dec {bs : List UInt8} {is : List Enc.Instr} (h : ConstSteps f bs is) :
    DecP (readConstExpr f) bs (fun c => c.reader.rest = bs) := by
  have := decP_bind_skip (g := fun r => (pure ⟨r⟩ : R ConstExpr)) (b2 := [])
    (Q := fun c => c.reader.rest = bs) (dec_skip h) fun r hr => .pure hr
  rwa [List.append_nil] at this

theorem readConst_steps {r r' : Reader} {c : ConstExpr} (h : readConstExpr f r = .ok (c, r')) :
    ∃ is, ConstSteps f c.reader.rest is ∧ r.rest = c.reader.rest ++ r'.rest ∧
      r' = r.advance c.reader.rest.length := by
  obtain ⟨q, r1, e1, e2⟩ := bind_ok.mp h
  cases e2
  unfold Reader.skip skipConstExpr at e1
  cases hs : skipConstExprFrom f (r.bytesRemaining + 1) (OperatorsReader.new r) with
  | error e => rw [hs] at e1; cases e1
  | ok s =>
    rw [hs] at e1
    obtain ⟨bs, is, g1, g2, g3, g4, g5⟩ := steps_of_skip hs
    dsimp only at e1
    have g2 : r.rest = bs ++ s.reader.rest := g2
    have g3 : s.reader = r.advance bs.length := g3
    have hb : ((s.reader.buffer.drop r.position).take (s.reader.position - r.position)) = bs := by
      rw [g3]
      simp only [Reader.buffer_advance, Reader.position_advance]
      rw [show r.buffer.drop r.position = bs ++ s.reader.rest from g2]
      simp
    simp only [hb] at e1
    cases e1
    exact ⟨is, ⟨_, g1, g4, g5⟩, g2, g3⟩

theorem encodeSeq_prefix : ∀ {is js : List Enc.Instr} {b : List UInt8},
    Enc.encodeSeq (is ++ js) = some b → ∃ b', Enc.encodeSeq is = some b'
  | [], _, _, _ => ⟨[], rfl⟩
  | i :: is, js, b, h => by
    obtain ⟨bi, bs, h1, h2, -⟩ := encodeSeq_cons h
    obtain ⟨b', h3⟩ := encodeSeq_prefix h2
    exact ⟨bi ++ b', by rw [Enc.encodeSeq, h1, h3]; rfl⟩

theorem ConstSteps.rename (hm : MapsFit m f) {bs : List UInt8} {is : List Enc.Instr}
    (h : ConstSteps f bs is) : ∃ bs', Enc.encodeSeq (is.map (rename m)) = some bs' ∧
      ConstSteps f (bs' ++ [0x0B]) (is.map (rename m)) := by
  obtain ⟨st, h1, h2, h3⟩ := h
  obtain ⟨b, e1, e2⟩ := Steps.rename hm h1
  rw [List.map_append] at e1 e2
  have e1 : Enc.encodeSeq (is.map (Spec.rename m) ++ [.end_]) = some b := e1
  have e2 : Steps f _ b (is.map (Spec.rename m) ++ [.end_]) st := e2
  obtain ⟨bs', e3⟩ := encodeSeq_prefix e1
  rw [encodeSeq_end e3] at e1
  cases e1
  refine ⟨bs', e3, st, e2, ?_, h3⟩
  intro hmem
  obtain ⟨i, hi, he⟩ := List.mem_map.1 hmem
  rw [rename_end he] at hi
  exact h2 hi

theorem constExpr_eq {c : ConstExpr} {is : List Enc.Instr} (h : ConstSteps f c.reader.rest is) :
    constExpr m f c = (Enc.encodeSeq (is.map (rename m))).map Items.Enc.ConstExpr.mk := by
  obtain ⟨st, h1, h2, h3⟩ := h
  unfold constExpr
  rw [constExpr_of_steps h1 rfl h2 rfl rfl (by rw [Reader.bytesRemaining_eq]; omega)]
  cases Enc.encodeSeq (is.map (rename m)) <;> rfl

/-- The operators of a constant expression. -/
theorem ConstSteps.collect {c : ConstExpr} {is : List Enc.Instr}
    (h : ConstSteps f c.reader.rest is) : ∃ ops s,
      (OperatorsReader.new c.reader).collect f = .ok (ops, s) ∧ s.finish = .ok () ∧
      List.Forall₂ Corr (is ++ [.end_]) ops := by
  obtain ⟨st, h1, h2, h3⟩ := h
  obtain ⟨ops, s, k1, k2, k3, k4⟩ := collect_of_steps h1 (n := c.reader.bytesRemaining)
    (s := OperatorsReader.new c.reader) rfl rfl (by rw [Reader.bytesRemaining_eq]; omega)
  refine ⟨ops, s, k1, ?_, k2⟩
  unfold OperatorsReader.finish
  rw [k3, h3, k4]
  rfl

theorem constRenamed_of {c c' : ConstExpr} {is : List Enc.Instr}
    (h : ConstSteps f c.reader.rest is) (h' : ConstSteps f c'.reader.rest (is.map (rename m))) :
    ConstRenamed m f c c' := by
  obtain ⟨ops, s, h1, h2, h3⟩ := h.collect
  obtain ⟨ops', s', h1', h2', h3'⟩ := h'.collect
  refine ⟨ops, ops', s, s', h1, h2, h1', h2', ops_renamed h3 ?_⟩
  rw [List.map_append]
  exact h3'

end Verif.Reenc
