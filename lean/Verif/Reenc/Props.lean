import Verif.Reenc.Const
/-! # C49: re-encoding instructions, constant expressions and function bodies -/
namespace Verif.Reenc
open Verif.Reader Verif.Leb Verif.Instr Verif.Instr.Spec Spec Verif.Items

/-- Whatever operator is read from any bytes, `Reencode::instruction` makes an instruction of it,
which has an encoding, and reading that encoding anywhere gives the same operator with its
indices renamed in their index spaces. -/
theorem c49_instruction (f : Instr.Features) (m : Maps) (hm : MapsFit m f) (k : Option FrameKind)
    (r r' : Reader) (op : Operator) (h : visitOperator f k r = .ok (op, r')) :
    ∃ i b, instruction m op = some i ∧ i.encode = some b ∧ ∀ (q : Reader) (tail : List UInt8),
      q.rest = b ++ tail → ∃ op', visitOperator f k q = .ok (op', q.advance b.length) ∧
        OpRenamed m op op' := by
  obtain ⟨k', rfl, hk⟩ := visitOperator_allowed h
  obtain ⟨b0, bytes, h1, h2, h3⟩ := visitOperator_same f _ _ _ _ h
  obtain ⟨op2, h4, i, h5, h6, h7⟩ := h3 r _ h1
  have h8 := fits_rename hm h7
  obtain ⟨b, e⟩ := fits_encode h8
  refine ⟨rename m i, b, instruction_corr m h5, e, ?_⟩
  intro q tail hq
  obtain ⟨op', g1, g2⟩ := decP_instr f k' _ _ e h8 (by rw [tok_rename, ← corr_tok h5]; exact hk)
    q tail hq
  exact ⟨op', g1, i, h5, g2⟩

/-- Whatever constant expression is read from any bytes can be re-encoded, and reading the result
anywhere gives a constant expression with the same operators, renamed. -/
theorem c49_const (f : Instr.Features) (m : Maps) (hm : MapsFit m f) (r r' : Reader)
    (c : ConstExpr) (h : readConstExpr f r = .ok (c, r')) :
    ∃ e, constExpr m f c = some e ∧ ∀ (q : Reader) (tail : List UInt8),
      q.rest = e.encode ++ tail → ∃ c', readConstExpr f q = .ok (c', q.advance e.encode.length) ∧
        ConstRenamed m f c c' := by
  obtain ⟨is, h1, -, -⟩ := readConst_steps h
  obtain ⟨bs, h2, h3⟩ := h1.rename hm
  refine ⟨⟨bs⟩, by rw [constExpr_eq h1, h2]; rfl, ?_⟩
  intro q tail hq
  obtain ⟨c', g1, g2⟩ := h3.dec q tail hq
  refine ⟨c', g1, constRenamed_of h1 ?_⟩
  rw [g2]
  exact h3

/-- A function body is re-encoded if all its locals and operators can be read, and only then. -/
theorem c49_body_iff (f : Instr.Features) (m : Maps) (hm : MapsFit m f) (body : Reader) :
    (∃ b, functionBody m f body = some b) ↔
      ∃ ds ops s, localsOf body = .ok ds ∧ operatorsOf f body = .ok (ops, s) := by
  constructor
  · rintro ⟨b, h⟩; exact functionBody_some h
  · rintro ⟨ds, ops, s, h1, h2⟩
    obtain ⟨es, is, h3, -⟩ := bodyIs_of h1 h2
    obtain ⟨b, h4, -⟩ := functionBody_is hm h3
    exact ⟨b, h4⟩

/-- The re-encoded body has the same locals and operators, renamed, and as many control frames
are left open at its end. -/
theorem c49_body (f : Instr.Features) (m : Maps) (hm : MapsFit m f) (body q : Reader)
    (b : List UInt8) (h : functionBody m f body = some b) (hq : q.rest = b) :
    ∃ ds ops s ds' ops' s', localsOf body = .ok ds ∧ operatorsOf f body = .ok (ops, s) ∧
      localsOf q = .ok ds' ∧ operatorsOf f q = .ok (ops', s') ∧
      List.Forall₂ (LocalRenamed m) ds ds' ∧ List.Forall₂ (OpRenamed m) ops ops' ∧
      s'.stack = s.stack ∧ s.reader.eof = true ∧ s'.reader.eof = true := by
  obtain ⟨ds, ops, s, h1, h2⟩ := functionBody_some h
  obtain ⟨es, is, h3, h4, h5, h6⟩ := bodyIs_of h1 h2
  obtain ⟨b', h7, h8⟩ := functionBody_is hm h3
  rw [h] at h7
  cases h7
  obtain ⟨ds', ops', s', g1, g2, g3, g4, g5, g6⟩ := bodyIs_read (h8 q hq)
  exact ⟨ds, ops, s, ds', ops', s', h1, h2, g1, g3, local_renamed h4 g2, ops_renamed h5 g4, g5, h6,
    g6⟩

/-- Hence one body ends properly if the other does. -/
theorem c49_finish (f : Instr.Features) (m : Maps) (hm : MapsFit m f) (body q : Reader)
    (b : List UInt8) (h : functionBody m f body = some b) (hq : q.rest = b)
    (ops ops' : List Operator) (s s' : OperatorsReader) (h1 : operatorsOf f body = .ok (ops, s))
    (h2 : operatorsOf f q = .ok (ops', s')) : s.finish = .ok () ↔ s'.finish = .ok () := by
  obtain ⟨_, _, _, _, _, _, -, g1, -, g2, -, -, g3, g4, g5⟩ := c49_body f m hm body q b h hq
  rw [h1] at g1
  rw [h2] at g2
  cases g1
  cases g2
  simp only [OperatorsReader.finish, g3, g4, g5]
  cases s.stack.top <;> simp

/-- The identical reencoder (`RoundtripReencoder`) keeps locals and operators. -/
theorem c49_identity (f : Instr.Features) (body q : Reader) (b : List UInt8)
    (h : functionBody Maps.id f body = some b) (hq : q.rest = b) :
    ∃ ds ops ops' s s', localsOf body = .ok ds ∧ localsOf q = .ok ds ∧
      operatorsOf f body = .ok (ops, s) ∧ operatorsOf f q = .ok (ops', s') ∧
      List.Forall₂ OpEq ops ops' := by
  obtain ⟨ds, ops, s, ds', ops', s', h1, h2, h3, h4, h5, h6, -⟩ := c49_body f Maps.id
    ⟨fun _ h => h, .inr rfl, .inr rfl⟩ body q b h hq
  have hd : ds' = ds := by
    clear h1 h3
    induction h5 with
    | nil => rfl
    | @cons d d' _ _ hd _ ih =>
      rw [ih]
      congr 1
      obtain ⟨p1, e, p2, p3⟩ := hd
      rw [show e.rename Maps.id.type = e from Types.rename_id_val e] at p3
      exact Prod.ext p1 (Types.lu_val _ _ _ p3 p2)
  subst hd
  refine ⟨ds', ops, ops', s, s', h1, h3, h2, h4, h6.imp ?_⟩
  rintro op op' ⟨i, p1, p2⟩
  rw [rename_id] at p2
  exact corr_left p1 p2

/-- Re-encoding what was re-encoded is the same as re-encoding the original once with the
composed renaming. -/
theorem c49_then (f : Instr.Features) (m m' : Maps) (hm : MapsFit m f) (body q : Reader)
    (b : List UInt8) (h : functionBody m f body = some b) (hq : q.rest = b) :
    functionBody m' f q = functionBody (then_ m m') f body := by
  obtain ⟨ds, ops, s, h1, h2⟩ := functionBody_some h
  obtain ⟨es, is, h3, -⟩ := bodyIs_of h1 h2
  obtain ⟨b', h4, h5⟩ := functionBody_is hm h3
  rw [h] at h4
  cases h4
  rw [functionBody_eq h3, functionBody_eq (h5 q hq), List.map_map, List.map_map]
  have e1 : renameLocal m' ∘ renameLocal m = renameLocal (then_ m m') := by
    funext e
    exact Prod.ext rfl (rename_then_val m.type m'.type e.2).symm
  have e2 : rename m' ∘ rename m = rename (then_ m m') := by
    funext i
    exact (rename_then m m' i).symm
  rw [e1, e2]

/-- So what was re-encoded once is a fixed point of the identical reencoder, byte for byte. -/
theorem c49_stable (f : Instr.Features) (m : Maps) (hm : MapsFit m f) (body q : Reader)
    (b : List UInt8) (h : functionBody m f body = some b) (hq : q.rest = b) :
    functionBody Maps.id f q = some b := by
  rw [c49_then f m Maps.id hm body q b h hq]
  exact h

/-- Without the conditions on the renaming, the result need not be readable: memory 0 becomes
memory 1 without multi-memory. -/
theorem c49_maps_needed : ∃ (f : Instr.Features) (m : Maps) (body : Reader) (b : List UInt8),
    functionBody m f body = some b ∧ ∀ q : Reader, q = ⟨b, 0, 0⟩ → ∃ e, operatorsOf f q = .error e := by
  refine ⟨⟨false, false, false, false⟩, { Maps.id with memory := fun _ => 1 },
    ⟨[0, 0x3F, 0, 0x1A, 0x0B], 0, 0⟩, [0, 0x3F, 1, 0x1A, 0x0B], by decide +kernel, ?_⟩
  rintro q rfl
  exact ⟨_, rfl⟩

/-- Function 0 becomes function 5, global 1 becomes global 200, the label stays. -/
example : functionBody { Maps.id with func := (· + 5), global := fun _ => 200 }
    ⟨false, false, false, false⟩
    ⟨[1, 0x82, 0x00, 0x7F, 0x02, 0x40, 0x10, 0, 0x23, 1, 0x0D, 0, 0x0B, 0x0B], 0, 0⟩ =
    some [1, 2, 0x7F, 0x02, 0x40, 0x10, 5, 0x23, 0xC8, 0x01, 0x0D, 0, 0x0B, 0x0B] := by
  decide +kernel

/-- A constant expression: `global.get 1` becomes `global.get 7`. -/
example : ∃ c r', readConstExpr ⟨false, false, false, false⟩ ⟨[0x23, 0x81, 0, 0x0B, 9], 0, 0⟩ =
      .ok (c, r') ∧ constExpr { Maps.id with global := fun _ => 7 } ⟨false, false, false, false⟩ c =
      some ⟨[0x23, 7]⟩ :=
  ⟨⟨⟨[0x23, 0x81, 0, 0x0B], 0, 0⟩⟩, ⟨[0x23, 0x81, 0, 0x0B, 9], 4, 0⟩, by decide +kernel⟩

example : MapsFit { Maps.id with func := (· + 5), global := fun _ => 200 }
    ⟨false, false, false, false⟩ := ⟨fun _ h => h, .inr rfl, .inr rfl⟩

end Verif.Reenc
