import Verif.Instr.Frames
/-! C14 and C15: instructions are read back as they were written, and one way only. -/
namespace Verif.Instr.Props
open Verif.Reader Verif.Leb Verif.Types Verif.Instr Spec

/-- All features on. -/
def every : Features := ⟨true, true, true, true⟩

/-- C14: whatever features are on and wherever the bytes are in a reader's buffer, reading the
encoding of an instruction that is within wasmparser's limits (`Fits`), in a control frame
that allows it (`FrameOk`), returns the corresponding operator and consumes exactly the
encoding. -/
theorem c14_instr_roundtrip (f : Features) (k : FrameKind) (i : Enc.Instr) (bytes : List UInt8)
    (h : i.encode = some bytes) (hf : Fits f i) (hk : FrameOk k (tok i)) (r : Reader)
    (tail : List UInt8) (hr : r.rest = bytes ++ tail) :
    ∃ op, visitOperator f (some k) r = .ok (op, r.advance bytes.length) ∧ Corr i op :=
  decP_instr f k i bytes h hf hk r tail hr

example (r : Reader) (hr : r.rest = [0xFD, 0x5C, 0x42, 0x81, 0x01, 0x90, 0x80, 0x80, 0x80, 0x10, 0x0B]) :
    ∃ op, visitOperator every (some .block) r = .ok (op, r.advance 10) ∧
      Corr (.mem .v128Load32Zero ⟨0x100000010#64, 2, 129⟩) op :=
  c14_instr_roundtrip every .block (.mem .v128Load32Zero ⟨0x100000010#64, 2, 129⟩)
    [0xFD, 0x5C, 0x42, 0x81, 0x01, 0x90, 0x80, 0x80, 0x80, 0x10] (by decide +kernel)
    ⟨by decide, .inl rfl, .inl rfl⟩ ⟨nofun, nofun, nofun⟩ r [0x0B] hr

example (r : Reader) (hr : r.rest = [0xFB, 0x19, 3, 4, 0x6B, 0xE3, 0x00, 0x0B]) :
    ∃ op, visitOperator ⟨false, false, false, false⟩ (some .if_) r = .ok (op, r.advance 7) ∧
      Corr (.cast .brOnCastFail 4 ⟨true, .abstract false .struct⟩ ⟨true, .concrete 0x63⟩) op :=
  c14_instr_roundtrip _ _ (.cast .brOnCastFail 4 ⟨true, .abstract false .struct⟩
    ⟨true, .concrete 0x63⟩) [0xFB, 0x19, 3, 4, 0x6B, 0xE3, 0x00] (by decide +kernel)
    ⟨trivial, by decide⟩ ⟨nofun, nofun, nofun⟩ r [0x0B] hr

example (r : Reader) (hr : r.rest = [0x07, 0x80, 0x01]) :
    ∃ op, visitOperator every (some .legacyCatch) r = .ok (op, r.advance 3) ∧
      Corr (.catch_ 128) op :=
  c14_instr_roundtrip every .legacyCatch (.catch_ 128) [0x07, 0x80, 0x01] (by decide +kernel) rfl
    ⟨nofun, fun _ => .inr rfl, nofun⟩ r [] hr

/-- The limits are needed: of `typed_select_multi` with one type, wasmparser makes another
operator, and it takes the alignment 64 for the mark of a memory index. -/
theorem c14_limits_needed :
    (∃ bytes op r', (Enc.Instr.typedSelectMulti [.i32]).encode = some bytes ∧
      visitOperator every (some .block) (Reader.new bytes 0) = .ok (op, r') ∧
      ¬ Corr (.typedSelectMulti [.i32]) op) ∧
    ∃ bytes op r', (Enc.Instr.mem .i32Load8U ⟨5, 64, 0⟩).encode = some bytes ∧
      visitOperator every (some .block) (Reader.new (bytes ++ [7]) 0) = .ok (op, r') ∧
      ¬ Corr (.mem .i32Load8U ⟨5, 64, 0⟩) op ∧ Corr (.mem .i32Load8U ⟨7, 0, 5⟩) op :=
  ⟨⟨[0x1C, 1, 0x7F], .typedSelect .i32, ⟨[0x1C, 1, 0x7F], 3, 0⟩, by decide +kernel,
      by decide +kernel, id⟩,
    ⟨[0x2D, 0x40, 5], .mem .i32Load8U ⟨0, 0, 7, 5⟩, ⟨[0x2D, 0x40, 5, 7], 4, 0⟩, by decide +kernel,
      by decide +kernel, fun h => absurd h.2.2.1 (by decide), rfl, by decide, rfl, rfl, rfl⟩⟩

/-- C15: no encoding is a prefix of another instruction's. -/
theorem c15_prefix_free (i j : Enc.Instr) (bi bj rest rest' : List UInt8) (ui : Unambiguous i)
    (uj : Unambiguous j) (hi : i.encode = some bi) (hj : j.encode = some bj)
    (he : bi ++ rest = bj ++ rest') : i = j ∧ rest = rest' :=
  prefix_free ui uj hi hj he

example : Unambiguous (.mem .i32Store ⟨8, 2, 1⟩) ∧ Unambiguous (.idx .localGet 300) ∧
    (Enc.Instr.mem .i32Store ⟨8, 2, 1⟩).encode = some [0x36, 0x42, 1, 8] ∧
    (Enc.Instr.idx .localGet 300).encode = some [0x20, 0xAC, 0x02] :=
  ⟨rfl, trivial, by decide +kernel, by decide +kernel⟩

/-- Instructions that are not `Unambiguous` can collide: the two typed selects, and an
alignment of 64 with a memory index. -/
theorem c15_ambiguous :
    (Enc.Instr.typedSelect .i32).encode = (Enc.Instr.typedSelectMulti [.i32]).encode ∧
    ∃ b, (Enc.Instr.mem .i32Load ⟨5, 64, 0⟩).encode = some b ∧
      (Enc.Instr.mem .i32Load ⟨7, 0, 5⟩).encode = some (b ++ [7]) :=
  ⟨rfl, [0x28, 0x40, 5], by decide +kernel, by decide +kernel⟩

/-- C15: the instructions can be told from their concatenated bytes. -/
theorem c15_sequences (is js : List Enc.Instr) (b : List UInt8) (ui : ∀ i ∈ is, Unambiguous i)
    (uj : ∀ j ∈ js, Unambiguous j) (hi : Enc.encodeSeq is = some b)
    (hj : Enc.encodeSeq js = some b) : is = js :=
  encodeSeq_inj ui uj hi hj

example : (∀ i ∈ [Enc.Instr.block .block (.functionType 3), .brTable [0, 1] 0, .end_],
      Unambiguous i) ∧
    Enc.encodeSeq [Enc.Instr.block .block (.functionType 3), .brTable [0, 1] 0, .end_] =
      some [0x02, 3, 0x0E, 2, 0, 1, 0, 0x0B] :=
  ⟨by simp [Unambiguous], by decide +kernel⟩

/-- C15: instructions within wasmparser's limits are unambiguous. -/
theorem c15_limits (f : Features) (i : Enc.Instr) (h : Fits f i) : Unambiguous i := by
  cases i with
  | mem o m => exact memFits_bit6 h
  | memLane o m l => exact memFits_bit6 h
  | typedSelectMulti ts => exact h.2.1
  | i8x16Shuffle ls => exact h
  | _ => trivial

example : Fits every (.typedSelectMulti [.i32, .ref ⟨true, .concrete 9⟩]) :=
  ⟨by decide, by decide, by decide⟩

/-- C15: the operator reader recovers every well-nested sequence, then `finish` succeeds. -/
theorem c15_read_back (f : Features) (is : List Enc.Instr) (b : List UInt8)
    (he : Enc.encodeSeq is = some b) (hf : ∀ i ∈ is, Fits f i) (hx : Expr (is.map tok))
    (r : Reader) (hr : r.rest = b) :
    ∃ ops s, (OperatorsReader.new r).collect f = .ok (ops, s) ∧ List.Forall₂ Corr is ops ∧
      s.finish = .ok () :=
  collect_encoded r he hf hx hr

example : Expr ([Enc.Instr.block .try_ .empty, .catch_ 3, .block .if_ (.result .i32), .else_,
    .end_, .catchAll, .end_, .end_].map tok) :=
  ⟨[.opensTry, .catch_, .opensIf, .else_, .end_, .catchAll, .end_],
    .try_ (b := []) (cs := [.catch_, .opensIf, .else_, .end_, .catchAll, .end_]) (rest := []) .nil
      (.catch_ (b := [.opensIf, .else_, .end_]) (cs := [.catchAll, .end_])
        (.ifElse (b := []) (e := []) (rest := []) .nil .nil .nil) (.catchAll .nil)) .nil, rfl⟩

/-- C15: whatever bytes the operator reader accepts up to `finish` are well nested. -/
theorem c15_read_grammar (f : Features) (r : Reader) (ops : List Operator) (s : OperatorsReader)
    (h : (OperatorsReader.new r).collect f = .ok (ops, s)) (hf : s.finish = .ok ()) :
    Expr (ops.map tokOp) :=
  collect_expr h hf

example : (OperatorsReader.new (Reader.new [0x04, 0x40, 0x05, 0x0B, 0x41, 5, 0x0B] 0)).collect every
      = .ok ([.block .if_ .empty, .else_, .end_, .i32Const 5, .end_],
        ⟨⟨[0x04, 0x40, 0x05, 0x0B, 0x41, 5, 0x0B], 7, 0⟩, ⟨[], none⟩⟩) ∧
    (OperatorsReader.mk ⟨[0x04, 0x40, 0x05, 0x0B, 0x41, 5, 0x0B], 7, 0⟩ ⟨[], none⟩).finish = .ok () := by
  decide +kernel

/-- An `else` outside of `if`, an `end` too many and an `end` too few are all refused. -/
example : (∃ e, (OperatorsReader.new (Reader.new [0x05, 0x0B] 0)).collect every = .error e) ∧
    (∃ e, (OperatorsReader.new (Reader.new [0x0B, 0x0B] 0)).collect every = .error e) ∧
    ∃ s, (OperatorsReader.new (Reader.new [0x02, 0x40, 0x0B] 0)).collect every =
      .ok ([.block .block .empty, .end_], s) ∧ s.finish ≠ .ok () :=
  ⟨⟨_, rfl⟩, ⟨_, rfl⟩, ⟨_, rfl, by decide +kernel⟩⟩

end Verif.Instr.Props
