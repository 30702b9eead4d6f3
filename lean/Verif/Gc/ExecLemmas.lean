import Verif.Gc.Part
import Verif.Gc.ExecSpec
/-! Lemmas for C59. -/
namespace Verif.Gc
open Verif.Reader Verif.Instr Verif.Instr.Spec Verif.Items Verif.Reenc Verif.Reenc.Spec Spec

variable {f : Instr.Features}

/-- The operator that the instruction is read as. -/
def readAs : Instr.Enc.Instr → Operator
  | .i32Const v => .i32Const v
  | .plain o => .plain o
  | .idx o i => .idx o i
  | .block o _ => .block o .empty
  | .memoryGrow i => .memoryGrow i
  | _ => .end_

/-- Instructions in the helpers. -/
def Small : Instr.Enc.Instr → Prop
  | .i32Const _ => True
  | .plain _ => True
  | .idx _ _ => True
  | .block _ t => t = .empty
  | .memoryGrow _ => True
  | .end_ => True
  | _ => False

theorem corr_readAs {i : Instr.Enc.Instr} {op : Operator} (hs : Small i) (h : Corr i op) :
    op = readAs i := by
  cases i with
  | i32Const v => cases op <;> first | (exact h.elim) | (cases (show v = _ from h); rfl)
  | plain v => cases op <;> first | (exact h.elim) | (cases (show v = _ from h); rfl)
  | memoryGrow v => cases op <;> first | (exact h.elim) | (cases (show v = _ from h); rfl)
  | idx o v => cases op <;> first | (exact h.elim) | (obtain ⟨rfl, rfl⟩ := h; rfl)
  | end_ => cases op <;> first | (exact h.elim) | rfl
  | block o t =>
    cases (show t = _ from hs)
    cases op <;> first | (exact h.elim) | skip
    next o' t' =>
    obtain ⟨rfl, h⟩ := h
    cases t' <;> first | (exact h.elim) | rfl
  | _ => exact hs.elim

theorem corr_all {is : List Instr.Enc.Instr} {ops : List Operator} (h : List.Forall₂ Corr is ops)
    (hs : ∀ i ∈ is, Small i) : ops = is.map readAs := by
  induction h with
  | nil => rfl
  | cons h1 _ ih =>
    rw [List.map_cons, corr_readAs (hs _ List.mem_cons_self) h1,
      ih fun i hi => hs i (List.mem_cons_of_mem _ hi)]

theorem orErr_some {α : Type} {x : Option α} {a : α} (h : orErr x = .ok a) : x = some a := by
  cases x with
  | none => cases h
  | some b => cases h; rfl

/-- A function with these locals and instructions is read back. -/
theorem function_read {es : List (BitVec 32 × Types.Enc.ValType)} {is : List Instr.Enc.Instr}
    {b : List UInt8} {ds : List (BitVec 32 × Types.ValType)} (h : function es is = .ok b)
    (hl : es.length < 2 ^ 32) (hf : ∀ e ∈ es, e.2.Fits) (ht : Total 0 es)
    (hd : ∀ ds', List.Forall₂ LocalIs ds' es → ds' = ds)
    (hs : ∀ i ∈ is, Small i) (hfit : ∀ i ∈ is, Fits f i) (hx : Expr (is.map tok))
    {P : List Operator → Prop} (hP : P (is.map readAs)) : Does f b ds P := by
  unfold function at h
  obtain ⟨head, h1, h⟩ := ebind_ok h
  obtain ⟨code, h2, h⟩ := ebind_ok h
  cases h
  obtain ⟨head', k1, k2, k3⟩ := functionNew_read hl hf ht
  have hh := orErr_some h1
  rw [k1] at hh
  cases hh
  intro q hq
  obtain ⟨ds', e1, e2⟩ := k2 q code hq
  have e3 := k3 q code hq
  obtain ⟨ops, s, g1, g2, g3⟩ := collect_encoded (r := q.advance head.length)
    (orErr_some h2) hfit hx (by simp [hq])
  refine ⟨ops, s, ?_, ?_, g3, ?_⟩
  · unfold localsOf
    rw [e1, hd ds' e2]
  · unfold operatorsOf operatorsReader
    rw [e3]
    exact g1
  · rw [corr_all g2 hs]
    exact hP

/-! ### Steps -/

section
variable {h : Host} {ops : List Operator} {w : World} {s l : List (BitVec 32)} {d : Nat}
variable {fr : Frame}

theorem exec_nil : exec h none [] fr = .done fr := rfl
theorem exec_const {v} : exec h none (.i32Const v :: ops) ⟨w, s, l⟩ = exec h none ops ⟨w, v :: s, l⟩ :=
  rfl
theorem exec_eq {a b} : exec h none (.plain .i32Eq :: ops) ⟨w, b :: a :: s, l⟩ =
    exec h none ops ⟨w, truth (a = b) :: s, l⟩ := rfl
theorem exec_ne {a b} : exec h none (.plain .i32Ne :: ops) ⟨w, b :: a :: s, l⟩ =
    exec h none ops ⟨w, truth (a ≠ b) :: s, l⟩ := rfl
theorem exec_add {a b} : exec h none (.plain .i32Add :: ops) ⟨w, b :: a :: s, l⟩ =
    exec h none ops ⟨w, (a + b) :: s, l⟩ := rfl
theorem exec_shl {a b} : exec h none (.plain .i32Shl :: ops) ⟨w, b :: a :: s, l⟩ =
    exec h none ops ⟨w, (a <<< (b.toNat % 32)) :: s, l⟩ := rfl
theorem exec_unreachable : exec h none (.plain .unreachable :: ops) fr = .trap := rfl
theorem exec_gget {i} : exec h none (.idx .globalGet i :: ops) ⟨w, s, l⟩ =
    exec h none ops ⟨w, w.globals i :: s, l⟩ := rfl
theorem exec_gset {i v} : exec h none (.idx .globalSet i :: ops) ⟨w, v :: s, l⟩ =
    exec h none ops ⟨w.set i v, s, l⟩ := rfl
theorem exec_lget {i v} (hv : l[i.toNat]? = some v) : exec h none (.idx .localGet i :: ops) ⟨w, s, l⟩ =
    exec h none ops ⟨w, v :: s, l⟩ := by
  show (match (match l[i.toNat]? with
      | some v => Frame.push ⟨w, s, l⟩ v
      | none => .stuck) with
    | .next fr => exec h none ops fr
    | .skip fr => exec h (some 0) ops fr
    | .trap => .trap
    | .stuck => .stuck) = _
  rw [hv]
  rfl
theorem exec_tee {i v} (hi : i.toNat < l.length) :
    exec h none (.idx .localTee i :: ops) ⟨w, v :: s, l⟩ =
    exec h none ops ⟨w, v :: s, l.set i.toNat v⟩ := by
  show (match (if i.toNat < l.length then Step.next ⟨w, v :: s, l.set i.toNat v⟩
      else .stuck) with
    | .next fr => exec h none ops fr
    | .skip fr => exec h (some 0) ops fr
    | .trap => .trap
    | .stuck => .stuck) = _
  rw [if_pos hi]
theorem exec_call {i a b c e} : exec h none (.idx .call i :: ops) ⟨w, e :: c :: b :: a :: s, l⟩ =
    match h.call i w a b c e with
    | some (w, v) => exec h none ops ⟨w, v :: s, l⟩
    | none => .trap := by
  show (match (match h.call i w a b c e with
      | some (w, v) => Step.next ⟨w, v :: s, l⟩
      | none => .trap) with
    | .next fr => exec h none ops fr
    | .skip fr => exec h (some 0) ops fr
    | .trap => .trap
    | .stuck => .stuck) = _
  cases h.call i w a b c e <;> rfl
theorem exec_if {t c} : exec h none (.block .if_ t :: ops) ⟨w, c :: s, l⟩ =
    if c = 0 then exec h (some 0) ops ⟨w, s, l⟩ else exec h none ops ⟨w, s, l⟩ := by
  show (match (if c = 0 then Step.skip ⟨w, s, l⟩ else .next ⟨w, s, l⟩) with
    | .next fr => exec h none ops fr
    | .skip fr => exec h (some 0) ops fr
    | .trap => .trap
    | .stuck => .stuck) = _
  by_cases hc : c = 0
  · rw [if_pos hc, if_pos hc]
  · rw [if_neg hc, if_neg hc]
theorem exec_end : exec h none (.end_ :: ops) fr = exec h none ops fr := rfl
theorem exec_grow {i n} : exec h none (.memoryGrow i :: ops) ⟨w, n :: s, l⟩ =
    if h.canGrow w.pages n = true then
      exec h none ops ⟨{ w with pages := w.pages + n.toNat }, BitVec.ofNat 32 w.pages :: s, l⟩
    else exec h none ops ⟨w, -1 :: s, l⟩ := by
  show (match (if h.canGrow w.pages n = true then
      Step.next ⟨{ w with pages := w.pages + n.toNat }, BitVec.ofNat 32 w.pages :: s, l⟩
      else Step.next ⟨w, -1 :: s, l⟩) with
    | .next fr => exec h none ops fr
    | .skip fr => exec h (some 0) ops fr
    | .trap => .trap
    | .stuck => .stuck) = _
  by_cases hc : h.canGrow w.pages n = true
  · rw [if_pos hc, if_pos hc]
  · rw [if_neg hc, if_neg hc]

theorem skip_const {v} : exec h (some d) (.i32Const v :: ops) fr = exec h (some d) ops fr := rfl
theorem skip_plain {v} : exec h (some d) (.plain v :: ops) fr = exec h (some d) ops fr := rfl
theorem skip_idx {o v} : exec h (some d) (.idx o v :: ops) fr = exec h (some d) ops fr := rfl
theorem skip_end : exec h (some 0) (.end_ :: ops) fr = exec h none ops fr := rfl

/-- `if unreachable end`. -/
theorem exec_check {c : BitVec 32} {t : BlockType} :
    exec h none (.block .if_ t :: .plain .unreachable :: .end_ :: ops) ⟨w, c :: s, l⟩ =
    if c = 0 then exec h none ops ⟨w, s, l⟩ else .trap := by
  rw [exec_if, skip_plain, skip_end, exec_unreachable]
end

end Verif.Gc
