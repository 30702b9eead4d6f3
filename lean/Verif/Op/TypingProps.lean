import Verif.Op.Unshared
import Verif.Op.BodyLemmas
import Verif.Op.Invert
/-! Validation of function bodies is type checking (C16, C17). -/
namespace Verif.Op.Props
open Verif.Op Verif.Op.Typing Verif.Op.View
open Verif.Types (ValType RefType AbsHeap)
open Verif.Instr (Operator BlockType)
open Verif.Reader (Reader)
open Verif.TypeList (Reaches SrcOp State)
open Verif.TypeList.Spec (SubT)

variable {f : TypeList.Features} {ops : List TypeList.Op} {src : List SrcOp} {s : State}
  {L : List (SubT Nat)} {m : Module} {n : Nat} {E : Env} {rf : Instr.Features} {body : Reader}
  {ty : BitVec 32} {sub : SubT Nat} {ps rs : List V}

/-- **C16.** The types of a validator are those after any history of modules and recursion groups
(`Reaches`), at most 2^20 of them, standing for the list `L`; `m` is one of its modules, and the
features do not include custom descriptors. When `FuncValidator::validate` accepts the bytes of a
body for a function type of the module, then the bytes are declarations of locals and operators
(`Parsed`), the declarations have types, and the operators are valid under the rules of the
specification (`Valid`).

The last part needs a condition when there is a branch table: no function type and no block has
shared references (see `c16_shared_table`). At most 1000 parameters can be read. -/
theorem c16_sound_partial (hr : Reaches f ops src s) (hL : TypeList.View s.types L)
    (hl : L.length ≤ 2 ^ 20) (hm : s.modules[n]? = some m.types) (ht : TagsOk L m)
    (hR : E.R = m.resources s.types L) (hE : E.f.customDescriptors = false)
    (hty : (ctxOf L m).type ty = some sub) (hcomp : sub.comp = .func ps rs)
    (hps : ps.length ≤ 50000) {S0 S : St} (h0 : newFunc E ty = .ok S0)
    (h : validate E rf body S0 = (.ok (), S)) :
    ∃ (ds : List (BitVec 32 × ValType)) (vs : List (BitVec 32 × V)) (os : List Operator),
      Parsed rf body ds os ∧
      List.Forall₂ (fun d v => d.1 = v.1 ∧ (ctxOf L m).ValTy d.2 v.2) ds vs ∧
      (((∀ t, Operator.brTable t ∉ os) ∨ UnsharedTypes (ctxOf L m) os) →
        Valid (Fn.body (ctxOf L m) ps rs (InitSpec.expand vs) sub.shared) os) := by
  have hf : Faithful E.R (ctxOf L m) := hR ▸ faithful_of hr hL hl ht
  have hc := ctxOk_of hr hL hl hm
  obtain ⟨ds, os, S1, h1, h2, h3⟩ := (validate_iff (newFunc_kinds h0)).1 h
  obtain ⟨vs, h4⟩ := sound_types hf hc hE hty hcomp h0 h2
  exact ⟨ds, vs, os, h1, h4, sound_fn hf hc hE hty hcomp hps h0 h4 h2 h3 (parsed_expr h1)
    (parsed_natural h1)⟩

/-- **C16** without shared types. When the feature shared-everything-threads is off, which it is
by default, validation is sound: the operators of an accepted body are valid, branch tables or
not. -/
theorem c16_sound (hr : Reaches f ops src s) (hL : TypeList.View s.types L)
    (hl : L.length ≤ 2 ^ 20) (hm : s.modules[n]? = some m.types) (ht : TagsOk L m)
    (hR : E.R = m.resources s.types L) (hE : E.f.customDescriptors = false)
    (hfs : f.sharedEverythingThreads = false) (hEs : E.f.sharedEverythingThreads = false)
    (hty : (ctxOf L m).type ty = some sub) (hcomp : sub.comp = .func ps rs)
    (hps : ps.length ≤ 50000) {S0 S : St} (h0 : newFunc E ty = .ok S0)
    (h : validate E rf body S0 = (.ok (), S)) :
    ∃ (ds : List (BitVec 32 × ValType)) (vs : List (BitVec 32 × V)) (os : List Operator),
      Parsed rf body ds os ∧
      List.Forall₂ (fun d v => d.1 = v.1 ∧ (ctxOf L m).ValTy d.2 v.2) ds vs ∧
      Valid (Fn.body (ctxOf L m) ps rs (InitSpec.expand vs) sub.shared) os := by
  obtain ⟨ds, vs, os, h1, h2, h3⟩ := c16_sound_partial hr hL hl hm ht hR hE hty hcomp hps h0 h
  obtain ⟨ds', os', S1, h4, -, h5⟩ := (validate_iff (newFunc_kinds h0)).1 h
  obtain ⟨rfl, rfl⟩ := h1.unique h4
  exact ⟨ds, vs, os, h1, h2, h3 (.inr (unshared_body hfs hr hL hEs h5))⟩

/-- **C17.** In the same situation, with all features but custom descriptors: bytes that are
declarations of locals with types and operators that are valid are accepted, when there are at
most 50000 locals and no exact reference types, which belong to custom descriptors. -/
theorem c17_complete (hr : Reaches f ops src s) (hL : TypeList.View s.types L)
    (hl : L.length ≤ 2 ^ 20) (hm : s.modules[n]? = some m.types) (ht : TagsOk L m)
    (hR : E.R = m.resources s.types L) (hE : E.f = fullFeatures)
    (hty : (ctxOf L m).type ty = some sub) (hcomp : sub.comp = .func ps rs)
    {ds : List (BitVec 32 × ValType)} {vs : List (BitVec 32 × V)} {os : List Operator}
    (hp : Parsed rf body ds os)
    (hd : List.Forall₂ (fun d v => d.1 = v.1 ∧ (ctxOf L m).ValTy d.2 v.2) ds vs)
    (hlen : (ps ++ InitSpec.expand vs).length ≤ 50000)
    (hn : (∀ d ∈ ds, NoExactVal d.2) ∧ ∀ o ∈ os, NoExact o)
    (hv : Valid (Fn.body (ctxOf L m) ps rs (InitSpec.expand vs) sub.shared) os) :
    ∃ S0 S, newFunc E ty = .ok S0 ∧ validate E rf body S0 = (.ok (), S) := by
  have hf : Faithful E.R (ctxOf L m) := hR ▸ faithful_of hr hL hl ht
  have hc := ctxOk_of hr hL hl hm
  obtain ⟨S0, S1, h0, h1⟩ := start_complete hf hc hE hty hcomp hd hn.1 hlen
  obtain ⟨S, h2, -⟩ := complete_fn hf hc hE hty hcomp
    (by rw [List.length_append] at hlen; omega) h0 hd h1 hv
    fun o ho => ⟨parsed_natural hp o ho, hn.2 o ho⟩
  exact ⟨S0, S, h0, (validate_iff (newFunc_kinds h0)).2 ⟨ds, os, S1, hp, h1, h2⟩⟩

/-! ## An example -/

namespace Sample

def anyref : RefType := ⟨RefType.nullableBit ||| RefType.anyAbstype⟩

/-- `(struct (field (mut i32)))`. -/
def t0 : Types.SubType := ⟨true, none, ⟨.struct [⟨.val .i32, true⟩], false, none, none⟩⟩
/-- `(func (param i32) (result i32))`. -/
def t1 : Types.SubType := ⟨true, none, ⟨.func ⟨[.i32, .i32], 1⟩, false, none, none⟩⟩
/-- `(func (result anyref))`. -/
def t2 : Types.SubType := ⟨true, none, ⟨.func ⟨[.ref anyref], 0⟩, false, none, none⟩⟩

def x0 : SubT Nat := ⟨true, none, false, none, none, .struct [⟨true, .val .i32⟩]⟩
def x1 : SubT Nat := ⟨true, none, false, none, none, .func [.i32] [.i32]⟩
def x2 : SubT Nat := ⟨true, none, false, none, none, .func [] [.ref ⟨true, .abs false .any⟩]⟩

def hist : List TypeList.Op :=
  [.newModule, .add 0 (.implicit 0 t0), .add 0 (.implicit 0 t1), .add 0 (.implicit 0 t2)]

def list : List (SubT Nat) := [x0, x1, x2]

def state : State :=
  match TypeList.run TypeList.allOn .init hist with
  | .ok s => s
  | .error _ => .init

def srcs : List SrcOp := [.newModule, .add 0 [x0], .add 0 [x1], .add 0 [x2]]

theorem reaches : Reaches TypeList.allOn hist srcs state := by
  obtain ⟨s, hs⟩ := TypeList.Sample.ok hist TypeList.allOn (by decide +kernel)
  refine ⟨.cons trivial (.cons ⟨rfl, ?_⟩ (.cons ⟨rfl, ?_⟩ (.cons ⟨rfl, ?_⟩ .nil))), ?_⟩
  · refine ⟨.cons ⟨rfl, trivial, rfl, trivial, trivial, .cons ⟨rfl, trivial⟩ .nil⟩ .nil, ?_⟩
    decide +kernel
  · refine ⟨.cons ⟨rfl, trivial, rfl, trivial, trivial, .cons trivial (.cons trivial .nil), rfl⟩
      .nil, ?_⟩
    decide +kernel
  · refine ⟨.cons ⟨rfl, trivial, rfl, trivial, trivial, .cons ?_ .nil, rfl⟩ .nil, ?_⟩
    · show RefType.new true (.abstract false .any) = some anyref
      decide
    · decide +kernel
  · unfold state
    rw [hs]

theorem view : TypeList.View state.types list := by
  have h : state.types.coreTypes = [t0, t1, t2] := by decide +kernel
  refine ⟨?_, by decide +kernel⟩
  rw [h]
  refine .cons ⟨rfl, trivial, rfl, trivial, trivial, .cons ⟨rfl, trivial⟩ .nil⟩
    (.cons ⟨rfl, trivial, rfl, trivial, trivial, .cons trivial (.cons trivial .nil), rfl⟩
    (.cons ⟨rfl, trivial, rfl, trivial, trivial, .cons ?_ .nil, rfl⟩ .nil))
  show RefType.new true (.abstract false .any) = some anyref
  decide

/-- A module with the three types and nothing else. -/
def mod : Module where
  types := [0, 1, 2]
  tables := []
  memories := []
  globals := []
  elementTypes := []
  dataCount := none
  functions := []
  tags := []
  functionReferences := []
  exactFunctionImports := []
  numImportedFunctions := 0

def env : Env where
  f := fullFeatures
  R := mod.resources state.types list
  bs := Std.BSearch.linear

theorem mod_types : state.modules[0]? = some mod.types := by decide +kernel

theorem tags : TagsOk list mod := nofun

/-- A function of type 1 with a local `(ref null 0)`:
`local.get 0  struct.new 0  local.set 1  (block (result i32)  local.get 1  struct.get 0 0
local.get 0  br_table 0 1)`. -/
def bytes : Reader := Reader.new [0x01, 0x01, 0x63, 0x00, 0x20, 0x00, 0xfb, 0x00, 0x00, 0x21, 0x01,
  0x02, 0x7f, 0x20, 0x01, 0xfb, 0x02, 0x00, 0x00, 0x20, 0x00, 0x0e, 0x01, 0x00, 0x01, 0x0b, 0x0b] 0

/-- The outcome of validation. -/
def outcome (ty : BitVec 32) (body : Reader) : Except Fail Unit :=
  match newFunc env ty with
  | .error e => .error e
  | .ok S0 => (validate env Instr.allFeatures body S0).1

theorem accepted : outcome 1 bytes = .ok () := by decide +kernel

theorem accepted_states {ty : BitVec 32} {b : Reader} (h : outcome ty b = .ok ()) :
    ∃ S0 S, newFunc env ty = .ok S0 ∧ validate env Instr.allFeatures b S0 = (.ok (), S) := by
  unfold outcome at h
  split at h
  · cases h
  · next S0 h0 => exact ⟨S0, _, h0, Prod.ext h rfl⟩

theorem unshared_types (os : List Operator) (h : ∀ o ∈ os, ∀ t, inlineTy o = some t → t = .i32) :
    UnsharedTypes (ctxOf list mod) os := by
  refine ⟨fun i x ps rs hx hc t ht r hr => ?_, fun o ho t v ht hv r hr => ?_⟩
  · obtain ⟨j, _, hj⟩ := Option.bind_eq_some_iff.1 hx
    have hx : x ∈ list := List.mem_of_getElem? hj
    simp only [list, List.mem_cons, List.not_mem_nil, or_false] at hx
    rcases hx with rfl | rfl | rfl
    · cases hc
    · cases hc
      simp at ht
      subst ht
      cases hr
    · cases hc
      simp at ht
      subst ht
      cases hr
      rfl
  · cases h o ho t ht
    have : v = .i32 := hv
    rw [this] at hr
    cases hr

/-- What is in the bytes. -/
def operators : List Operator := [.idx .localGet 0, .idx .structNew 0, .idx .localSet 1,
  .block .block (.type .i32), .idx .localGet 1, .idx2 .structGet 0 0, .idx .localGet 0,
  .brTable ⟨⟨[0], 0, 23⟩, 1, 1⟩, .end_, .end_]

def localTy : RefType := RefType.concrete true ⟨0⟩

theorem parsed : Parsed Instr.allFeatures bytes [(1, .ref localTy)] operators := by
  refine ⟨1, ⟨bytes.buffer, 1, 0⟩, ⟨bytes.buffer, 4, 0⟩, ⟨⟨bytes.buffer, 27, 0⟩, ⟨[], none⟩⟩,
    by decide +kernel, .cons (r1 := ⟨bytes.buffer, 2, 0⟩) (r2 := ⟨bytes.buffer, 4, 0⟩)
      (by decide +kernel) (by decide +kernel) (.nil _), by decide +kernel, by decide +kernel⟩

/-- The type of the local. -/
def localVs : List (BitVec 32 × V) := [(1, .ref ⟨true, .concrete 0⟩)]

theorem localTys : List.Forall₂ (fun d v => d.1 = v.1 ∧ (ctxOf list mod).ValTy d.2 v.2)
    [((1 : BitVec 32), ValType.ref localTy)] localVs :=
  .cons ⟨rfl, _, ⟨.concrete (.module 0), by decide, ⟨0, rfl, rfl⟩, by decide⟩, rfl⟩ .nil

theorem ctx_ok : CtxOk (ctxOf list mod) := ctxOk_of reaches view (by decide) mod_types

/-- The hypotheses of `c16_sound_partial` are met, and the function is valid. -/
theorem sample_valid :
    Valid (Fn.body (ctxOf list mod) [.i32] [.i32] (InitSpec.expand localVs) false) operators := by
  obtain ⟨S0, S, h0, h1⟩ := accepted_states accepted
  obtain ⟨ds, vs, os, h2, h3, h4⟩ := c16_sound_partial (n := 0) (sub := x1) reaches view (by decide)
    mod_types tags rfl rfl rfl rfl (by decide) h0 h1
  obtain ⟨rfl, rfl⟩ := h2.unique parsed
  cases h3 with
  | @cons _ v _ _ h5 h6 =>
  cases h6
  obtain ⟨n, t⟩ := v
  obtain ⟨rfl, h7⟩ := h5
  cases localTys with
  | cons h8 _ =>
  cases ValTy.unique ctx_ok h7 h8.2
  refine h4 (.inr (unshared_types _ ?_))
  intro o ho t ht
  simp only [operators, List.mem_cons, List.not_mem_nil, or_false] at ho
  rcases ho with rfl | rfl | rfl | rfl | rfl | rfl | rfl | rfl | rfl | rfl <;> cases ht
  rfl

/-- The features without shared types. -/
def unsharedEnv : Env := { env with f := { fullFeatures with sharedEverythingThreads := false } }

/-- The hypotheses of `c16_sound` are met. -/
example : ∃ vs, Valid (Fn.body (ctxOf list mod) [.i32] [.i32] (InitSpec.expand vs) false)
    operators := by
  have hr : Reaches unsharedEnv.f.types hist srcs state := ⟨reaches.1, by
    rw [← reaches.2]
    rfl⟩
  have hacc : (match newFunc unsharedEnv 1 with
    | .error e => .error e
    | .ok S0 => (validate unsharedEnv Instr.allFeatures bytes S0).1 : Except Fail Unit) =
      .ok () := by decide +kernel
  split at hacc
  · cases hacc
  · next S0 h0 =>
    obtain ⟨ds, vs, os, h1, -, h2⟩ := c16_sound (n := 0) (sub := x1) hr view (by decide) mod_types
      tags rfl rfl rfl rfl rfl rfl (by decide) h0 (Prod.ext hacc rfl)
    obtain ⟨-, rfl⟩ := h1.unique parsed
    exact ⟨vs, h2⟩

/-- The hypotheses of `c17_complete` are met. -/
example : ∃ S0 S, newFunc env 1 = .ok S0 ∧
    validate env Instr.allFeatures bytes S0 = (.ok (), S) := by
  refine c17_complete (n := 0) (sub := x1) reaches view (by decide) mod_types tags rfl rfl rfl rfl
    parsed localTys (by decide) ⟨?_, ?_⟩ sample_valid
  · intro d hd
    cases List.mem_singleton.1 hd
    intro h hh
    cases hh.symm.trans (show localTy.heapType = some (.concrete (.module 0)) by decide)
    trivial
  · intro o ho
    simp only [operators, List.mem_cons, List.not_mem_nil, or_false] at ho
    rcases ho with rfl | rfl | rfl | rfl | rfl | rfl | rfl | rfl | rfl | rfl <;> trivial

/-- A body that is not valid is not accepted: `local.get 1` before the local is set is fine, since
it has a default value, but the `struct.get` of an integer is not. -/
example : outcome 1 (Reader.new [0x00, 0x20, 0x00, 0xfb, 0x02, 0x00, 0x00, 0x0b] 0) =
    .error .error := by decide +kernel

/-- A function of type 2: `(block (result (ref null (shared any)))  unreachable
any.convert_extern  i32.const 0  br_table 0 1)  drop  unreachable`. -/
def tableBytes : Reader := Reader.new [0x00, 0x02, 0x63, 0x65, 0x6e, 0x00, 0xfb, 0x1a, 0x41, 0x00,
  0x0e, 0x01, 0x00, 0x01, 0x0b, 0x1a, 0x00, 0x0b] 0

def sharedAnyref : RefType := ⟨0x7e0000⟩

def table : Instr.BrTable := ⟨⟨[0], 0, 12⟩, 1, 1⟩

def tableOps : List Operator := [.block .block (.type (.ref sharedAnyref)), .plain .unreachable,
  .plain .anyConvertExtern, .i32Const 0, .brTable table, .end_, .plain .drop,
  .plain .unreachable, .end_]

theorem table_parsed : Parsed Instr.allFeatures tableBytes [] tableOps :=
  ⟨0, ⟨tableBytes.buffer, 1, 0⟩, ⟨tableBytes.buffer, 1, 0⟩,
    ⟨⟨tableBytes.buffer, 18, 0⟩, ⟨[], none⟩⟩, by decide +kernel, .nil _, by decide +kernel,
    by decide +kernel⟩

theorem table_accepted : outcome 2 tableBytes = .ok () := by decide +kernel

end Sample

open Sample in
/-- **C16**, why the condition on branch tables is there: this body is accepted, and it is not
valid. In unreachable code the operand of the branch table is some reference below `any`, shared
or not; it is accepted for a label with `(ref null any)` and also for one with
`(ref null (shared any))`. -/
theorem c16_shared_table :
    Reaches TypeList.allOn hist srcs state ∧ TypeList.View state.types list ∧
    state.modules[0]? = some mod.types ∧ env.R = mod.resources state.types list ∧
    env.f.customDescriptors = false ∧
    (∃ S0 S, newFunc env 2 = .ok S0 ∧
      validate env Instr.allFeatures tableBytes S0 = (.ok (), S)) ∧
    ∃ (ps rs : List V), (ctxOf list mod).type 2 = some x2 ∧ x2.comp = .func ps rs ∧
    ∀ (ds : List (BitVec 32 × ValType)) (vs : List (BitVec 32 × V)) (os : List Operator),
      Parsed Instr.allFeatures tableBytes ds os →
      List.Forall₂ (fun d v => d.1 = v.1 ∧ (ctxOf list mod).ValTy d.2 v.2) ds vs →
      ¬ Valid (Fn.body (ctxOf list mod) ps rs (InitSpec.expand vs) x2.shared) os := by
  refine ⟨reaches, view, mod_types, rfl, rfl, accepted_states table_accepted, _, _, rfl, rfl, ?_⟩
  rintro ds vs os hp hd ⟨body, I', e, hs⟩
  obtain ⟨rfl, rfl⟩ := hp.unique table_parsed
  have e : ([.block .block (.type (.ref sharedAnyref)), .plain .unreachable,
    .plain .anyConvertExtern, .i32Const 0, .brTable table, .end_, .plain .drop,
    .plain .unreachable] : List Operator) ++ [.end_] = body ++ [.end_] := e
  cases List.append_inj_left' e rfl
  obtain ⟨ps, rs, J, J', hb, hs⟩ := seq_block hs [] [.plain .drop, .plain .unreachable]
    [.plain .unreachable, .plain .anyConvertExtern, .i32Const 0, .brTable table]
    (.type (.ref sharedAnyref)) rfl (by simp) (by simp [Leaf, dep]) (by simp [Leaf, dep])
  obtain ⟨-, v, ⟨r, ⟨h, h1, h2, -⟩, rfl⟩, rfl⟩ := hb
  cases h1.symm.trans (show sharedAnyref.heapType = some (.abstract true .any) by decide)
  have h2 : r.heap = .abs true .any := h2
  exact absurd (no_shared_table (F := (Fn.body _ _ _ _ _).label _)
    (pre := [.plain .unreachable]) (t := table) (i := 0) ctx_ok (by simp [Leaf, dep])
    (show table.targets = .ok [0] by decide) (by simp) rfl rfl rfl rfl h2 rfl hs) (by decide)

end Verif.Op.Props
