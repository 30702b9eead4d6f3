import Verif.Valid.AllDone
import Verif.Valid.Props
import Verif.Op.TypingProps
/-! # Properties: valid core modules are accepted

C61. `Validator::validate_all` (`validateAll`) accepts what is valid by `Spec.ModuleOk`, within the
limits of limits.rs (`Spec.Fits`). -/
namespace Verif.Valid.Props
open Verif.Reader Verif.Items Verif.Parser
open Verif.Types (ValType)
open Verif.TypeList (TypeList Reaches)
open Verif.TypeList.Spec (SubT)
open Verif.Op Verif.Op.Typing Verif.Op.View Verif.Valid.Spec
open Verif.Instr (Operator)
open Verif.Std (BSearch)

variable {f : Feats} {bs : BSearch} {off : Nat} {data : List UInt8} {tr : List Event}

/-- **C61.** Whatever module is valid, whatever its bytes and whatever its types, items and function
bodies are: if the bytes can be parsed, begin as those of a module and have no sections with unknown
ids, if all features but custom descriptors are on, and if the module keeps to the implementation
limits, then the validator accepts it. -/
theorem c61_complete (ha : AllFeats f) (hsize : off + data.length ≤ u64Max)
    (hd : DriveAll (Parser.new off) data tr none)
    (hv : ∃ n num rg, tr.head? = some ⟨n, .version num .module rg⟩)
    (hk : ∀ e ∈ tr, ∀ id c r, e.payload ≠ .unknown id c r)
    {M : Mod} (hs : Says f.reader tr M) {C : Ctx} (hm : ModuleOk C (BodyOk C) M)
    (hf : Fits f tr C M) : ∃ V', validateAll f bs .new tr none = .ok V' :=
  complete ha hsize hd hv hk hs hm hf

/-! ## An example -/

namespace AllSample

/-- A type `[i32] -> [i32]`, a function with the body `local.get 0`, a memory, a global that is
`i32.const 5`, an export of the function and a data segment. -/
def bytes : List UInt8 := [
  0x00, 0x61, 0x73, 0x6d, 0x01, 0x00, 0x00, 0x00,
  0x01, 0x06, 0x01, 0x60, 0x01, 0x7f, 0x01, 0x7f,
  0x03, 0x02, 0x01, 0x00,
  0x05, 0x03, 0x01, 0x00, 0x01,
  0x06, 0x06, 0x01, 0x7f, 0x00, 0x41, 0x05, 0x0b,
  0x07, 0x05, 0x01, 0x01, 0x66, 0x00, 0x00,
  0x0a, 0x06, 0x01, 0x04, 0x00, 0x20, 0x00, 0x0b,
  0x0b, 0x07, 0x01, 0x00, 0x41, 0x00, 0x0b, 0x01, 0x61]

/-- All features but custom descriptors. -/
def feats : Feats := { ModSample.feats with toFeatures := fullFeatures }

def run : List Event := ModSample.run bytes

def ty : SubT Nat := ⟨true, none, false, none, none, .func [.i32] [.i32]⟩

def mod : Mod where
  types := [[ty]]
  imports := []
  funcs := [0]
  tables := []
  mems := [⟨false, false, 1, none, none⟩]
  tags := []
  globals := [(⟨.i32, false, false⟩, [.i32Const 5, .end_])]
  exports := [⟨[0x66], .func, 0⟩]
  start := none
  elems := []
  dataCount := none
  bodies := [([], [.idx .localGet 0, .end_])]
  datas := [some (0, [.i32Const 0, .end_])]

def defs : Nat → Option (SubT Nat)
  | 0 => some ty
  | _ => none

def ctx : Ctx where
  types := [0]
  defs := defs
  funcs := [0]
  tables := []
  mems := [false]
  tags := []
  globals := [⟨.i32, false, false⟩]
  elems := []
  datas := 0
  refs := [0]

theorem defs_some {id : Nat} {x : SubT Nat} (h : defs id = some x) : id = 0 ∧ x = ty := by
  match id, h with
  | 0, h => exact ⟨rfl, (Option.some.inj h).symm⟩

theorem drive : DriveAll (Parser.new 0) bytes run none := driveFuel_sound 60 (by decide +kernel)

theorem holds {α : Type} [DecidableEq α] {id : UInt8} {item : R α} {xs : List α}
    {sec : SectionLimited} (h1 : sectionAt run id = some sec)
    (h2 : (match sec.collect item with | .ok ys => decide (ys = xs) | .error _ => false) = true) :
    Holds run id item xs := by
  unfold Holds
  rw [h1]
  show sec.collect item = .ok xs
  split at h2
  · next ys h => rw [h, of_decide_eq_true h2]
  · cases h2

theorem absent {α : Type} {id : UInt8} {item : R α} (h : sectionAt run id = none) :
    Holds run id item [] := by
  unfold Holds
  rw [h]

theorem const (n : BitVec 32) {C : Ctx} : ConstTy C [.i32Const n, .end_] .i32 := by
  have h : Simple (Fn.body C [] [.i32] [] false) [] (.i32Const n) [] [.i32] := by
    unfold Simple
    exact ⟨rfl, rfl⟩
  refine ⟨⟨[.i32Const n], _, rfl, .instr (.simple h)⟩, ?_⟩
  intro o ho
  simp only [List.mem_cons, List.not_mem_nil, or_false] at ho
  rcases ho with rfl | rfl
  · exact .inr trivial
  · exact .inl rfl

theorem funcAt : FuncAt ctx 0 ty [.i32] [.i32] := ⟨rfl, rfl⟩

theorem body : BodyOk ctx 0 ([], [.idx .localGet 0, .end_]) := by
  have h : Simple (Fn.body ctx [.i32] [.i32] (InitSpec.expand []) false) [] (.idx .localGet 0) []
      [.i32] := by
    unfold Simple
    exact ⟨.i32, rfl, .inl (by decide), rfl, rfl⟩
  exact ⟨ty, _, _, [], funcAt, .nil, [.idx .localGet 0], _, rfl, .instr (.simple h)⟩

theorem ok : ModuleOk ctx (BodyOk ctx) mod where
  types := {
    length := rfl
    scope := by
      intro k g hg x hx r hr
      match k, hg with
      | 0, hg =>
        cases hg
        cases List.mem_singleton.1 hx
        cases hr
    defs := by
      intro i x hx
      match i, hx with
      | 0, hx => cases hx; exact ⟨0, rfl, rfl⟩
    ids := by
      intro i j hi h
      match i, j, hi, h with
      | 0, 0, _, _ => rfl
      | 0, j + 1, _, h => cases h
    super := by
      intro id x j h hj
      obtain ⟨-, rfl⟩ := defs_some h
      cases hj
    shared := by
      intro id x h hj
      obtain ⟨-, rfl⟩ := defs_some h
      cases hj
    cont := by
      intro id x j h hj
      obtain ⟨-, rfl⟩ := defs_some h
      cases hj }
  funcs := rfl
  funcTypes := by
    intro i hi
    cases List.mem_singleton.1 hi
    exact ⟨_, _, _, funcAt⟩
  tables := .nil
  mems := .cons ⟨rfl, (fun _ h => nomatch h), ⟨by decide, (fun _ h => nomatch h)⟩, (fun h => nomatch h)⟩ .nil
  tags := .nil
  globals := .cons ⟨rfl, rfl, rfl, (fun h => nomatch h)⟩ .nil
  tableInits := .nil
  globalInits := by
    intro k t os g h1 h2
    match k, h1, h2 with
    | 0, h1, h2 => cases h1; cases h2; exact const 5
  exports := by
    intro x hx
    cases List.mem_singleton.1 hx
    exact Nat.one_pos
  exportNames := by decide
  start := fun _ h => nomatch h
  elems := .nil
  dataCount := ⟨rfl, (fun _ h => nomatch h)⟩
  datas := by
    intro x hx
    cases List.mem_singleton.1 hx
    exact ⟨false, rfl, const 0⟩
  bodies := .cons body .nil
  refs := by
    intro i
    constructor
    · intro hi
      cases List.mem_singleton.1 hi
      exact .inr (.inr (.inl ⟨_, List.mem_singleton.2 rfl, rfl, rfl⟩))
    · rintro (⟨t, h, -⟩ | ⟨g, h, h1⟩ | ⟨x, h, -, h1⟩ | ⟨e, h, -⟩ | ⟨d, h, j, os, h1, h2⟩)
      · cases h
      · cases List.mem_singleton.1 h
        revert h1
        unfold Refs
        simp
      · cases List.mem_singleton.1 h
        subst h1
        exact List.mem_singleton.2 rfl
      · cases h
      · cases List.mem_singleton.1 h
        cases h1
        revert h2
        unfold Refs
        simp

theorem saysMod : Says feats.reader run mod where
  types := by
    refine ⟨[.implicit 11 ⟨true, none, ⟨.func ⟨[.i32, .i32], 1⟩, false, none, none⟩⟩], ?_, ?_⟩
    · refine holds (sec := ⟨⟨[0x01, 0x60, 0x01, 0x7f, 0x01, 0x7f], 1, 10⟩, 1⟩) ?_ ?_ <;> decide +kernel
    · refine .cons ⟨.cons ⟨rfl, trivial, rfl, trivial, trivial, .cons trivial (.cons trivial .nil), rfl⟩
        .nil, ?_⟩ .nil
      decide +kernel
  imports := ⟨[], [], absent (by decide +kernel), .nil, rfl⟩
  funcs := by
    refine holds (sec := ⟨⟨[0x01, 0x00], 1, 18⟩, 1⟩) ?_ ?_ <;> decide +kernel
  tables := ⟨[], absent (by decide +kernel), .nil⟩
  mems := by
    refine holds (sec := ⟨⟨[0x01, 0x00, 0x01], 1, 22⟩, 1⟩) ?_ ?_ <;> decide +kernel
  tags := absent (by decide +kernel)
  globals := by
    refine ⟨[⟨⟨.i32, false, false⟩, ⟨⟨[0x41, 0x05, 0x0b], 0, 30⟩⟩⟩], ?_, ?_⟩
    · refine holds (sec := ⟨⟨[0x01, 0x7f, 0x00, 0x41, 0x05, 0x0b], 1, 27⟩, 1⟩) ?_ ?_ <;> decide +kernel
    · refine .cons ⟨rfl, ⟨⟨[0x41, 0x05, 0x0b], 3, 30⟩, ⟨[], none⟩⟩, ?_, ?_⟩ .nil <;> decide +kernel
  exports := by
    refine holds (sec := ⟨⟨[0x01, 0x01, 0x66, 0x00, 0x00], 1, 35⟩, 1⟩) ?_ ?_ <;> decide +kernel
  start := by decide +kernel
  elems := ⟨[], absent (by decide +kernel), .nil⟩
  dataCount := by decide +kernel
  bodies := by
    have : bodiesAt run = [⟨[0x00, 0x20, 0x00, 0x0b], 0, 44⟩] := by decide +kernel
    rw [this]
    refine .cons ⟨0, ⟨[0x00, 0x20, 0x00, 0x0b], 1, 44⟩, ⟨[0x00, 0x20, 0x00, 0x0b], 1, 44⟩,
      ⟨⟨[0x00, 0x20, 0x00, 0x0b], 4, 44⟩, ⟨[], none⟩⟩,
      by decide +kernel, .nil _, by decide +kernel, by decide +kernel⟩ .nil
  datas := by
    refine ⟨[⟨.active 0 ⟨⟨[0x41, 0x00, 0x0b], 0, 52⟩⟩, [0x61], (51, 57)⟩], ?_, ?_⟩
    · refine holds (sec := ⟨⟨[0x01, 0x00, 0x41, 0x00, 0x0b, 0x01, 0x61], 1, 50⟩, 1⟩) ?_ ?_ <;>
        decide +kernel
    · refine .cons ⟨rfl, ⟨⟨[0x41, 0x00, 0x0b], 3, 52⟩, ⟨[], none⟩⟩, ?_, ?_⟩ .nil <;> decide +kernel

def isKnown : Payload → Bool
  | .unknown .. => false
  | _ => true

theorem known : ∀ e ∈ run, ∀ id c r, e.payload ≠ .unknown id c r := by
  have h : run.all (fun e => isKnown e.payload) = true := by decide +kernel
  intro e he id c r hp
  have := List.all_eq_true.1 h e he
  rw [hp] at this
  cases this

theorem plain (n : BitVec 32) : Plainly [.i32Const n, .end_] := by
  intro o ho
  simp only [List.mem_cons, List.not_mem_nil, or_false] at ho
  rcases ho with rfl | rfl <;> trivial

theorem fits : Fits feats run ctx mod where
  types := {
    numbered := ⟨1, by
      have := TypeList.Numbered.new (d := (TypeList.Spec.rollAll [[ty]])[0]'(by decide)) .nil List.not_mem_nil
      exact this, by
      intro id x h
      obtain ⟨rfl, -⟩ := defs_some h
      decide⟩
    few := by decide
    depth := by
      intro id x h
      obtain ⟨rfl, -⟩ := defs_some h
      exact ⟨0, by decide, .top (x := ty) rfl rfl⟩
    feats := by
      intro x hx
      cases List.mem_singleton.1 hx
      refine ⟨⟨fun _ => rfl, (fun h => nomatch h), ?_, fun _ => rfl⟩, rfl, rfl⟩
      intro v hv
      rcases List.mem_cons.1 hv with rfl | hv
      · trivial
      · cases List.mem_singleton.1 hv
        trivial }
  groups := by decide
  imports := by
    intro sec h
    rw [show sectionAt run 2 = none by decide +kernel] at h
    cases h
  funcs := by decide
  tables := by decide
  mems := by decide
  tags := by decide
  globals := by decide
  exports := by decide
  elems := by decide
  items := fun _ h => nomatch h
  datas := by decide
  size := by decide
  bodies := by decide +kernel
  locals := .cons (by
    intro x ps rs h
    obtain ⟨h1, h2⟩ := h
    cases (show some ty = some x from h1)
    cases h2
    decide) .nil
  plainImports := fun _ h => nomatch h
  plainTables := fun _ h => nomatch h
  plainGlobals := by
    intro g hg
    cases List.mem_singleton.1 hg
    exact ⟨trivial, plain 5⟩
  plainElems := fun _ h => nomatch h
  plainDatas := by
    intro d hd i os h
    cases List.mem_singleton.1 hd
    cases h
    exact plain 0
  plainBodies := by
    intro b hb
    cases List.mem_singleton.1 hb
    refine ⟨(fun _ h => nomatch h), ?_⟩
    intro o ho
    simp only [List.mem_cons, List.not_mem_nil, or_false] at ho
    rcases ho with rfl | rfl <;> trivial

end AllSample

/-- The hypotheses of C61 hold for this module. -/
example : ∃ V', validateAll AllSample.feats BSearch.linear .new AllSample.run none = .ok V' :=
  c61_complete ⟨rfl, rfl, rfl, rfl, rfl, rfl⟩ (by decide) AllSample.drive
    ⟨8, 1, (0, 8), by decide +kernel⟩ AllSample.known AllSample.saysMod AllSample.ok AllSample.fits

end Verif.Valid.Props
