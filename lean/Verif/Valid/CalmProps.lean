import Verif.Valid.CalmRun
import Verif.Valid.Props
import Verif.TypeList.Big
/-! # Properties: validation does not panic

C55. `Validator::validate_all` (`validateAll`) and the validation of function bodies return, or
report an error, whatever bytes the parser was given. -/
namespace Verif.Valid.Props
open Verif.Reader Verif.Items Verif.Parser
open Verif.TypeList (TypeList Reaches)
open Verif.Op.Typing Verif.Op.View
open Verif.Op.Calm (Answers alt)
open Verif.Std (BSearch)

variable {f : Feats} {bs : BSearch} {off : Nat} {data : List UInt8} {tr : List Event}
  {out : Option Err} {V V' : Validator}

/-- **C55.** Whatever bytes are given to a new validator, with whatever features: it does not
panic. -/
theorem c55_new (hd : DriveAll (Parser.new off) data tr out) :
    validateAll f bs .new tr out ≠ .error .panic :=
  (validateAll_calm hd (ops := []) (os := []) (z := .init) ⟨.nil, rfl⟩ rfl rfl rfl
    (by decide)).1

/-- **C55** for a validator that has validated other modules and was reset. It must have room for
the types of another module (otherwise it is false, see `c55_false`). Its types come from any history of modules
and recursion groups. -/
theorem c55_reused (hd : DriveAll (Parser.new off) data tr out) {ops os s}
    (hT : Reaches f.types ops os s) (hV : V.types = s.types) (hs : V.state = .unparsed)
    (hm : V.module = none) (hroom : V.types.coreTypes.length + 1000000 ≤ 2 ^ 20) :
    validateAll f bs V tr out ≠ .error .panic :=
  (validateAll_calm hd hT hV hs hm hroom).1

/-! ## Questions about types

The operator validator asks whether a type is a subtype of another one and so on; in the model the
answers are there also where the code that finds them panics (`Op.subtypeAnswer` and so on). That
does not matter: the answers in those cases are not used. -/

/-- Answers that are right whenever the functions of the list of types return. -/
structure Right (T : TypeList) (A : Answers) : Prop where
  sub : ∀ {a b x y r}, Op.encVal a = some x → Op.encVal b = some y →
    TypeList.valtypeIsSubtype T x y = .ok r → A.sub a b = r
  shared : ∀ {a x r}, Op.encRef a = some x → TypeList.reftypeIsShared T x = .ok r → A.shared a = r
  top : ∀ {h s a}, TypeList.topType T (TypeList.toHeap (h.map TypeList.idx)) =
    .ok (.abstract s a) → A.top h = .abs s a

/-- **C55.** For the bodies of the functions of a module, the outcome of validation does not depend
on the answers to questions where the code would panic: these are never asked. -/
theorem c55_questions (hd : DriveAll (Parser.new off) data tr out) {fns}
    (h : payloads f bs .new tr = .ok (V', fns)) {fn : FuncToValidate} {body : Reader}
    (hfn : (fn, body) ∈ fns) :
    ∃ T S, fn.types = some T ∧ Op.newFunc (env f bs T fn.m) fn.ty = .ok S ∧
      ∀ A, Right T A → Op.validate (alt (env f bs T fn.m) A) f.reader.toFeatures body S =
        Op.validate (env f bs T fn.m) f.reader.toFeatures body S := by
  obtain ⟨T, s, h1, h2, h3, h4⟩ := ((all_calm hd (ops := []) (os := []) (z := .init)
    ⟨.nil, rfl⟩ rfl rfl rfl (by decide)).2 _ h).1 _ hfn
  dsimp only at h1 h3 h4
  obtain ⟨id, x, ps, rs, h5, h6, h7⟩ := h2.items.funcs _ h4
  have hsub : (env f bs T s.m).R.subTypeAt fn.ty = some x := by
    show (s.m.types[fn.ty.toNat]? >>= fun id => (listOf T)[id]?) = _
    rw [h5]
    exact h6
  rw [h3]
  obtain ⟨S, hS⟩ : ∃ S, Op.newFunc (env f bs T s.m) fn.ty = .ok S := by
    unfold Op.newFunc
    rw [hsub]
    dsimp only
    rw [h7]
    exact ⟨_, rfl⟩
  refine ⟨T, S, h1, hS, fun A hA => ?_⟩
  have same : Op.Calm.Same (env f bs T s.m).R (listOf T).length A :=
    { sub := fun a b ha hb => by
        obtain ⟨x, y, e1, e2, e3⟩ := h2.hist.ask_sub ha hb
        exact hA.sub e1 e2 e3
      shared := fun a ha => by
        obtain ⟨x, e1, e2⟩ := h2.hist.ask_shared ha
        exact hA.shared e1 e2
      top := fun a ha => by
        obtain ⟨s', t, e1, e2⟩ := h2.hist.ask_top ha
        exact (hA.top e1).trans e2.symm }
  exact (Op.Calm.trip_validate h2.fine same f.reader.toFeatures body S
    (Op.Calm.newFunc_wf h2.fine hS)).1

/-! ## Without room -/

namespace BigSample

/-- All features. -/
def feats : Feats where
  toFeatures := { fullFeatures with customDescriptors := true, otherSlow := true }
  multiMemory := true
  memory64 := true
  callIndirectOverlong := true
  compactImports := true
  mutableGlobal := true
  extendedConst := true
  customPageSizes := true

/-- `(module (rec (type (struct (field (ref null 0))))))` -/
def bytes : List UInt8 := [
  0x00, 0x61, 0x73, 0x6d, 0x01, 0x00, 0x00, 0x00,
  0x01, 0x08, 0x01, 0x4e, 0x01, 0x5f, 0x01, 0x63, 0x00, 0x00]

end BigSample

theorem ok_bind' {α β : Type} (a : α) (k : α → X β) : (Except.ok a >>= k : X β) = k a := rfl

theorem BigSample.payloads_eq {T : TypeList}
    (h : TypeList.addTypes BigSample.feats.types T [] (.explicit [(0, TypeList.selfT)]) =
      .error .panic) :
    payloads BigSample.feats BSearch.linear ⟨T, .unparsed, none⟩ (ModSample.run BigSample.bytes) =
      .error .panic := by
  have hr : ModSample.run BigSample.bytes = [⟨8, .version 1 .module (0, 8)⟩,
      ⟨10, .limited 1 1 ⟨[0x01, 0x4e, 0x01, 0x5f, 0x01, 0x63, 0x00, 0x00], 1, 10⟩⟩,
      ⟨0, .endOf 18⟩] := by decide +kernel
  have hg : Types.readRecGroup ⟨[0x01, 0x4e, 0x01, 0x5f, 0x01, 0x63, 0x00, 0x00], 1, 10⟩ =
      .ok (.explicit [(13, TypeList.selfT)],
        ⟨[0x01, 0x4e, 0x01, 0x5f, 0x01, 0x63, 0x00, 0x00], 8, 10⟩) := by decide +kernel
  have h' : TypeList.addTypes BigSample.feats.types T [] (.explicit [(13, TypeList.selfT)]) =
      .error .panic := h
  have cons : ∀ V e es, payloads BigSample.feats BSearch.linear V (e :: es) =
      (payload BigSample.feats BSearch.linear V e.payload >>= fun x =>
        payloads BigSample.feats BSearch.linear x.1 es >>= fun y =>
        pure (y.1, x.2.toList ++ y.2)) := fun _ _ _ => rfl
  have hv : payload BigSample.feats BSearch.linear ⟨T, .unparsed, none⟩
      (.version 1 .module (0, 8)) = .ok (⟨T, .module, some .new⟩, none) := rfl
  rw [hr, cons, hv]
  rw [ok_bind', cons]
  have ht : typeSection BigSample.feats ⟨T, .module, some .new⟩
      ⟨⟨[0x01, 0x4e, 0x01, 0x5f, 0x01, 0x63, 0x00, 0x00], 1, 10⟩, 1⟩ = .error .panic := by
    have hi : eachItem Types.readRecGroup (addTypes BigSample.feats)
        ⟨⟨[0x01, 0x4e, 0x01, 0x5f, 0x01, 0x63, 0x00, 0x00], 1, 10⟩, 1⟩ (T, .new) =
        .error .panic := by
      have ha : addTypes BigSample.feats (T, .new) (.explicit [(13, TypeList.selfT)]) =
          .error .panic := by
        show (ofList (TypeList.addTypes BigSample.feats.types T [] _) >>= _) = _
        rw [h']
        rfl
      show (ofRead (Types.readRecGroup _) >>= fun x => addTypes BigSample.feats (T, .new) x.1 >>=
        fun s => eachFrom _ _ 0 x.2 s) = _
      rw [hg]
      show (addTypes BigSample.feats (T, .new) (.explicit [(13, TypeList.selfT)]) >>= _) = _
      rw [ha]
      rfl
    show (eachItem Types.readRecGroup (addTypes BigSample.feats) _ (T, .new) >>= _) = _
    rw [hi]
    rfl
  have hp : payload BigSample.feats BSearch.linear ⟨T, .module, some .new⟩
      (.limited 1 1 ⟨[0x01, 0x4e, 0x01, 0x5f, 0x01, 0x63, 0x00, 0x00], 1, 10⟩) =
      .error .panic := by
    show (typeSection BigSample.feats _ _ >>= _) = _
    rw [ht]
    rfl
  dsimp only
  rw [hp]
  rfl

/-- Without room for another million types it is false: after two modules with 1000000 and 100000
types, a module with one type panics (F6). -/
theorem c55_false : ∃ f bs data tr ops os s, DriveAll (Parser.new 0) data tr none ∧
    Reaches (Op.Features.types (Feats.toFeatures f)) ops os s ∧
    validateAll f bs ⟨s.types, .unparsed, none⟩ tr none = .error .panic := by
  obtain ⟨s, ops, os, h1, h2⟩ : ∃ s ops os, Reaches TypeList.allOn ops os s ∧
      TypeList.addTypes TypeList.allOn s.types [] (.explicit [(0, TypeList.selfT)]) =
        .error .panic := by
    obtain ⟨s, h1, h2⟩ := TypeList.big_add (a := 1000000) (b := 100000) (by omega) (by omega)
      (by omega) (by omega) (by omega) (by omega)
    exact ⟨s, _, _, h1, h2⟩
  refine ⟨BigSample.feats, BSearch.linear, BigSample.bytes, ModSample.run BigSample.bytes, _, _, s,
    driveFuel_sound 60 (by decide +kernel), h1, ?_⟩
  unfold validateAll
  rw [BigSample.payloads_eq h2]
  rfl

/-! ## Examples -/

namespace CalmSample

/-- What `validate_all` says. -/
def outcome (out : Option Err) (bs : List UInt8) : Option Op.Fail :=
  match validateAll BigSample.feats BSearch.linear .new (ModSample.run bs) out with
  | .ok _ => none
  | .error e => some e

end CalmSample

/-- The hypotheses hold of a module that is accepted and of modules that are rejected at several
places: by the parser, in a section, in a body. -/
example : CalmSample.outcome none ModSample.bytes = none ∧
    CalmSample.outcome none (ModSample.bytes.set 67 1) = some .error ∧
    (runOf 0 (ModSample.bytes.take 60) []).2.isSome = true ∧
    DriveAll (Parser.new 0) (ModSample.bytes.take 60) (ModSample.run (ModSample.bytes.take 60))
      (runOf 0 (ModSample.bytes.take 60) []).2 ∧
    CalmSample.outcome (runOf 0 (ModSample.bytes.take 60) []).2 (ModSample.bytes.take 60) =
      some .error :=
  ⟨by decide +kernel, by decide +kernel, by decide +kernel,
    driveFuel_sound 60 (by decide +kernel), by decide +kernel⟩

/-- Where there is no answer, anything is a subtype of anything and is shared. -/
def CalmSample.other (T : TypeList) : Answers where
  sub a b := (Op.answer (do
      let x ← Op.encVal a
      let y ← Op.encVal b
      pure (TypeList.valtypeIsSubtype T x y))).getD true
  shared r := (Op.answer ((Op.encRef r).map (TypeList.reftypeIsShared T))).getD true
  top h := match Op.answer (some (TypeList.topType T (TypeList.toHeap (h.map TypeList.idx)))) with
    | some (.abstract s a) => .abs s a
    | _ => .abs true .any

theorem CalmSample.right (T : TypeList) : Right T (CalmSample.other T) where
  sub h1 h2 h3 := by
    show (Op.answer _).getD true = _
    rw [h1, h2]
    show (Op.answer (some (TypeList.valtypeIsSubtype T _ _))).getD true = _
    rw [h3]
    rfl
  shared h1 h2 := by
    show (Op.answer _).getD true = _
    rw [h1]
    show (Op.answer (some (TypeList.reftypeIsShared T _))).getD true = _
    rw [h2]
    rfl
  top h1 := by
    show (match Op.answer (some (TypeList.topType T _)) with
      | some (.abstract s a) => .abs s a
      | _ => .abs true .any : Op.Heap) = _
    rw [h1]
    rfl

/-- The sample has two functions whose bodies are validated. -/
example : ∃ V' fns, payloads BigSample.feats BSearch.linear .new (ModSample.run ModSample.bytes) =
      .ok (V', fns) ∧ fns.length = 2 ∧ DriveAll (Parser.new 0) ModSample.bytes
        (ModSample.run ModSample.bytes) none := by
  have h : (match payloads BigSample.feats BSearch.linear .new (ModSample.run ModSample.bytes) with
    | .ok (_, fns) => fns.length == 2
    | .error _ => false) = true := by decide +kernel
  split at h
  · next V' fns he => exact ⟨V', fns, he, by simpa using h, ModSample.run_ok⟩
  · cases h

end Verif.Valid.Props
