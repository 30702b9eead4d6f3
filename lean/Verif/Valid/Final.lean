import Verif.Valid.Room
import Verif.Op.TypingProps
/-! # Counts and bodies -/
namespace Verif.Valid
open Verif.Reader Verif.Items Verif.Parser
open Spec
open Verif.Op.Typing Verif.Op.View
open Verif.Std (BSearch)
open Verif.TypeList (TypeList)
open Verif.TypeList.Spec (SubT)
open Verif.Instr (Operator)

variable {f : Feats} {bs : BSearch} {T : TypeList} {tr : List Event}

/-! ## Counts -/

theorem head_sum {l : List Nat} (h : l.length ≤ 1) : l.sum = l.head?.getD 0 := by
  match l, h with
  | [], _ => rfl
  | [a], _ => simp

theorem counts_section {id : UInt8} (h10 : id ≠ 10) (h12 : id ≠ 12) :
    (counts id tr).head? = (sectionAt tr id).map (·.count.toNat) := by
  unfold counts sectionAt
  rw [List.head?_filterMap]
  induction tr with
  | nil => rfl
  | cons e tr ih =>
    rw [List.findSome?_cons, List.findSome?_cons]
    cases hp : e.payload with
    | limited i c r =>
      dsimp only [announces]
      by_cases hi : i = id
      · rw [if_pos hi, if_pos hi]; rfl
      · rw [if_neg hi, if_neg hi]; exact ih
    | codeStart c r n =>
      dsimp only [announces]
      rw [if_neg h10]; exact ih
    | dataCount c r =>
      dsimp only [announces]
      rw [if_neg h12]; exact ih
    | _ => exact ih

theorem holds_length {α : Type} {id : UInt8} {item : R α} {xs : List α} (h : Holds tr id item xs)
    (h10 : id ≠ 10) (h12 : id ≠ 12) (hone : (counts id tr).length ≤ 1) :
    xs.length = (counts id tr).sum := by
  rw [head_sum hone, counts_section h10 h12]
  unfold Holds at h
  cases hs : sectionAt tr id with
  | none => rw [hs] at h; subst h; rfl
  | some sec => rw [hs] at h; exact collect_length h

theorem bodies_length : (bodiesAt tr).length = bodies tr := by
  unfold bodiesAt bodies
  induction tr with
  | nil => rfl
  | cons e tr ih =>
    rw [List.filterMap_cons, List.filter_cons]
    cases hp : e.payload with
    | codeEntry b => simp [ih]
    | _ => exact ih

theorem dataCount_counts {n : BitVec 32} (h : dataCountAt tr = some n)
    (hone : (counts 12 tr).length ≤ 1) : counts 12 tr = [n.toNat] := by
  have hm : n.toNat ∈ counts 12 tr := by
    unfold dataCountAt at h
    obtain ⟨ev, h1, h2⟩ := List.exists_of_findSome?_eq_some h
    refine List.mem_filterMap.2 ⟨ev, h1, ?_⟩
    split at h2
    · next c r hp => cases h2; rw [hp]; rfl
    · cases h2
  match hc : counts 12 tr, hone with
  | [], _ => rw [hc] at hm; cases hm
  | [a], _ => rw [hc, List.mem_singleton] at hm; rw [hm]

/-! ## Bodies -/

theorem funcs_bodies {m : Op.Module} {P : Reader → List (BitVec 32 × Types.ValType) × List Operator → Prop}
    {body : BitVec 32 → List (BitVec 32 × Types.ValType) × List Operator → Prop}
    (step : ∀ ty r, ty ∈ m.functions → validateFunc f bs ⟨ty, m, some T⟩ r = .ok () →
      ∃ b, P r b ∧ body ty b) :
    ∀ {fns : List (FuncToValidate × Reader)} {rs : List Reader} {i0 : Nat},
    Fns T m rs i0 fns → validateFuncs f bs fns = .ok () →
    ∃ bodies, List.Forall₂ P rs bodies ∧
      List.Forall₂ body ((m.functions.drop i0).take fns.length) bodies
  | [], rs, i0, h, _ => by
    obtain rfl : [] = rs := h.readers
    exact ⟨[], .nil, by rw [List.length_nil, List.take_zero]; exact .nil⟩
  | (fn, r) :: fns, rs, i0, h, hv => by
    obtain ⟨_, h1, h2⟩ := bind_ok hv
    obtain ⟨a1, a2, a3⟩ := h.fn 0 fn r rfl
    have hfn : fn = ⟨fn.ty, m, some T⟩ := by rw [← a1, ← a2]
    rw [hfn] at h1
    obtain ⟨b, h3, h4⟩ := step fn.ty r (List.mem_of_getElem? a3) h1
    obtain ⟨bodies, h5, h6⟩ := funcs_bodies step (fns := fns) (rs := fns.map (·.2)) (i0 := i0 + 1)
      ⟨rfl, fun j fn' b' hj => by
        have := h.fn (j + 1) fn' b' hj
        rwa [show i0 + (j + 1) = i0 + 1 + j by omega] at this⟩ h2
    obtain rfl : _ = rs := h.readers
    refine ⟨b :: bodies, .cons h3 h5, ?_⟩
    have hlt : i0 < m.functions.length := get_lt a3
    rw [Nat.add_zero] at a3
    rw [List.drop_eq_getElem_cons hlt, List.length_cons, List.take_succ_cons]
    rw [List.getElem?_eq_getElem hlt] at a3
    rw [Option.some.inj a3]
    exact .cons h4 h6

/-- A function of which only declarations of locals are known to be valid when it has a branch
table with shared types. -/
def BodyOkIf (C : Ctx) (ty : BitVec 32) (b : List (BitVec 32 × Types.ValType) × List Operator) : Prop :=
  ∃ x ps rs vs, FuncAt C ty x ps rs ∧
    List.Forall₂ (fun d v => d.1 = v.1 ∧ C.ValTy d.2 v.2) b.1 vs ∧
    (((∀ t, Operator.brTable t ∉ b.2) ∨ UnsharedTypes C b.2) →
      Valid (Fn.body C ps rs (Op.InitSpec.expand vs) x.shared) b.2)

theorem func_accepted {m : Op.Module} {ty : BitVec 32} {r : Reader}
    (h : validateFunc f bs ⟨ty, m, some T⟩ r = .ok ()) :
    ∃ S0 S, Op.newFunc (env f bs T m) ty = .ok S0 ∧
      Op.validate (env f bs T m) f.reader.toFeatures r S0 = (.ok (), S) := by
  unfold validateFunc at h
  obtain ⟨T', h1, h⟩ := bind_ok h
  cases h1
  dsimp only at h
  split at h
  · cases h
  · next S0 h0 => exact ⟨S0, _, h0, Prod.ext h rfl⟩

theorem func_okIf (hcd : f.customDescriptors = false) {m : Op.Module} (hh : Hist f T m)
    {ty : BitVec 32} {r : Reader} {x : SubT Nat} {ps rs : List V}
    (hx : FuncAt (ctxOf (listOf T) m) ty x ps rs) (hps : ps.length ≤ 50000)
    (h : validateFunc f bs ⟨ty, m, some T⟩ r = .ok ()) :
    ∃ b : List (BitVec 32 × Types.ValType) × List Operator,
      Op.Parsed f.reader.toFeatures r b.1 b.2 ∧ BodyOkIf (ctxOf (listOf T) m) ty b := by
  obtain ⟨S0, S, h0, h1⟩ := func_accepted h
  have hv := hh.view
  obtain ⟨ops, os, s, n, g1, rfl, g2⟩ := hh.reaches
  obtain ⟨ds, vs, os, h2, h3, h4⟩ := Op.Props.c16_sound_partial g1 hv
    (by rw [listOf_length]; exact hh.room) g2 hh.tags rfl hcd hx.1 hx.2 hps h0 h1
  exact ⟨(ds, os), h2, x, ps, rs, vs, hx, h3, h4⟩

theorem func_ok (hcd : f.customDescriptors = false) (hsh : f.sharedEverythingThreads = false)
    {m : Op.Module} (hh : Hist f T m)
    {ty : BitVec 32} {r : Reader} {x : SubT Nat} {ps rs : List V}
    (hx : FuncAt (ctxOf (listOf T) m) ty x ps rs) (hps : ps.length ≤ 50000)
    (h : validateFunc f bs ⟨ty, m, some T⟩ r = .ok ()) :
    ∃ b : List (BitVec 32 × Types.ValType) × List Operator,
      Op.Parsed f.reader.toFeatures r b.1 b.2 ∧ BodyOk (ctxOf (listOf T) m) ty b := by
  obtain ⟨S0, S, h0, h1⟩ := func_accepted h
  have hv := hh.view
  obtain ⟨ops, os, s, n, g1, rfl, g2⟩ := hh.reaches
  obtain ⟨ds, vs, os, h2, h3, h4⟩ := Op.Props.c16_sound g1 hv
    (by rw [listOf_length]; exact hh.room) g2 hh.tags rfl hcd hsh hsh hx.1 hx.2 hps h0 h1
  exact ⟨(ds, os), h2, x, ps, rs, vs, hx, h3, h4⟩

/-! ## The whole run -/

theorem accepted {off : Nat} {data : List UInt8} (hcd : f.customDescriptors = false)
    (hsize : off + data.length ≤ u64Max) (hd : DriveAll (Parser.new off) data tr none)
    {V V' : Validator} {ops os s} (hT : TypeList.Reaches f.types ops os s) (hV : V.types = s.types)
    (h : validateAll f bs V tr none = .ok V')
    (hroom : V.types.coreTypes = [] ∨ V'.types.coreTypes.length ≤ 2 ^ 20)
    {body : Ctx → BitVec 32 → List (BitVec 32 × Types.ValType) × List Operator → Prop}
    (step : ∀ {m : Op.Module}, Hist f V'.types m → ∀ ty r x ps rs,
      FuncAt (ctxOf (listOf V'.types) m) ty x ps rs → ps.length ≤ 50000 →
      validateFunc f bs ⟨ty, m, some V'.types⟩ r = .ok () →
      ∃ b : List (BitVec 32 × Types.ValType) × List Operator,
        Op.Parsed f.reader.toFeatures r b.1 b.2 ∧ body (ctxOf (listOf V'.types) m) ty b) :
    ∃ M C, Says f.reader tr M ∧ ModuleOk C (body C) M := by
  obtain ⟨⟨V2, fns⟩, h1, h⟩ := bind_ok h
  obtain ⟨_, h2, hend⟩ := bind_ok h
  obtain ⟨n, num, enc, rg, tr', rfl, hg⟩ := Remod.drive_module hsize hd
  obtain ⟨⟨V3, fn⟩, h3, h4⟩ := bind_ok h1
  obtain ⟨V4, h5, h3⟩ := bind_ok h3
  cases pure_ok h3
  obtain ⟨⟨V5, fns'⟩, h6, h4⟩ := bind_ok h4
  cases pure_ok h4
  rw [Option.toList_none, List.nil_append] at h2
  obtain ⟨rfl, rfl⟩ : enc = .module ∧ V3 = { V with state := .module, module := some .new } := by
    unfold version at h5
    split at h5
    · split at h5
      · split at h5
        · split at h5
          · cases h5; exact ⟨rfl, rfl⟩
          · cases h5
        · cases h5
      · cases h5
    · cases h5
  obtain ⟨rfl, hgr⟩ := hg rfl
  have hnc : ∀ ev ∈ (⟨n, .version 1 .module rg⟩ :: tr' : List Event),
      ¬ IsComponent ev.payload := by
    rw [List.forall_mem_cons]
    exact ⟨fun ⟨_, _, hh⟩ => (by cases hh), Remod.groups_module hgr⟩
  have hord : (sectionIds tr').Sublist moduleOrder :=
    drive_order hd rfl rfl rfl (Nat.le_refl _) rfl hnc
  have hc := drive_counts hd rfl rfl rfl rfl hnc rfl
  have hb := drive_bodies hd rfl rfl rfl rfl hnc rfl
  have hone := fun id => counts_one hord id
  have hb : bodies tr' = 0 + (counts 10 tr').sum := hb
  have hc1 : (over none (counts 3 tr')).getD 0 = (over none (counts 10 tr')).getD 0 := hc.1
  have hc2 : ∀ n, over none (counts 12 tr') = some n → (over none (counts 11 tr')).getD 0 = n := hc.2
  rw [over_sum (hone 3), over_sum (hone 10)] at hc1
  rw [over_sum (hone 11)] at hc2
  obtain ⟨V1, he, ha⟩ := along hgr h6
  have ha := ha moduleOrder hord (by decide)
  have hty : V'.types = V1.types := by
    split at hend
    · cases pure_ok hend
      unfold endOf at he
      split at he
      · obtain ⟨_, _, he⟩ := bind_ok he
        cases pure_ok he
        rfl
      · cases he
    · cases hend
  have hT0 : Typed f V.types [] [] := hV ▸ typed_new hT
  have hroom : V1.types.coreTypes.length ≤ 2 ^ 20 := by
    rcases hroom with h0 | h0
    · exact Nat.le_trans (room hT0 h0 ha) (by decide)
    · rw [← hty]; exact h0
  rw [hty] at step
  obtain ⟨m, M, a1, a2, a3, a4, a5, a6, a7⟩ := whole hcd hT0 ha hroom (by
    intro n xs hn hx
    rw [holds_length hx (by decide) (by decide) (hone 11)]
    refine hc2 _ ?_
    rw [dataCount_counts hn (hone 12)]
    rfl)
  have hlen : M.funcs.length = fns'.length := by
    rw [holds_length a5 (by decide) (by decide) (hone 3), hc1, ← List.length_map (as := fns') (·.2),
      a6.readers, bodies_length, hb, Nat.zero_add]
  have hft := ((a7 (M.funcs.map fun _ => ([], []))).2 (fun _ _ => True)
    (forall₂_self fun _ _ => trivial)).funcTypes
  obtain ⟨bodies, g1, g2⟩ := funcs_bodies
    (P := fun r b => Op.Parsed f.reader.toFeatures r b.1 b.2)
    (body := body (ctxOf (listOf V1.types) m)) (fun ty r hm hv => by
      obtain ⟨x, ps, rs, hx⟩ := hft ty hm
      exact step a3 ty r x ps rs hx (Nat.le_trans (a1.few a2 hx.1 ps rs hx.2) (by decide)) hv) a6 h2
  rw [a4, List.drop_left, ← hlen, List.take_length] at g2
  have hsays := (a7 bodies).1 g1
  exact ⟨{ M with bodies }, _, ⟨hsays.types, hsays.imports, hsays.funcs, hsays.tables, hsays.mems,
    hsays.tags, hsays.globals, hsays.exports, hsays.start, hsays.elems, hsays.dataCount,
    hsays.bodies, hsays.datas⟩, (a7 bodies).2 _ g2⟩

end Verif.Valid
