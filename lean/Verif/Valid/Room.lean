import Verif.Valid.Compose
/-! # How many types a validator has -/
namespace Verif.Valid
open Verif.Reader Verif.Items
open Spec
open Verif.Std (BSearch)
open Verif.TypeList.Spec (SubT)
open Verif.TypeList (TypeList M internTypes internNew internCanonicalRecGroup canonicalizeTypes
  canonicalizeRecGroup checkSubtype addIds canonicalizeAndIntern)

variable {f : Feats}

theorem bind_okM {α β : Type} {x : M α} {k : α → M β} {b : β} (h : (x >>= k) = .ok b) :
    ∃ a, x = .ok a ∧ k a = .ok b := by
  cases x with
  | error e => cases h
  | ok a => exact ⟨a, rfl, h⟩

theorem jp {β : Type} {c : Prop} [Decidable c] {e : TypeList.Stop} {k : Unit → M β} {b : β}
    (h : (if c then (Except.error e : M Unit) >>= k else k ()) = .ok b) : k () = .ok b := by
  split at h
  · cases h
  · exact h

theorem jpIf {β : Type} {c : Prop} [Decidable c] {x : M Unit} {k : Unit → M β} {b : β}
    (h : (if c then x >>= k else k ()) = .ok b) : k () = .ok b := by
  split at h
  · obtain ⟨_, _, h⟩ := bind_okM h; exact h
  · exact h

theorem internTypes_len {s k : Nat} {g : List Types.SubType} : ∀ {T T' : TypeList},
    internTypes s k T g = .ok T' → T'.coreTypes.length = T.coreTypes.length + g.length := by
  induction g with
  | nil => intro T T' h; cases h; rfl
  | cons t g ih =>
    intro T T' h
    unfold internTypes at h
    obtain ⟨_, _, h⟩ := bind_okM h
    obtain ⟨_, _, h⟩ := bind_okM h
    obtain ⟨_, _, h⟩ := bind_okM h
    obtain ⟨_, _, h⟩ := bind_okM h
    have := ih h
    simp only [this, List.length_append, List.length_cons, List.length_nil]
    omega

theorem internNew_len {k : Nat} {g : List Types.SubType} {T T' : TypeList} {x : Bool × Nat}
    (h : internNew T k g = .ok (x, T')) : T'.coreTypes.length = T.coreTypes.length + g.length := by
  unfold internNew at h
  obtain ⟨_, _, h⟩ := bind_okM h
  obtain ⟨T1, h1, h⟩ := bind_okM h
  obtain ⟨_, _, h⟩ := bind_okM h
  cases h
  show T1.coreTypes.length = _
  exact internTypes_len h1

theorem internCanonical_len {b : Bool} {g : List Types.SubType} {T T' : TypeList} {x : Bool × Nat}
    (h : internCanonicalRecGroup T b g = .ok (x, T')) :
    T'.coreTypes.length ≤ T.coreTypes.length + g.length := by
  unfold internCanonicalRecGroup at h
  obtain ⟨_, _, h⟩ := bind_okM h
  cases b with
  | false => exact Nat.le_of_eq (internNew_len h)
  | true =>
    simp only [if_true] at h
    split at h
    · cases h; omega
    · have := internNew_len h
      exact Nat.le_of_eq this

theorem canonicalizeTypes_len {f : TypeList.Features} {m : List Nat} {a b : Nat}
    {g : List Types.SubType} : ∀ {i : Nat} {g' : List Types.SubType},
    canonicalizeTypes f m a b i g = .ok g' → g'.length = g.length := by
  induction g with
  | nil => intro i g' h; cases h; rfl
  | cons t g ih =>
    intro i g' h
    unfold canonicalizeTypes at h
    obtain ⟨_, _, h⟩ := bind_okM h
    obtain ⟨_, _, h⟩ := bind_okM h
    have h := jp h
    obtain ⟨_, _, h⟩ := bind_okM h
    have h := jp h
    obtain ⟨_, _, h⟩ := bind_okM h
    obtain ⟨r, h1, h⟩ := bind_okM h
    cases h
    rw [List.length_cons, ih h1, List.length_cons]

theorem setDepth_core {T T' : TypeList} {i d : Nat} (h : TypeList.setSubtypingDepth T i d = .ok T') :
    T'.coreTypes = T.coreTypes := by
  unfold TypeList.setSubtypingDepth at h
  obtain ⟨_, _, h⟩ := bind_okM h
  obtain ⟨_, _, h⟩ := bind_okM h
  cases h
  rfl

theorem checkSubtype_core {f : TypeList.Features} {m : List Nat} {T T' : TypeList} {k i : Nat}
    (h : checkSubtype f m T k i = .ok T') : T'.coreTypes = T.coreTypes := by
  unfold checkSubtype at h
  obtain ⟨t, _, h⟩ := bind_okM h
  have h := jpIf h
  obtain ⟨_, _, h⟩ := bind_okM h
  dsimp only at h
  split at h
  · obtain ⟨_, _, h⟩ := bind_okM h
    obtain ⟨_, _, h⟩ := bind_okM h
    obtain ⟨_, _, h⟩ := bind_okM h
    obtain ⟨_, _, h⟩ := bind_okM h
    have h := jp h
    obtain ⟨_, _, h⟩ := bind_okM h
    have h := jp h
    obtain ⟨_, _, h⟩ := bind_okM h
    have h := jp h
    exact setDepth_core h
  · exact setDepth_core h

theorem addIds_core {f : TypeList.Features} {b : Bool} {k : Nat} {is : List Nat} :
    ∀ {T T' : TypeList} {m m' : List Nat}, addIds f b k is T m = .ok (T', m') →
      T'.coreTypes = T.coreTypes := by
  induction is with
  | nil => intro T T' m m' h; cases h; rfl
  | cons i is ih =>
    intro T T' m m' h
    unfold addIds at h
    obtain ⟨_, _, h⟩ := bind_okM h
    obtain ⟨_, _, h⟩ := bind_okM h
    cases b with
    | false => exact ih h
    | true =>
      obtain ⟨T1, h1, h⟩ := bind_okM h
      obtain ⟨_, _, h⟩ := bind_okM h
      rw [ih h, checkSubtype_core h1]

theorem addTypes_len {f : TypeList.Features} {T T' : TypeList} {m m' : List Nat}
    {g : Types.RecGroup} (h : TypeList.addTypes f T m g = .ok (T', m')) :
    m.length + g.types.length ≤ 1000000 ∧
    T'.coreTypes.length ≤ T.coreTypes.length + g.types.length := by
  unfold TypeList.addTypes at h
  obtain ⟨_, h0, h⟩ := bind_okM h
  have h0 : m.length ≤ Verif.Types.maxWasmTypes ∧
      g.types.length ≤ Verif.Types.maxWasmTypes - m.length := by
    unfold TypeList.require at h0
    split at h0
    · next hd => exact of_decide_eq_true hd
    · cases h0
  have hm : Verif.Types.maxWasmTypes = 1000000 := rfl
  refine ⟨by omega, ?_⟩
  unfold canonicalizeAndIntern at h
  obtain ⟨_, _, h⟩ := bind_okM h
  have h := jpIf h
  obtain ⟨ts, hl, h⟩ : ∃ ts : List Types.SubType, ts.length = g.types.length ∧
      (internCanonicalRecGroup T f.needsTypeCanonicalization ts >>= fun x =>
        TypeList.unwrap x.2.recGroupElements[x.1.2]? >>= fun range =>
        addIds f x.1.1 x.1.2 (List.range' range.1 (range.2 - range.1)) x.2 m) = .ok (T', m') := by
    dsimp only at h
    split at h
    · obtain ⟨ts, h1, h⟩ := bind_okM h
      unfold canonicalizeRecGroup at h1
      obtain ⟨_, _, h1⟩ := bind_okM h1
      obtain ⟨_, _, h1⟩ := bind_okM h1
      exact ⟨ts, canonicalizeTypes_len h1, h⟩
    · exact ⟨g.types, rfl, h⟩
  obtain ⟨⟨⟨b, k⟩, T1⟩, h2, h⟩ := bind_okM h
  obtain ⟨_, _, h⟩ := bind_okM h
  rw [addIds_core h, ← hl]
  exact internCanonical_len h2

/-! ## A validator that starts with no types -/

theorem types_room {xs : List Types.RecGroup}
    (hr : ∀ g ∈ xs, ∃ r r', Types.readRecGroup r = .ok (g, r')) :
    ∀ {T T' : TypeList} {s s' : ModuleState} {gs : List (List (SubT Nat))},
    Typed f T s.m.types gs → T.coreTypes.length ≤ s.m.types.length →
    s.m.types.length ≤ 1000000 → fold (addTypes f) xs (T, s) = .ok (T', s') →
    T'.coreTypes.length ≤ 1000000 := by
  induction xs with
  | nil =>
    intro T T' s s' gs ht h1 h2 h
    cases h
    omega
  | cons g xs ih =>
    intro T T' s s' gs ht a1 a2 h
    obtain ⟨⟨T1, s1⟩, h1, h2⟩ := fold_cons h
    obtain ⟨_, h3, h1⟩ := bind_ok h1
    obtain ⟨⟨T2, ts⟩, h4, h1⟩ := bind_ok h1
    cases pure_ok h1
    obtain ⟨r, r', hg⟩ := hr g (by simp)
    obtain ⟨y, hy⟩ := TypeList.src_group r r' g hg
    have ht1 := ht.add hy (ofList_ok h4)
    have b1 := (Typed.typesOk (m := s.m) ht).length
    have b2 := (Typed.typesOk (m := { s.m with types := ts }) ht1).length
    have b1 : s.m.types.length = gs.flatten.length := b1
    have b2 : ts.length = (gs ++ [y]).flatten.length := b2
    have b3 := hy.1.length_eq
    have b4 := addTypes_len (ofList_ok h4)
    simp only [List.flatten_append, List.length_append, List.flatten_cons, List.flatten_nil,
      List.length_nil] at b2
    refine ih (fun g hg => hr g (by simp [hg]))
      (s := { s with m := { s.m with types := ts } }) ht1 ?_ ?_ h2
    · show T1.coreTypes.length ≤ ts.length
      omega
    · show ts.length ≤ _
      omega

theorem room {bs : BSearch} {tr : List Parser.Event} {T0 : TypeList} (hT0 : Typed f T0 [] [])
    (h0 : T0.coreTypes = []) {V1 : Validator} {fns : List (FuncToValidate × Reader)}
    (h : Along f bs tr Parser.moduleOrder ⟨T0, .module, some .new⟩ V1 fns) :
    V1.types.coreTypes.length ≤ 1000000 := by
  obtain ⟨_, _, _, a1, h, rfl⟩ := along_cons h
  obtain ⟨rfl, gs, T, s1, g1, b1, rfl⟩ := types_step a1
  have := types_room (holds_mem g1) (s := .new) hT0 (by rw [h0]; exact Nat.zero_le _)
    (Nat.zero_le _) b1
  obtain ⟨_, _, _, a2, h, rfl⟩ := along_cons h
  obtain ⟨rfl, is, s2, g2, b2, rfl⟩ := imports_step a2
  obtain ⟨_, _, _, a3, h, rfl⟩ := along_cons h
  obtain ⟨rfl, fs, s3, g3, b3, rfl⟩ := funcs_step a3
  obtain ⟨_, _, _, a4, h, rfl⟩ := along_cons h
  obtain ⟨rfl, tbs, s4, g4, b4, rfl⟩ := tables_step a4
  obtain ⟨_, _, _, a5, h, rfl⟩ := along_cons h
  obtain ⟨rfl, ms, s5, g5, b5, rfl⟩ := mems_step a5
  obtain ⟨_, _, _, a13, h, rfl⟩ := along_cons h
  obtain ⟨rfl, tgs, s13, g13, b13, rfl⟩ := tags_step a13
  obtain ⟨_, _, _, a6, h, rfl⟩ := along_cons h
  obtain ⟨rfl, gls, s6, g6, b6, rfl⟩ := globals_step a6
  obtain ⟨_, _, _, a7, h, rfl⟩ := along_cons h
  obtain ⟨rfl, exs, s7, g7, b7, rfl⟩ := exports_step a7
  obtain ⟨_, _, _, a8, h, rfl⟩ := along_cons h
  obtain ⟨rfl, rfl, hstart⟩ := start_step a8
  obtain ⟨_, _, _, a9, h, rfl⟩ := along_cons h
  obtain ⟨rfl, els, s9, g9, b9, rfl⟩ := elems_step a9
  obtain ⟨_, _, _, a12, h, rfl⟩ := along_cons h
  obtain ⟨rfl, s12, rfl, e12⟩ := dataCount_step a12
  obtain ⟨_, _, _, a10, h, rfl⟩ := along_cons h
  obtain ⟨⟨s10, rfl, e10⟩, hfns⟩ := code_step a10
  obtain ⟨_, _, _, a11, h, rfl⟩ := along_cons h
  obtain ⟨rfl, dts, s11, g11, b11, rfl⟩ := data_step a11
  cases h
  exact this

end Verif.Valid
