import Verif.CompName.Parts

/-!
# Equality, hash and order of names
-/
namespace Verif.CompName

open Spec (Lower Upper Digit Label LowerLabel joined Path pathText OptText IsName Kind Same SameChar
  Clash Capital)

/-! ## `Same` -/

theorem same_refl (a : Str) : Same a a := same_iff.mp rfl
theorem same_symm {a b : Str} (h : Same a b) : Same b a := same_iff.mp (same_iff.mpr h).symm
theorem same_trans {a b c : Str} (h1 : Same a b) (h2 : Same b c) : Same a c :=
  same_iff.mp ((same_iff.mpr h1).trans (same_iff.mpr h2))

theorem same_eq {a b : Str} (h : Same a b) (ha : ∀ c ∈ a, ¬ Upper c) (hb : ∀ c ∈ b, ¬ Upper c) :
    a = b := by
  induction h with
  | nil => rfl
  | cons h _ ih =>
    rename_i x y as bs _
    have hx := ha x (by simp)
    have hy := hb y (by simp)
    have : x = y := by
      rcases h with h | h | h
      · exact h
      · exact absurd h.1 hx
      · exact absurd h.1 hy
    rw [this, ih (fun c hc => ha c (List.mem_cons_of_mem _ hc))
      (fun c hc => hb c (List.mem_cons_of_mem _ hc))]

/-! ## The shape of accepted names -/

/-- What an accepted name looks like. -/
inductive View (nested : Bool) (semver : Str → Bool) : Name → NKind → Prop
  | label {l} : Label l → View nested semver ⟨l, .label⟩ (.label l)
  | constructor {l} : Label l →
      View nested semver ⟨"[constructor]".toList ++ l, .constructor⟩ (.constructor l)
  | method {r m} : Label r → Label m →
      View nested semver ⟨"[method]".toList ++ r ++ '.' :: m, .method⟩ (.method (r ++ '.' :: m))
  | static {r m} : Label r → Label m →
      View nested semver ⟨"[static]".toList ++ r ++ '.' :: m, .static⟩ (.static (r ++ '.' :: m))
  | interface {s} : View nested semver ⟨s, .interface⟩ (.interface s)
  | dependency {s} : View nested semver ⟨s, .dependency⟩ (.dependency s)
  | url {s} : View nested semver ⟨s, .url⟩ (.url s)
  | hash {s} : View nested semver ⟨s, .hash⟩ (.hash s)

theorem view_of {nested : Bool} {semver : Str → Bool} {s : Str} {n : Name}
    (h : newName nested semver s = some n) : View nested semver n n.nkind := by
  obtain ⟨rfl, hn⟩ := newName_iff.mp h
  obtain ⟨raw, kind⟩ := n
  dsimp only at hn
  cases kind with
  | label => cases hn with | label h => exact .label h
  | constructor =>
    cases hn with
    | constructor hl => exact .constructor hl
  | method =>
    cases hn with
    | method hr hm =>
      rename_i r m
      have : (⟨"[method]".toList ++ r ++ '.' :: m, .method⟩ : Name).nkind =
          .method (r ++ '.' :: m) := by
        show NKind.method (("[method]".toList ++ r ++ '.' :: m).drop "[method]".toList.length) = _
        rw [List.append_assoc, List.drop_left]
      rw [this]
      exact .method hr hm
  | static =>
    cases hn with
    | static hr hm =>
      rename_i r m
      have : (⟨"[static]".toList ++ r ++ '.' :: m, .static⟩ : Name).nkind =
          .static (r ++ '.' :: m) := by
        show NKind.static (("[static]".toList ++ r ++ '.' :: m).drop "[static]".toList.length) = _
        rw [List.append_assoc, List.drop_left]
      rw [this]
      exact .static hr hm
  | interface => exact .interface
  | dependency => exact .dependency
  | url => exact .url
  | hash => exact .hash

theorem view_method {nested : Bool} {semver : Str → Bool} {x : Name} {s : Str}
    (h : View nested semver x (.method s)) :
    ∃ r m, Label r ∧ Label m ∧ s = r ++ '.' :: m ∧
      x = ⟨"[method]".toList ++ r ++ '.' :: m, .method⟩ := by
  generalize hk : NKind.method s = k at h
  cases h with
  | method hr hm => exact ⟨_, _, hr, hm, NKind.method.inj hk, rfl⟩
  | _ => cases hk

theorem view_static {nested : Bool} {semver : Str → Bool} {x : Name} {s : Str}
    (h : View nested semver x (.static s)) :
    ∃ r m, Label r ∧ Label m ∧ s = r ++ '.' :: m ∧
      x = ⟨"[static]".toList ++ r ++ '.' :: m, .static⟩ := by
  generalize hk : NKind.static s = k at h
  cases h with
  | static hr hm => exact ⟨_, _, hr, hm, NKind.static.inj hk, rfl⟩
  | _ => cases hk

/-! ## Equality -/

theorem isDouble_iff {l r m : Str} (hl : Label l) (hr : Label r) (hm : Label m) :
    isDouble l (r ++ '.' :: m) = true ↔ Same l r ∧ Same l m := by
  unfold isDouble
  rw [resource_func hr, method_func hr]
  simp only [Option.getD_some, Bool.and_eq_true, kebabEq_iff hl hr, kebabEq_iff hl hm]

/-- The pairs of kinds that can be equal. -/
inductive Equal : NKind → NKind → Prop
  | label {a b} : Same a b → Equal (.label a) (.label b)
  | constructor {a b} : Same a b → Equal (.constructor a) (.constructor b)
  | mm {s} : Equal (.method s) (.method s)
  | ms {s} : Equal (.method s) (.static s)
  | sm {s} : Equal (.static s) (.method s)
  | ss {s} : Equal (.static s) (.static s)
  | lm {l s} : isDouble l s = true → Equal (.label l) (.method s)
  | ls {l s} : isDouble l s = true → Equal (.label l) (.static s)
  | ml {l s} : isDouble l s = true → Equal (.method s) (.label l)
  | sl {l s} : isDouble l s = true → Equal (.static s) (.label l)
  | interface {s} : Equal (.interface s) (.interface s)
  | dependency {s} : Equal (.dependency s) (.dependency s)
  | url {s} : Equal (.url s) (.url s)
  | hash {s} : Equal (.hash s) (.hash s)

theorem eq_iff {a b : NKind} : a.eq b = true ↔ Equal a b := by
  unfold NKind.eq
  rw [beq_iff_eq]
  constructor
  · intro h
    cases a <;> cases b <;> unfold NKind.cmp at h <;> try dsimp only at h
    all_goals first
      | (exact .label (kebabCmp_eq.mp h))
      | (exact .constructor (kebabCmp_eq.mp h))
      | (rw [cmpStr_eq] at h; subst h; constructor)
      | (split at h
         · next hd => constructor; exact hd
         · exact absurd h (by decide))
      | (exact absurd h (by simp [PKind.cmp, NKind.pkind, PKind.rank, compare, compareOfLessAndEq]))
  · intro h
    cases h <;> unfold NKind.cmp <;> try dsimp only
    all_goals first
      | (exact kebabCmp_eq.mpr (by assumption))
      | (exact cmpStr_eq.mpr rfl)
      | (rw [if_pos (by assumption)])

theorem eq_refl (a : NKind) : a.eq a = true := by
  rw [eq_iff]
  cases a
  · exact .label (same_refl _)
  · exact .constructor (same_refl _)
  all_goals constructor

theorem pcmp_swap (a b : PKind) : PKind.cmp b a = (PKind.cmp a b).swap := by
  cases a <;> cases b <;> rfl

theorem cmp_swap (a b : NKind) : b.cmp a = (a.cmp b).swap := by
  cases a <;> cases b <;> unfold NKind.cmp <;> try dsimp only
  all_goals first
    | exact cmpStr_swap
    | exact pcmp_swap _ _
    | (split
       · rfl
       · rfl)

theorem eq_symm {a b : NKind} (h : a.eq b = true) : b.eq a = true := by
  unfold NKind.eq at *
  rw [beq_iff_eq] at *
  rw [cmp_swap, h]
  rfl

/-! ## Hash -/

theorem funcHash_double {r m : Str} (hr : Label r) (hm : Label m) (h : Same r m) :
    funcHash (r ++ '.' :: m) = .byte 0 :: kebabHash r := by
  unfold funcHash
  rw [resource_func hr, method_func hr]
  dsimp only [Option.getD_some]
  rw [if_pos ((kebabEq_iff hr hm).mpr h)]

theorem funcHash_other {r m : Str} (hr : Label r) (hm : Label m) (h : ¬ Same r m) :
    funcHash (r ++ '.' :: m) = [.byte 2, .str (r ++ '.' :: m)] := by
  unfold funcHash
  rw [resource_func hr, method_func hr]
  dsimp only [Option.getD_some]
  rw [if_neg fun h' => h ((kebabEq_iff hr hm).mp h')]

theorem hash_double {l r m : Str} (hl : Label l) (hr : Label r) (hm : Label m)
    (h : isDouble l (r ++ '.' :: m) = true) :
    .byte 0 :: kebabHash l = funcHash (r ++ '.' :: m) := by
  obtain ⟨h1, h2⟩ := (isDouble_iff hl hr hm).mp h
  rw [funcHash_double hr hm (same_trans (same_symm h1) h2), (kebabHash_eq hl hr).mpr h1]

theorem hash_of_eq {nested : Bool} {semver : Str → Bool} {x y : Name} {a b : NKind}
    (ha : View nested semver x a) (hb : View nested semver y b) (h : Equal a b) :
    a.hash' = b.hash' := by
  cases h with
  | label h =>
    cases ha with | label ha => cases hb with | label hb =>
    show _ :: kebabHash _ = _ :: kebabHash _
    rw [(kebabHash_eq ha hb).mpr h]
  | constructor h =>
    cases ha with | constructor ha => cases hb with | constructor hb =>
    show _ :: kebabHash _ = _ :: kebabHash _
    rw [(kebabHash_eq ha hb).mpr h]
  | lm h =>
    cases ha with | label ha => cases hb with | method hr hm => exact hash_double ha hr hm h
  | ls h =>
    cases ha with | label ha => cases hb with | static hr hm => exact hash_double ha hr hm h
  | ml h =>
    cases hb with | label hl => cases ha with | method hr hm => exact (hash_double hl hr hm h).symm
  | sl h =>
    cases hb with | label hl => cases ha with | static hr hm => exact (hash_double hl hr hm h).symm
  | mm => rfl
  | ms => rfl
  | sm => rfl
  | ss => rfl
  | interface => rfl
  | dependency => rfl
  | url => rfl
  | hash => rfl

/-! ## Clashes -/

theorem newName_det {nested : Bool} {semver : Str → Bool} {s : Str} {n : Name} {k : PKind}
    (h : newName nested semver s = some n) (hk : IsName nested semver k.spec s) : n = ⟨s, k⟩ := by
  have := newName_iff.mpr (show (⟨s, k⟩ : Name).raw = s ∧ _ from ⟨rfl, hk⟩)
  rw [h] at this
  exact Option.some.inj this

theorem clash_of_eq {nested : Bool} {semver : Str → Bool} {x y : Name} {a b : NKind}
    (ha : View nested semver x a) (hb : View nested semver y b) (h : Equal a b) :
    Clash nested x.raw y.raw := by
  have inj : ∀ {r m r' m' : Str}, Label r → Label r' → r ++ '.' :: m = r' ++ '.' :: m' →
      r = r' ∧ m = m' := by
    intro r m r' m' h1 h2 he
    have e1 := resource_func (m := m) h1
    have e2 := method_func (m := m) h1
    rw [he, resource_func h2] at e1
    rw [he, method_func h2] at e2
    exact ⟨(Option.some.inj e1).symm, (Option.some.inj e2).symm⟩
  cases h with
  | label h => cases ha with | label ha => cases hb with | label hb => exact .label ha hb h
  | constructor h =>
    cases ha with | constructor ha => cases hb with | constructor hb => exact .constructor ha hb h
  | lm h =>
    cases ha with | label ha => cases hb with | method hr hm =>
    obtain ⟨h1, h2⟩ := (isDouble_iff ha hr hm).mp h
    exact .double (by simp) ha hr hm h1 h2
  | ls h =>
    cases ha with | label ha => cases hb with | static hr hm =>
    obtain ⟨h1, h2⟩ := (isDouble_iff ha hr hm).mp h
    exact .double (by simp) ha hr hm h1 h2
  | ml h =>
    cases hb with | label hl => cases ha with | method hr hm =>
    obtain ⟨h1, h2⟩ := (isDouble_iff hl hr hm).mp h
    exact .double' (by simp) hl hr hm h1 h2
  | sl h =>
    cases hb with | label hl => cases ha with | static hr hm =>
    obtain ⟨h1, h2⟩ := (isDouble_iff hl hr hm).mp h
    exact .double' (by simp) hl hr hm h1 h2
  | mm =>
    obtain ⟨r, m, hr, hm, rfl, rfl⟩ := view_method ha
    obtain ⟨r', m', hr', hm', he, rfl⟩ := view_method hb
    obtain ⟨rfl, rfl⟩ := inj hr hr' he
    exact .other
  | ms =>
    obtain ⟨r, m, hr, hm, rfl, rfl⟩ := view_method ha
    obtain ⟨r', m', hr', hm', he, rfl⟩ := view_static hb
    obtain ⟨rfl, rfl⟩ := inj hr hr' he
    exact .func (by simp) (by simp) hr hm hr hm (same_refl _) (same_refl _)
  | sm =>
    obtain ⟨r, m, hr, hm, rfl, rfl⟩ := view_static ha
    obtain ⟨r', m', hr', hm', he, rfl⟩ := view_method hb
    obtain ⟨rfl, rfl⟩ := inj hr hr' he
    exact .func (by simp) (by simp) hr hm hr hm (same_refl _) (same_refl _)
  | ss =>
    obtain ⟨r, m, hr, hm, rfl, rfl⟩ := view_static ha
    obtain ⟨r', m', hr', hm', he, rfl⟩ := view_static hb
    obtain ⟨rfl, rfl⟩ := inj hr hr' he
    exact .other
  | interface => cases ha; cases hb; exact .other
  | dependency => cases ha; cases hb; exact .other
  | url => cases ha; cases hb; exact .other
  | hash => cases ha; cases hb; exact .other

end Verif.CompName
