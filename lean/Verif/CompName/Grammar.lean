import Verif.CompName.Lemmas

/-!
# The parser of names and its grammar: paths and versions
-/
namespace Verif.CompName

open Spec (Lower Upper Digit Fragment Label LowerLabel SameChar Same joined Path pathText)

/-- No character of a label follows. -/
def Bd (s : Str) : Prop := ∀ c, s.head? = some c → ¬ KChar c

theorem bd_nil : Bd [] := by intro c h; cases h

theorem bd_cons {c : Char} {s : Str} (h : ¬ KChar c) : Bd (c :: s) := by
  intro d hd
  cases hd
  exact h

theorem bd_joined {c : Char} (hc : ¬ KChar c) {l : List (List Char)} {r : Str} (h : Bd r) :
    Bd (joined c l ++ r) := by
  cases l with
  | nil => simpa [joined_nil] using h
  | cons x l => rw [joined_cons]; exact bd_cons hc

/-! ## `take_kebab` -/

theorem expectKebab_some {s k r : Str} : expectKebab s = some (k, r) ↔ k = s ∧ r = [] ∧ Label s := by
  unfold expectKebab
  cases h : kebabNew s with
  | none =>
    simp only [reduceCtorEq, false_iff]
    rintro ⟨-, -, hl⟩
    exact kebabNew_none.mp h hl
  | some k' =>
    obtain ⟨rfl, hl⟩ := kebabNew_some.mp h
    simp only [Option.some.injEq, Prod.mk.injEq]
    constructor
    · rintro ⟨rfl, rfl⟩; exact ⟨rfl, rfl, hl⟩
    · rintro ⟨rfl, rfl, -⟩; exact ⟨rfl, rfl⟩

theorem not_kebabChar {c : Char} : (!isKebabChar c) = true ↔ ¬ KChar c := by
  rw [← isKebabChar_iff]; simp

theorem takeKebab_sound {s k b : Str} (h : takeKebab s = some (k, b)) :
    s = k ++ b ∧ Label k := by
  unfold takeKebab at h
  cases hf : findSplit (fun c => !isKebabChar c) s with
  | none =>
    rw [hf] at h
    obtain ⟨rfl, rfl, hl⟩ := expectKebab_some.mp h
    exact ⟨by simp, hl⟩
  | some r =>
    obtain ⟨x, y⟩ := r
    rw [hf] at h
    dsimp only at h
    cases hk : kebabNew x with
    | none => rw [hk] at h; cases h
    | some k' =>
      rw [hk] at h
      cases h
      obtain ⟨rfl, hl⟩ := kebabNew_some.mp hk
      exact ⟨(findSplit_some.mp hf).1, hl⟩

theorem takeKebab_complete {k b : Str} (h : Label k) (hb : Bd b) :
    takeKebab (k ++ b) = some (k, b) := by
  unfold takeKebab
  have hk : ∀ c ∈ k, (!isKebabChar c) = false := by
    intro c hc
    have := isKebabChar_iff.mpr (label_chars h c hc)
    simp [this]
  cases b with
  | nil =>
    rw [List.append_nil, findSplit_none.mpr hk]
    exact expectKebab_some.mpr ⟨rfl, rfl, h⟩
  | cons c b =>
    rw [findSplit_some.mpr ⟨rfl, hk, c, b, rfl, not_kebabChar.mpr (hb c rfl)⟩]
    dsimp only
    rw [kebabNew_label h]

theorem takeLowercaseKebab_sound {s k b : Str} (h : takeLowercaseKebab s = some (k, b)) :
    s = k ++ b ∧ LowerLabel k := by
  unfold takeLowercaseKebab at h
  cases hf : takeKebab s with
  | none => rw [hf] at h; cases h
  | some r =>
    obtain ⟨x, y⟩ := r
    rw [hf] at h
    dsimp only at h
    split at h
    · cases h
    · next hn =>
      cases h
      obtain ⟨h1, h2⟩ := takeKebab_sound hf
      refine ⟨h1, h2, ?_⟩
      intro c hc hu
      exact hn (List.any_eq_true.mpr ⟨c, hc, isUp_iff.mpr hu⟩)

theorem takeLowercaseKebab_complete {k b : Str} (h : LowerLabel k) (hb : Bd b) :
    takeLowercaseKebab (k ++ b) = some (k, b) := by
  unfold takeLowercaseKebab
  rw [takeKebab_complete h.1 hb]
  dsimp only
  rw [if_neg]
  intro ha
  obtain ⟨c, hc, hu⟩ := List.any_eq_true.mp ha
  exact h.2 c hc (isUp_iff.mp hu)

/-! ## The loops of `pkg_path` -/

theorem namespaces_sound {fuel : Nat} {s r : Str} (h : moreNamespaces fuel s = some r) :
    ∃ ns, s = joined ':' ns ++ r ∧ ∀ x ∈ ns, LowerLabel x := by
  induction fuel generalizing s with
  | zero =>
    unfold moreNamespaces at h
    split at h
    · cases h
    · cases h; exact ⟨[], rfl, by simp⟩
  | succ fuel ih =>
    unfold moreNamespaces at h
    split at h
    · cases h1 : expectStr [':'] s with
      | none => rw [h1] at h; cases h
      | some s1 =>
        rw [h1] at h
        cases h2 : takeLowercaseKebab s1 with
        | none =>
          have : (none : Option Str) = some r := by
            simpa only [h2, Option.bind_eq_bind, Option.bind_some, Option.bind_none] using h
          cases this
        | some q =>
          obtain ⟨k, s2⟩ := q
          have h3 : moreNamespaces fuel s2 = some r := by
            simpa only [h2, Option.bind_eq_bind, Option.bind_some] using h
          obtain ⟨ns, rfl, hns⟩ := ih h3
          obtain ⟨rfl, hk⟩ := takeLowercaseKebab_sound h2
          have := stripPrefix_some.mp h1
          subst this
          refine ⟨k :: ns, by simp [joined_cons], ?_⟩
          intro x hx
          rcases List.mem_cons.mp hx with rfl | hx
          · exact hk
          · exact hns x hx
    · cases h; exact ⟨[], rfl, by simp⟩

theorem projections_sound {fuel : Nat} {s r : Str} (h : moreProjections fuel s = some r) :
    ∃ ps, s = joined '/' ps ++ r ∧ ∀ x ∈ ps, Label x := by
  induction fuel generalizing s with
  | zero =>
    unfold moreProjections at h
    split at h
    · cases h
    · cases h; exact ⟨[], rfl, by simp⟩
  | succ fuel ih =>
    unfold moreProjections at h
    split at h
    · cases h1 : expectStr ['/'] s with
      | none => rw [h1] at h; cases h
      | some s1 =>
        rw [h1] at h
        cases h2 : takeKebab s1 with
        | none =>
          have : (none : Option Str) = some r := by
            simpa only [h2, Option.bind_eq_bind, Option.bind_some, Option.bind_none] using h
          cases this
        | some q =>
          obtain ⟨k, s2⟩ := q
          have h3 : moreProjections fuel s2 = some r := by
            simpa only [h2, Option.bind_eq_bind, Option.bind_some] using h
          obtain ⟨ns, rfl, hns⟩ := ih h3
          obtain ⟨rfl, hk⟩ := takeKebab_sound h2
          have := stripPrefix_some.mp h1
          subst this
          refine ⟨k :: ns, by simp [joined_cons], ?_⟩
          intro x hx
          rcases List.mem_cons.mp hx with rfl | hx
          · exact hk
          · exact hns x hx
    · cases h; exact ⟨[], rfl, by simp⟩

theorem namespaces_complete {fuel : Nat} {ns : List (List Char)} {r : Str}
    (hns : ∀ x ∈ ns, LowerLabel x) (hb : Bd r) (hr : r.head? ≠ some ':') (hf : ns.length ≤ fuel) :
    moreNamespaces fuel (joined ':' ns ++ r) = some r := by
  induction fuel generalizing ns with
  | zero =>
    have : ns = [] := List.length_eq_zero_iff.mp (by omega)
    subst this
    unfold moreNamespaces
    rw [if_neg (by simpa [joined_nil] using hr)]
    rfl
  | succ fuel ih =>
    cases ns with
    | nil =>
      unfold moreNamespaces
      rw [if_neg (by simpa [joined_nil] using hr)]
      rfl
    | cons k ns =>
      unfold moreNamespaces
      rw [joined_cons, if_pos (by simp)]
      have h1 : expectStr [':'] (':' :: (k ++ joined ':' ns) ++ r) =
          some (k ++ (joined ':' ns ++ r)) := stripPrefix_some.mpr (by simp)
      rw [h1]
      show (takeLowercaseKebab (k ++ (joined ':' ns ++ r)) >>= _) = _
      rw [takeLowercaseKebab_complete (hns k (by simp)) (bd_joined (by decide) hb)]
      exact ih (fun x hx => hns x (List.mem_cons_of_mem _ hx)) (by simpa using hf)

theorem projections_complete {fuel : Nat} {ns : List (List Char)} {r : Str}
    (hns : ∀ x ∈ ns, Label x) (hb : Bd r) (hr : r.head? ≠ some '/') (hf : ns.length ≤ fuel) :
    moreProjections fuel (joined '/' ns ++ r) = some r := by
  induction fuel generalizing ns with
  | zero =>
    have : ns = [] := List.length_eq_zero_iff.mp (by omega)
    subst this
    unfold moreProjections
    rw [if_neg (by simpa [joined_nil] using hr)]
    rfl
  | succ fuel ih =>
    cases ns with
    | nil =>
      unfold moreProjections
      rw [if_neg (by simpa [joined_nil] using hr)]
      rfl
    | cons k ns =>
      unfold moreProjections
      rw [joined_cons, if_pos (by simp)]
      have h1 : expectStr ['/'] ('/' :: (k ++ joined '/' ns) ++ r) =
          some (k ++ (joined '/' ns ++ r)) := stripPrefix_some.mpr (by simp)
      rw [h1]
      show (takeKebab (k ++ (joined '/' ns ++ r)) >>= _) = _
      rw [takeKebab_complete (hns k (by simp)) (bd_joined (by decide) hb)]
      exact ih (fun x hx => hns x (List.mem_cons_of_mem _ hx)) (by simpa using hf)

theorem joined_length (c : Char) (l : List (List Char)) : l.length ≤ (joined c l).length := by
  induction l with
  | nil => simp
  | cons x l ih => simp only [joined_cons, List.length_cons, List.length_append]; omega

/-! ## `pkg_path` -/

theorem bind_some_iff {α β : Type} {x : Option α} {f : α → Option β} {b : β} :
    (x >>= f) = some b ↔ ∃ a, x = some a ∧ f a = some b := by
  cases x with
  | none => simp
  | some a => simp

theorem pkgPath_sound {nested req : Bool} {s r : Str} (h : pkgPath nested req s = some r) :
    ∃ n ns ps, s = pathText n ns ps ++ r ∧ Path nested n ns ps ∧ (req = true → ps ≠ []) := by
  unfold pkgPath at h
  obtain ⟨⟨n, s1⟩, h1, g1⟩ := bind_some_iff.mp h
  clear h
  obtain ⟨s2, h2, g2⟩ := bind_some_iff.mp g1
  clear g1
  obtain ⟨⟨p, s3⟩, h3, g3⟩ := bind_some_iff.mp g2
  clear g2
  obtain ⟨s4, h4, h⟩ := bind_some_iff.mp g3
  clear g3
  obtain ⟨rfl, hn⟩ := takeLowercaseKebab_sound h1
  have e2 := stripPrefix_some.mp h2
  obtain ⟨rfl, hp⟩ := takeLowercaseKebab_sound h3
  have e4 : ∃ ns, s3 = joined ':' ns ++ s4 ∧ (∀ x ∈ ns, LowerLabel x) ∧
      (nested = false → ns = []) := by
    cases nested with
    | true =>
      obtain ⟨ns, h5, h6⟩ := namespaces_sound h4
      exact ⟨ns, h5, h6, by simp⟩
    | false => cases h4; exact ⟨[], rfl, by simp, by simp⟩
  obtain ⟨ns, e4, hns, hflat⟩ := e4
  subst e2 e4
  have names : ∀ x ∈ p :: ns, LowerLabel x := by
    intro x hx
    rcases List.mem_cons.mp hx with rfl | hx
    · exact hp
    · exact hns x hx
  split at h
  · obtain ⟨s5, h5, g5⟩ := bind_some_iff.mp h
    clear h
    obtain ⟨⟨q, s6⟩, h6, h⟩ := bind_some_iff.mp g5
    clear g5
    dsimp only at h
    have e5 := stripPrefix_some.mp h5
    obtain ⟨rfl, hq⟩ := takeKebab_sound h6
    have e6 : ∃ ps, s6 = joined '/' ps ++ r ∧ (∀ x ∈ ps, Label x) ∧
        (nested = false → ps = []) := by
      cases nested with
      | true =>
        obtain ⟨ps, h7, h8⟩ := projections_sound h
        exact ⟨ps, h7, h8, by simp⟩
      | false => cases h; exact ⟨[], rfl, by simp, by simp⟩
    obtain ⟨ps, e6, hps, hflat'⟩ := e6
    subst e5 e6
    refine ⟨n, p :: ns, q :: ps, by simp [pathText, joined_cons], ⟨hn, by simp, names, ?_, ?_⟩,
      by simp⟩
    · intro x hx
      rcases List.mem_cons.mp hx with rfl | hx
      · exact hq
      · exact hps x hx
    · intro hf
      simp [hflat hf, hflat' hf]
  · split at h
    · cases h
    · next hreq =>
      cases h
      refine ⟨n, p :: ns, [], by simp [pathText, joined_cons, joined_nil],
        ⟨hn, by simp, names, by simp, ?_⟩, by simp [hreq]⟩
      intro hf
      simp [hflat hf]

theorem pkgPath_complete {nested req : Bool} {n : List Char} {ns ps : List (List Char)} {r : Str}
    (h : Path nested n ns ps) (hreq : req = true → ps ≠ []) (hb : Bd r)
    (h1 : r.head? ≠ some ':') (h2 : r.head? ≠ some '/') :
    pkgPath nested req (pathText n ns ps ++ r) = some r := by
  obtain ⟨hn, hne, hns, hps, hflat⟩ := h
  cases ns with
  | nil => exact absurd rfl hne
  | cons p ns =>
    have hb' : Bd (joined '/' ps ++ r) := bd_joined (by decide) hb
    have hc' : (joined '/' ps ++ r).head? ≠ some ':' := by
      cases ps with
      | nil => simpa [joined_nil] using h1
      | cons q ps => simp [joined_cons]
    unfold pkgPath
    have e0 : pathText n (p :: ns) ps ++ r =
        n ++ (':' :: (p ++ (joined ':' ns ++ (joined '/' ps ++ r)))) := by
      simp [pathText, joined_cons]
    rw [e0, takeLowercaseKebab_complete hn (bd_cons (by decide))]
    refine bind_some_iff.mpr ⟨_, rfl, ?_⟩
    dsimp only
    refine bind_some_iff.mpr ⟨p ++ (joined ':' ns ++ (joined '/' ps ++ r)),
      stripPrefix_append [':'] _, ?_⟩
    refine bind_some_iff.mpr ⟨_, takeLowercaseKebab_complete (hns p (by simp))
      (bd_joined (by decide) hb'), ?_⟩
    dsimp only
    refine bind_some_iff.mpr ⟨joined '/' ps ++ r, ?_, ?_⟩
    · cases nested with
      | true =>
        exact namespaces_complete (fun x hx => hns x (List.mem_cons_of_mem _ hx)) hb' hc'
          (by have := joined_length ':' ns; simp only [List.length_append]; omega)
      | false =>
        have : ns = [] := by
          have := (hflat rfl).1
          exact List.length_eq_zero_iff.mp (by simpa using this)
        subst this
        rfl
    · cases ps with
      | nil =>
        rw [if_neg (by simpa [joined_nil] using h2)]
        cases req with
        | true => exact absurd rfl (hreq rfl)
        | false => rfl
      | cons q ps =>
        rw [joined_cons, if_pos (by simp)]
        refine bind_some_iff.mpr ⟨q ++ (joined '/' ps ++ r), stripPrefix_some.mpr (by simp), ?_⟩
        refine bind_some_iff.mpr ⟨_, takeKebab_complete (hps q (by simp))
          (bd_joined (by decide) hb), ?_⟩
        dsimp only
        cases nested with
        | true =>
          exact projections_complete (fun x hx => hps x (List.mem_cons_of_mem _ hx)) hb h2
            (by have := joined_length '/' ps; simp only [List.length_append]; omega)
        | false =>
          have : ps = [] := by
            have := (hflat rfl).2
            simpa using this
          subst this
          rfl

/-! ## Versions -/

theorem semverRange_iff {semver : Str → Bool} {r : Str} (hb : '}' ∉ r) :
    semverRange semver r = some () ↔ Spec.Range semver r := by
  unfold semverRange Spec.Range
  constructor
  · intro h
    refine ⟨hb, ?_⟩
    split at h
    · next hs => exact .inl hs
    · right
      split at h
      · next r' hr =>
        have e := stripPrefix_some.mp hr
        split at h
        · next hsp =>
          split at h
          · next hv => exact .inl ⟨r', e, eatUntil_none.mp hsp, hv⟩
          · cases h
        · next lo up hsp =>
          obtain ⟨e2, hns⟩ := eatUntil_some.mp hsp
          split at h
          · next hv =>
            split at h
            · next u hu =>
              have e3 := stripPrefix_some.mp hu
              split at h
              · next hv2 =>
                refine .inr (.inr ⟨lo, u, ?_, hns, hv, hv2⟩)
                rw [e, e2, e3]
                simp
              · cases h
            · cases h
          · cases h
      · split at h
        · next u hu =>
          split at h
          · next hv => exact .inr (.inl ⟨u, stripPrefix_some.mp hu, hv⟩)
          · cases h
        · cases h
  · rintro ⟨-, h | ⟨l, rfl, hl, hv⟩ | ⟨u, rfl, hv⟩ | ⟨l, u, rfl, hl, hv, hv2⟩⟩
    · rw [if_pos h]
    · rw [if_neg (by simp)]
      have e : stripPrefix ['>', '='] (">=".toList ++ l) = some l := stripPrefix_append _ _
      rw [e]
      dsimp only
      have e2 : splitOnceSpace l = none := eatUntil_none.mpr hl
      rw [e2]
      dsimp only
      rw [if_pos hv]
    · rw [if_neg (by simp)]
      have e : stripPrefix ['>', '='] ('<' :: u) = none := stripPrefix_none.mpr (by simp)
      rw [e]
      dsimp only
      have e2 : stripPrefix ['<'] ('<' :: u) = some u := stripPrefix_append ['<'] u
      rw [e2]
      dsimp only
      rw [if_pos hv]
    · rw [if_neg (by simp)]
      have e : stripPrefix ['>', '='] (">=".toList ++ l ++ " <".toList ++ u) =
          some (l ++ ' ' :: '<' :: u) := stripPrefix_some.mpr (by simp)
      rw [e]
      dsimp only
      have e2 : splitOnceSpace (l ++ ' ' :: '<' :: u) = some (l, '<' :: u) :=
        eatUntil_some.mpr ⟨rfl, hl⟩
      rw [e2]
      dsimp only
      rw [if_pos hv]
      have e3 : stripPrefix ['<'] ('<' :: u) = some u := stripPrefix_append ['<'] u
      rw [e3]
      dsimp only
      rw [if_pos hv2]

end Verif.CompName
