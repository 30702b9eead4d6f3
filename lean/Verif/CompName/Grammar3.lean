import Verif.CompName.Grammar2

/-!
# The parser of names and its grammar: names
-/
namespace Verif.CompName

open Spec (Lower Upper Digit Label LowerLabel joined Path pathText Integrity OptIntegrity OptRange
  OptVersion OptText IsName Kind)

/-- The kinds of the specification. -/
def PKind.spec : PKind → Kind
  | .label => .label
  | .constructor => .constructor
  | .method => .method
  | .static => .static
  | .interface => .interface
  | .dependency => .dependency
  | .url => .url
  | .hash => .hash

theorem map_some_iff {α β : Type} {x : Option α} {f : α → β} {b : β} :
    x.map f = some b ↔ ∃ a, x = some a ∧ f a = b := by cases x <;> simp

theorem parseFunc_sound {s r : Str} (h : parseFunc s = some r) :
    r = [] ∧ ∃ a b, s = a ++ '.' :: b ∧ Label a ∧ Label b := by
  unfold parseFunc at h
  obtain ⟨⟨a, s1⟩, h1, h2⟩ := bind_some_iff.mp h
  clear h
  dsimp only at h2
  obtain ⟨k, h3, h4⟩ := bind_some_iff.mp h2
  clear h2
  obtain ⟨⟨b, s2⟩, h5, h6⟩ := bind_some_iff.mp h4
  clear h4
  cases h6
  obtain ⟨rfl, rfl, hb⟩ := expectKebab_some.mp h5
  exact ⟨rfl, a, b, (eatUntil_some.mp h1).1, (kebabNew_some.mp h3).2, hb⟩

theorem parseFunc_complete {a b : Str} (ha : Label a) (hb : Label b) :
    parseFunc (a ++ '.' :: b) = some [] := by
  unfold parseFunc
  refine bind_some_iff.mpr ⟨(a, b), eatUntil_some.mpr ⟨rfl, not_in_label ha _ (by decide)⟩, ?_⟩
  refine bind_some_iff.mpr ⟨a, kebabNew_label ha, ?_⟩
  exact bind_some_iff.mpr ⟨(b, []), expectKebab_some.mpr ⟨rfl, rfl, hb⟩, rfl⟩

theorem contains_iff {c : Char} {s : Str} : s.contains c = true ↔ c ∈ s := by simp

theorem pathText_colon {n : List Char} {ns ps : List (List Char)} (h : ns ≠ []) :
    ∃ t, pathText n ns ps = n ++ ':' :: t := by
  cases ns with
  | nil => exact absurd rfl h
  | cons x ns => exact ⟨x ++ joined ':' ns ++ joined '/' ps, by simp [pathText, joined_cons]⟩

/-- The first character that is in no label. -/
theorem first_other {n p t r : Str} {c d : Char} (hn : ∀ x ∈ n, KChar x) (hp : ∀ x ∈ p, KChar x)
    (hc : ¬ KChar c) (hd : ¬ KChar d) (h : n ++ c :: t = p ++ d :: r) : c = d := by
  induction n generalizing p with
  | nil =>
    cases p with
    | nil => simp at h; exact h.1
    | cons x p =>
      simp only [List.nil_append, List.cons_append, List.cons.injEq] at h
      exact absurd (h.1 ▸ hp x (by simp)) hc
  | cons y n ih =>
    cases p with
    | nil =>
      simp only [List.nil_append, List.cons_append, List.cons.injEq] at h
      exact absurd (h.1 ▸ hn y (by simp)) hd
    | cons x p =>
      simp only [List.cons_append, List.cons.injEq] at h
      exact ih (fun z hz => hn z (List.mem_cons_of_mem _ hz))
        (fun z hz => hp z (List.mem_cons_of_mem _ hz)) h.2

theorem strip_at {p s : Str} (i : Nat) {a b : Char} (hp : p[i]? = some a) (hs : s[i]? = some b)
    (h : a ≠ b) : stripPrefix p s = none := by
  apply stripPrefix_none.mpr
  rintro r rfl
  have hi : i < p.length := (List.getElem?_eq_some_iff.mp hp).1
  rw [List.getElem?_append_left hi, hp] at hs
  exact h (Option.some.inj hs)

/-- The prefixes that decide the kind. -/
theorem parse_plain {nested : Bool} {semver : Str → Bool} {s : Str}
    (hb : s.head? ≠ some '[') (he : ∀ p r, (∀ x ∈ p, KChar x) → s ≠ p ++ '=' :: r) :
    parse nested semver s = parsePlain nested semver s := by
  have hbr : ∀ p r, s ≠ '[' :: p ++ r := by
    intro p r h
    rw [h] at hb
    simp at hb
  have heq : ∀ (p : Str) (q : Str), (∀ x ∈ p, KChar x) → q = p ++ ['='] → ∀ r, s ≠ q ++ r := by
    intro p q hp hq r h
    apply he p r hp
    rw [h, hq]
    simp
  unfold parse
  have h1 : stripPrefix CONSTRUCTOR s = none :=
    stripPrefix_none.mpr fun r => hbr "constructor]".toList r
  have h2 : stripPrefix METHOD s = none := stripPrefix_none.mpr fun r => hbr "method]".toList r
  have h3 : stripPrefix STATIC s = none := stripPrefix_none.mpr fun r => hbr "static]".toList r
  have h4 : stripPrefix "unlocked-dep=".toList s = none :=
    stripPrefix_none.mpr (heq "unlocked-dep".toList _ (by decide) (by decide))
  have h5 : stripPrefix "locked-dep=".toList s = none :=
    stripPrefix_none.mpr (heq "locked-dep".toList _ (by decide) (by decide))
  have h6 : stripPrefix "url=".toList s = none :=
    stripPrefix_none.mpr (heq "url".toList _ (by decide) (by decide))
  have h7 : stripPrefix "integrity=".toList s = none :=
    stripPrefix_none.mpr (heq "integrity".toList _ (by decide) (by decide))
  rw [h1, h2, h3, h4, h5, h6, h7]

theorem parse_sound {nested : Bool} {semver : Str → Bool} {s : Str} {k : PKind}
    (h : parse nested semver s = some (k, [])) : IsName nested semver k.spec s := by
  unfold parse at h
  split at h
  · next s1 hs =>
    have e := stripPrefix_some.mp hs
    obtain ⟨⟨a, b⟩, h1, h2⟩ := map_some_iff.mp h
    cases h2
    obtain ⟨rfl, -, hl⟩ := expectKebab_some.mp h1
    rw [e]
    exact .constructor hl
  split at h
  · next s1 hs =>
    have e := stripPrefix_some.mp hs
    obtain ⟨a, h1, h2⟩ := map_some_iff.mp h
    cases h2
    obtain ⟨-, r, m, rfl, hr, hm⟩ := parseFunc_sound h1
    rw [e, ← List.append_assoc]
    exact .method hr hm
  split at h
  · next s1 hs =>
    have e := stripPrefix_some.mp hs
    obtain ⟨a, h1, h2⟩ := map_some_iff.mp h
    cases h2
    obtain ⟨-, r, m, rfl, hr, hm⟩ := parseFunc_sound h1
    rw [e, ← List.append_assoc]
    exact .static hr hm
  split at h
  · next s1 hs =>
    have e := stripPrefix_some.mp hs
    obtain ⟨a, h1, h2⟩ := map_some_iff.mp h
    cases h2
    unfold parseUnlocked at h1
    obtain ⟨s2, g1, h3⟩ := bind_some_iff.mp h1
    clear h1
    obtain ⟨s3, g2, h4⟩ := bind_some_iff.mp h3
    clear h3
    have e1 := stripPrefix_some.mp g1
    have e2 := stripPrefix_some.mp h4
    obtain ⟨n, ns, ps, v, rfl, hp, hv⟩ := pkgNameQuery_sound g2
    have := IsName.unlocked (nested := nested) (semver := semver) hp hv
    rw [e, e1, e2]
    simpa [PKind.spec] using this
  split at h
  · next s1 hs =>
    have e := stripPrefix_some.mp hs
    obtain ⟨a, h1, h2⟩ := map_some_iff.mp h
    cases h2
    unfold parseLocked at h1
    obtain ⟨s2, g1, h3⟩ := bind_some_iff.mp h1
    clear h1
    obtain ⟨s3, g2, h4⟩ := bind_some_iff.mp h3
    clear h3
    obtain ⟨s4, g3, h5⟩ := bind_some_iff.mp h4
    clear h4
    have e1 := stripPrefix_some.mp g1
    have e2 := stripPrefix_some.mp g3
    obtain ⟨n, ns, ps, v, rfl, hp, -, hv⟩ := pkgName_sound g2
    have hv' : OptVersion semver v := by
      rcases hv with hv | ⟨w, hw, h6, h7⟩
      · exact .inl hv
      · exact .inr ⟨w, hw, h6, h7 rfl⟩
    have := IsName.locked (nested := nested) hp hv' (eatOptionalHash_sound h5)
    rw [e, e1, e2]
    simpa [PKind.spec] using this
  split at h
  · next s1 hs =>
    have e := stripPrefix_some.mp hs
    obtain ⟨a, h1, h2⟩ := map_some_iff.mp h
    cases h2
    unfold parseUrl at h1
    obtain ⟨s2, g1, h3⟩ := bind_some_iff.mp h1
    clear h1
    obtain ⟨⟨u, s3⟩, g2, h4⟩ := bind_some_iff.mp h3
    clear h3
    dsimp only at h4
    split at h4
    · cases h4
    · next hu =>
      obtain ⟨s4, g3, h5⟩ := bind_some_iff.mp h4
      clear h4
      have e1 := stripPrefix_some.mp g1
      have e2 := stripPrefix_some.mp g3
      obtain ⟨h6, h7, -⟩ := eatUpTo_some.mp g2
      have := IsName.url (nested := nested) (semver := semver)
        (fun hm => hu (contains_iff.mpr hm)) h7 (eatOptionalHash_sound h5)
      rw [e, e1, h6, e2]
      simpa [PKind.spec] using this
  split at h
  · next s1 hs =>
    have e := stripPrefix_some.mp hs
    obtain ⟨a, h1, h2⟩ := map_some_iff.mp h
    cases h2
    unfold parseIntegrity at h1
    obtain ⟨s2, g1, h3⟩ := bind_some_iff.mp h1
    clear h1
    obtain ⟨s3, g2, h4⟩ := bind_some_iff.mp h3
    clear h3
    have e1 := stripPrefix_some.mp g1
    have e2 := stripPrefix_some.mp h4
    obtain ⟨i, rfl, hi⟩ := parseHash_sound g2
    have := IsName.integrity (nested := nested) (semver := semver) hi
    rw [e, e1, e2]
    simpa [PKind.spec] using this
  · unfold parsePlain at h
    split at h
    · obtain ⟨a, h1, h2⟩ := map_some_iff.mp h
      cases h2
      obtain ⟨n, ns, ps, v, rfl, hp, hi, hv⟩ := pkgName_sound h1
      have hv' : OptText v := by
        rcases hv with hv | ⟨w, hw, h6, -⟩
        · exact .inl hv
        · exact .inr ⟨w, hw, h6⟩
      have := IsName.interface (nested := nested) (semver := semver) hp (hi rfl) hv'
      simpa [PKind.spec] using this
    · obtain ⟨⟨a, b⟩, h1, h2⟩ := map_some_iff.mp h
      cases h2
      obtain ⟨rfl, -, hl⟩ := expectKebab_some.mp h1
      exact .label hl

theorem lowerLabel_chars {s : Str} (h : LowerLabel s) : ∀ c ∈ s, KChar c := label_chars h.1

theorem head_not_bracket {s t : Str} (h : Label s) : (s ++ t).head? ≠ some '[' := by
  cases s with
  | nil => exact absurd rfl (label_ne h)
  | cons c s =>
    intro he
    simp at he
    subst he
    exact absurd (label_chars h '[' (by simp)) (by decide)

/-- What a name of a kind is parsed to. -/
theorem parse_complete {nested : Bool} {semver : Str → Bool} {s : Str} {k : Kind}
    (h : IsName nested semver k s) : ∃ k', k'.spec = k ∧ parse nested semver s = some (k', []) := by
  cases h with
  | label hl =>
    refine ⟨.label, rfl, ?_⟩
    rw [parse_plain]
    · unfold parsePlain
      rw [if_neg, expectKebab_some.mpr ⟨rfl, rfl, hl⟩]
      · rfl
      · rw [contains_iff]; exact not_in_label hl _ (by decide)
    · simpa using head_not_bracket (t := []) hl
    · intro p r _ he
      exact not_in_label hl '=' (by decide) (by rw [he]; simp)
  | constructor hl =>
    rename_i l
    refine ⟨.constructor, rfl, ?_⟩
    unfold parse
    have : stripPrefix CONSTRUCTOR ("[constructor]".toList ++ l) = some l := stripPrefix_append _ _
    rw [this]
    dsimp only
    rw [expectKebab_some.mpr ⟨rfl, rfl, hl⟩]
    rfl
  | method hr hm =>
    rename_i r m
    refine ⟨.method, rfl, ?_⟩
    unfold parse
    have h1 : stripPrefix CONSTRUCTOR ("[method]".toList ++ r ++ '.' :: m) = none := by
      exact strip_at 1 (a := 'c') (by decide) (by simp; rfl) (by decide)
    have h2 : stripPrefix METHOD ("[method]".toList ++ r ++ '.' :: m) = some (r ++ '.' :: m) := by
      rw [List.append_assoc]; exact stripPrefix_append _ _
    rw [h1, h2]
    dsimp only
    rw [parseFunc_complete hr hm]
    rfl
  | static hr hm =>
    rename_i r m
    refine ⟨.static, rfl, ?_⟩
    unfold parse
    have h1 : stripPrefix CONSTRUCTOR ("[static]".toList ++ r ++ '.' :: m) = none := by
      exact strip_at 1 (a := 'c') (by decide) (by simp; rfl) (by decide)
    have h2 : stripPrefix METHOD ("[static]".toList ++ r ++ '.' :: m) = none := by
      exact strip_at 1 (a := 'm') (by decide) (by simp; rfl) (by decide)
    have h3 : stripPrefix STATIC ("[static]".toList ++ r ++ '.' :: m) = some (r ++ '.' :: m) := by
      rw [List.append_assoc]; exact stripPrefix_append _ _
    rw [h1, h2, h3]
    dsimp only
    rw [parseFunc_complete hr hm]
    rfl
  | interface hp hne hv =>
    rename_i n ns ps v
    refine ⟨.interface, rfl, ?_⟩
    obtain ⟨t, ht⟩ := pathText_colon (n := n) (ps := ps) hp.more
    rw [parse_plain]
    · unfold parsePlain
      rw [if_pos]
      · have := pkgName_complete (isI := true) (semver := semver) (r := []) hp (fun _ => hne)
          (v := v) (by
            rcases hv with hv | ⟨w, hw, h6⟩
            · exact .inl hv
            · exact .inr ⟨w, hw, h6, by simp⟩) (.inl rfl)
        rw [List.append_nil] at this
        rw [this]
        rfl
      · rw [contains_iff, ht]; simp
    · rw [ht, List.append_assoc]
      exact head_not_bracket hp.first.1
    · intro p r hpk he
      rw [ht, List.append_assoc, List.cons_append] at he
      exact absurd (first_other (lowerLabel_chars hp.first) hpk (by decide) (by decide) he)
        (by decide)
  | unlocked hp hv =>
    rename_i n ns ps v
    refine ⟨.dependency, rfl, ?_⟩
    generalize hs : "unlocked-dep=<".toList ++ pathText n ns ps ++ v ++ ['>'] = s
    have h4 : stripPrefix "unlocked-dep=".toList s =
        some ('<' :: (pathText n ns ps ++ v ++ ['>'])) := stripPrefix_some.mpr (by rw [← hs]; simp)
    have h1 : stripPrefix CONSTRUCTOR s = none :=
      strip_at 0 (a := '[') (by decide) (by rw [← hs]; simp; rfl) (by decide)
    have h2 : stripPrefix METHOD s = none :=
      strip_at 0 (a := '[') (by decide) (by rw [← hs]; simp; rfl) (by decide)
    have h3 : stripPrefix STATIC s = none :=
      strip_at 0 (a := '[') (by decide) (by rw [← hs]; simp; rfl) (by decide)
    unfold parse
    rw [h1, h2, h3, h4]
    dsimp only
    refine map_some_iff.mpr ⟨[], ?_, rfl⟩
    unfold parseUnlocked
    refine bind_some_iff.mpr ⟨_, stripPrefix_append ['<'] _, ?_⟩
    refine bind_some_iff.mpr ⟨['>'], pkgNameQuery_complete hp hv rfl, rfl⟩
  | locked hp hv hi =>
    rename_i n ns ps v i
    refine ⟨.dependency, rfl, ?_⟩
    generalize hs : "locked-dep=<".toList ++ pathText n ns ps ++ v ++ '>' :: i = s
    have h5 : stripPrefix "locked-dep=".toList s =
        some ('<' :: (pathText n ns ps ++ v ++ '>' :: i)) :=
      stripPrefix_some.mpr (by rw [← hs]; simp)
    have h1 : stripPrefix CONSTRUCTOR s = none :=
      strip_at 0 (a := '[') (by decide) (by rw [← hs]; simp; rfl) (by decide)
    have h2 : stripPrefix METHOD s = none :=
      strip_at 0 (a := '[') (by decide) (by rw [← hs]; simp; rfl) (by decide)
    have h3 : stripPrefix STATIC s = none :=
      strip_at 0 (a := '[') (by decide) (by rw [← hs]; simp; rfl) (by decide)
    have h4 : stripPrefix "unlocked-dep=".toList s = none :=
      strip_at 0 rfl (by rw [← hs]; simp; rfl) (by decide)
    unfold parse
    rw [h1, h2, h3, h4, h5]
    dsimp only
    refine map_some_iff.mpr ⟨[], ?_, rfl⟩
    unfold parseLocked
    refine bind_some_iff.mpr ⟨_, stripPrefix_append ['<'] _, ?_⟩
    refine bind_some_iff.mpr ⟨'>' :: i, pkgName_complete hp (by simp) ?_ (.inr rfl), ?_⟩
    · rcases hv with hv | ⟨w, hw, h6, h7⟩
      · exact .inl hv
      · exact .inr ⟨w, hw, h6, fun _ => h7⟩
    · exact bind_some_iff.mpr ⟨i, stripPrefix_append ['>'] i, eatOptionalHash_complete hi⟩
  | url h1u h2u hi =>
    rename_i u i
    refine ⟨.url, rfl, ?_⟩
    generalize hs : "url=<".toList ++ u ++ '>' :: i = s
    have h6 : stripPrefix "url=".toList s = some ('<' :: (u ++ '>' :: i)) :=
      stripPrefix_some.mpr (by rw [← hs]; simp)
    have h1 : stripPrefix CONSTRUCTOR s = none :=
      strip_at 0 (a := '[') (by decide) (by rw [← hs]; simp; rfl) (by decide)
    have h2 : stripPrefix METHOD s = none :=
      strip_at 0 (a := '[') (by decide) (by rw [← hs]; simp; rfl) (by decide)
    have h3 : stripPrefix STATIC s = none :=
      strip_at 0 (a := '[') (by decide) (by rw [← hs]; simp; rfl) (by decide)
    have h4 : stripPrefix "unlocked-dep=".toList s = none :=
      strip_at 1 rfl (by rw [← hs]; simp; rfl) (by decide)
    have h5 : stripPrefix "locked-dep=".toList s = none :=
      strip_at 0 rfl (by rw [← hs]; simp; rfl) (by decide)
    unfold parse
    rw [h1, h2, h3, h4, h5, h6]
    dsimp only
    refine map_some_iff.mpr ⟨[], ?_, rfl⟩
    unfold parseUrl
    refine bind_some_iff.mpr ⟨_, stripPrefix_append ['<'] _, ?_⟩
    refine bind_some_iff.mpr ⟨(u, '>' :: i), eatUpTo_some.mpr ⟨rfl, h2u, i, rfl⟩, ?_⟩
    dsimp only
    rw [if_neg (by rw [contains_iff]; exact h1u)]
    exact bind_some_iff.mpr ⟨i, stripPrefix_append ['>'] i, eatOptionalHash_complete hi⟩
  | integrity hi =>
    rename_i i
    refine ⟨.hash, rfl, ?_⟩
    generalize hs : "integrity=<".toList ++ i ++ ['>'] = s
    have h7 : stripPrefix "integrity=".toList s = some ('<' :: (i ++ ['>'])) :=
      stripPrefix_some.mpr (by rw [← hs]; simp)
    have h1 : stripPrefix CONSTRUCTOR s = none :=
      strip_at 0 (a := '[') (by decide) (by rw [← hs]; simp; rfl) (by decide)
    have h2 : stripPrefix METHOD s = none :=
      strip_at 0 (a := '[') (by decide) (by rw [← hs]; simp; rfl) (by decide)
    have h3 : stripPrefix STATIC s = none :=
      strip_at 0 (a := '[') (by decide) (by rw [← hs]; simp; rfl) (by decide)
    have h4 : stripPrefix "unlocked-dep=".toList s = none :=
      strip_at 0 rfl (by rw [← hs]; simp; rfl) (by decide)
    have h5 : stripPrefix "locked-dep=".toList s = none :=
      strip_at 0 rfl (by rw [← hs]; simp; rfl) (by decide)
    have h6 : stripPrefix "url=".toList s = none :=
      strip_at 0 rfl (by rw [← hs]; simp; rfl) (by decide)
    unfold parse
    rw [h1, h2, h3, h4, h5, h6, h7]
    dsimp only
    refine map_some_iff.mpr ⟨[], ?_, rfl⟩
    unfold parseIntegrity
    refine bind_some_iff.mpr ⟨_, stripPrefix_append ['<'] _, ?_⟩
    refine bind_some_iff.mpr ⟨['>'], parseHash_complete hi, rfl⟩

theorem spec_inj {a b : PKind} (h : a.spec = b.spec) : a = b := by
  cases a <;> cases b <;> first | rfl | cases h

theorem newName_iff {nested : Bool} {semver : Str → Bool} {s : Str} {n : Name} :
    newName nested semver s = some n ↔ n.raw = s ∧ IsName nested semver n.kind.spec s := by
  unfold newName
  constructor
  · intro h
    split at h
    · next k hk =>
      cases h
      exact ⟨rfl, parse_sound hk⟩
    · cases h
  · rintro ⟨rfl, h⟩
    obtain ⟨k, hk, hp⟩ := parse_complete h
    rw [hp]
    dsimp only
    rw [spec_inj hk]

end Verif.CompName
