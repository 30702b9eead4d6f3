import Verif.CompName.Grammar

/-!
# The parser of names and its grammar: versions of packages, hashes
-/
namespace Verif.CompName

open Spec (Lower Upper Digit Label LowerLabel joined Path pathText B64 Base64 HashExpr White Pieces
  Integrity OptIntegrity OptRange OptVersion OptText)

/-! ## Packages with versions -/

theorem pkgName_sound {nested isI : Bool} {semver : Str → Bool} {s r : Str}
    (h : pkgName nested semver isI s = some r) :
    ∃ n ns ps v, s = pathText n ns ps ++ v ++ r ∧ Path nested n ns ps ∧
      (isI = true → ps ≠ []) ∧
      (v = [] ∨ ∃ w, v = '@' :: w ∧ '>' ∉ w ∧ (isI = false → semver w = true)) := by
  unfold pkgName at h
  obtain ⟨s1, h1, h2⟩ := bind_some_iff.mp h
  clear h
  obtain ⟨n, ns, ps, rfl, hp, hi⟩ := pkgPath_sound h1
  cases hs : stripPrefix ['@'] s1 with
  | none =>
    rw [hs] at h2
    cases h2
    exact ⟨n, ns, ps, [], by simp, hp, hi, .inl rfl⟩
  | some s2 =>
    rw [hs] at h2
    dsimp only at h2
    have e := stripPrefix_some.mp hs
    subst e
    have key : ∃ w r', s2 = w ++ r' ∧ '>' ∉ w ∧ (eatUpTo '>' s2).getD (s2, []) = (w, r') := by
      cases he : eatUpTo '>' s2 with
      | none => exact ⟨s2, [], by simp, eatUpTo_none.mp he, rfl⟩
      | some q =>
        obtain ⟨a, b⟩ := q
        obtain ⟨h3, h4, -⟩ := eatUpTo_some.mp he
        exact ⟨a, b, h3, h4, rfl⟩
    obtain ⟨w, r', rfl, hw, he⟩ := key
    rw [he] at h2
    dsimp only at h2
    split at h2
    · next hI =>
      cases h2
      exact ⟨n, ns, ps, '@' :: w, by simp, hp, hi, .inr ⟨w, rfl, hw, by simp [hI]⟩⟩
    · split at h2
      · next hv =>
        cases h2
        exact ⟨n, ns, ps, '@' :: w, by simp, hp, hi, .inr ⟨w, rfl, hw, fun _ => hv⟩⟩
      · cases h2

theorem pkgName_complete {nested isI : Bool} {semver : Str → Bool} {n : List Char}
    {ns ps : List (List Char)} {v r : Str} (hp : Path nested n ns ps) (hi : isI = true → ps ≠ [])
    (hv : v = [] ∨ ∃ w, v = '@' :: w ∧ '>' ∉ w ∧ (isI = false → semver w = true))
    (hr : r = [] ∨ r.head? = some '>') :
    pkgName nested semver isI (pathText n ns ps ++ v ++ r) = some r := by
  unfold pkgName
  have h0 : ∃ c, (v ++ r) = [] ∨ (c = '@' ∨ c = '>') ∧ (v ++ r).head? = some c := by
    rcases hv with rfl | ⟨w, rfl, -⟩
    · rcases hr with rfl | hr
      · exact ⟨'@', .inl rfl⟩
      · exact ⟨'>', .inr ⟨.inr rfl, hr⟩⟩
    · exact ⟨'@', .inr ⟨.inl rfl, rfl⟩⟩
  have hbd : Bd (v ++ r) ∧ (v ++ r).head? ≠ some ':' ∧ (v ++ r).head? ≠ some '/' := by
    obtain ⟨c, h | ⟨rfl | rfl, h⟩⟩ := h0
    · rw [h]; exact ⟨bd_nil, by simp, by simp⟩
    · refine ⟨?_, by rw [h]; decide, by rw [h]; decide⟩
      intro d hd; rw [h] at hd; cases hd; decide
    · refine ⟨?_, by rw [h]; decide, by rw [h]; decide⟩
      intro d hd; rw [h] at hd; cases hd; decide
  rw [List.append_assoc]
  refine bind_some_iff.mpr ⟨_, pkgPath_complete hp hi hbd.1 hbd.2.1 hbd.2.2, ?_⟩
  rcases hv with rfl | ⟨w, rfl, hw, hs⟩
  · have : stripPrefix ['@'] ([] ++ r) = none := by
      apply stripPrefix_none.mpr
      intro x hx
      rcases hr with rfl | hr
      · simp at hx
      · rw [List.nil_append] at hx
        rw [hx] at hr
        simp at hr
    rw [this]
    rfl
  · have : stripPrefix ['@'] ('@' :: w ++ r) = some (w ++ r) := stripPrefix_some.mpr rfl
    rw [this]
    dsimp only
    have he : (eatUpTo '>' (w ++ r)).getD (w ++ r, []) = (w, r) := by
      rcases hr with rfl | hr
      · rw [List.append_nil, eatUpTo_none.mpr hw]; rfl
      · cases r with
        | nil => cases hr
        | cons c r =>
          cases hr
          rw [eatUpTo_some.mpr ⟨rfl, hw, r, rfl⟩]
          rfl
    rw [he]
    dsimp only
    cases isI with
    | true => rfl
    | false => simp [hs rfl]

theorem pkgNameQuery_sound {nested : Bool} {semver : Str → Bool} {s r : Str}
    (h : pkgNameQuery nested semver s = some r) :
    ∃ n ns ps v, s = pathText n ns ps ++ v ++ r ∧ Path nested n ns ps ∧ OptRange semver v := by
  unfold pkgNameQuery at h
  obtain ⟨s1, h1, h2⟩ := bind_some_iff.mp h
  clear h
  obtain ⟨n, ns, ps, rfl, hp, -⟩ := pkgPath_sound h1
  cases hs : stripPrefix ['@'] s1 with
  | none =>
    rw [hs] at h2
    cases h2
    exact ⟨n, ns, ps, [], by simp, hp, .inl rfl⟩
  | some s2 =>
    rw [hs] at h2
    dsimp only at h2
    have e := stripPrefix_some.mp hs
    subst e
    cases hst : stripPrefix ['*'] s2 with
    | some s3 =>
      rw [hst] at h2
      cases h2
      have e := stripPrefix_some.mp hst
      subst e
      exact ⟨n, ns, ps, "@*".toList, by simp, hp, .inr (.inl rfl)⟩
    | none =>
      rw [hst] at h2
      dsimp only at h2
      obtain ⟨s3, h3, h4⟩ := bind_some_iff.mp h2
      clear h2
      obtain ⟨⟨x, s4⟩, h5, h6⟩ := bind_some_iff.mp h4
      clear h4
      dsimp only at h6
      obtain ⟨s5, h7, h8⟩ := bind_some_iff.mp h6
      clear h6
      obtain ⟨u, h9, h10⟩ := bind_some_iff.mp h8
      clear h8
      cases h10
      obtain ⟨e2, hx, -⟩ := eatUpTo_some.mp h5
      have e1 := stripPrefix_some.mp h3
      have e3 := stripPrefix_some.mp h7
      refine ⟨n, ns, ps, "@{".toList ++ x ++ ['}'], ?_, hp, .inr (.inr ⟨x, rfl, ?_⟩)⟩
      · rw [e1, e2, e3]; simp
      · exact (semverRange_iff hx).mp h9

theorem pkgNameQuery_complete {nested : Bool} {semver : Str → Bool} {n : List Char}
    {ns ps : List (List Char)} {v r : Str} (hp : Path nested n ns ps)
    (hv : OptRange semver v) (hr : r.head? = some '>') :
    pkgNameQuery nested semver (pathText n ns ps ++ v ++ r) = some r := by
  unfold pkgNameQuery
  obtain ⟨r', rfl⟩ : ∃ r', r = '>' :: r' := by
    cases r with
    | nil => cases hr
    | cons c r => cases hr; exact ⟨r, rfl⟩
  have hbd : Bd (v ++ '>' :: r') ∧ (v ++ '>' :: r').head? ≠ some ':' ∧
      (v ++ '>' :: r').head? ≠ some '/' := by
    rcases hv with rfl | rfl | ⟨x, rfl, -⟩
    · exact ⟨bd_cons (by decide), by simp, by simp⟩
    · exact ⟨bd_cons (by decide), by simp, by simp⟩
    · exact ⟨bd_cons (by decide), by simp, by simp⟩
  rw [List.append_assoc]
  refine bind_some_iff.mpr ⟨_, pkgPath_complete hp (by simp) hbd.1 hbd.2.1 hbd.2.2, ?_⟩
  rcases hv with rfl | rfl | ⟨x, rfl, hx⟩
  · have : stripPrefix ['@'] ([] ++ '>' :: r') = none := stripPrefix_none.mpr (by simp)
    rw [this]
    rfl
  · have : stripPrefix ['@'] ("@*".toList ++ '>' :: r') = some ('*' :: '>' :: r') :=
      stripPrefix_some.mpr rfl
    rw [this]
    dsimp only
    have : stripPrefix ['*'] ('*' :: '>' :: r') = some ('>' :: r') := stripPrefix_some.mpr rfl
    rw [this]
  · have : stripPrefix ['@'] ("@{".toList ++ x ++ ['}'] ++ '>' :: r') =
        some ('{' :: (x ++ '}' :: '>' :: r')) := stripPrefix_some.mpr (by simp)
    rw [this]
    dsimp only
    have : stripPrefix ['*'] ('{' :: (x ++ '}' :: '>' :: r')) = none :=
      stripPrefix_none.mpr (by simp)
    rw [this]
    dsimp only
    refine bind_some_iff.mpr ⟨x ++ '}' :: '>' :: r', stripPrefix_some.mpr rfl, ?_⟩
    refine bind_some_iff.mpr ⟨(x, '}' :: '>' :: r'), eatUpTo_some.mpr ⟨rfl, hx.1, _, rfl⟩, ?_⟩
    refine bind_some_iff.mpr ⟨'>' :: r', stripPrefix_some.mpr rfl, ?_⟩
    refine bind_some_iff.mpr ⟨(), (semverRange_iff hx.1).mpr hx, rfl⟩

/-! ## Base64 -/

theorem isB64Char_iff {c : Char} : isB64Char c = true ↔ B64 c := by
  simp only [isB64Char, Bool.or_eq_true, isLo_iff, isUp_iff, isDig_iff, beq_iff_eq, B64]
  constructor
  · rintro ((((h | h) | h) | h) | h) <;> simp [h]
  · rintro (h | h | h | h | h) <;> simp [h]

instance (c : Char) : Decidable (B64 c) := inferInstanceAs (Decidable (_ ∨ _))

theorem base64Loop_equals {i e : Nat} {s : Str} (hi : 0 < i) (he : 0 < e) :
    isBase64Loop i e s = true ↔ ∃ k, s = List.replicate k '=' ∧ (k = 0 ∨ e + k ≤ 2) := by
  induction s generalizing i e with
  | nil => simp [isBase64Loop]
  | cons c s ih =>
    unfold isBase64Loop
    have h0 : (e == 0) = false := by simp; omega
    rw [h0, Bool.and_false, if_neg (by simp)]
    by_cases hc : c = '='
    · subst hc
      by_cases h2 : e < 2
      · rw [if_pos (by simp [hi, h2]), ih (by omega) (by omega)]
        constructor
        · rintro ⟨k, rfl, hk⟩
          exact ⟨k + 1, by simp [List.replicate_succ], .inr (by omega)⟩
        · rintro ⟨k, hk, hk2⟩
          cases k with
          | zero => simp at hk
          | succ k =>
            simp only [List.replicate_succ, List.cons.injEq, true_and] at hk
            exact ⟨k, hk, by omega⟩
      · rw [if_neg (by simp [h2])]
        simp only [Bool.false_eq_true, false_iff]
        rintro ⟨k, hk, hk2⟩
        cases k with
        | zero => simp at hk
        | succ k => omega
    · rw [if_neg (by simp [hc])]
      simp only [Bool.false_eq_true, false_iff]
      rintro ⟨k, hk, -⟩
      cases k with
      | zero => simp at hk
      | succ k =>
        simp only [List.replicate_succ, List.cons.injEq] at hk
        exact hc hk.1

theorem base64Loop_iff {i : Nat} {s : Str} (hi : 0 < i) :
    isBase64Loop i 0 s = true ↔
      ∃ a k, s = a ++ List.replicate k '=' ∧ (∀ c ∈ a, B64 c) ∧ k ≤ 2 := by
  induction s generalizing i with
  | nil => exact ⟨fun _ => ⟨[], 0, rfl, by simp, by omega⟩, fun _ => rfl⟩
  | cons c s ih =>
    unfold isBase64Loop
    by_cases hb : B64 c
    · rw [if_pos (by simp [isB64Char_iff.mpr hb]), ih (by omega)]
      constructor
      · rintro ⟨a, k, rfl, ha, hk⟩
        refine ⟨c :: a, k, by simp, ?_, hk⟩
        intro x hx
        rcases List.mem_cons.mp hx with rfl | hx
        · exact hb
        · exact ha x hx
      · rintro ⟨a, k, he, ha, hk⟩
        cases a with
        | nil =>
          cases k with
          | zero => simp at he
          | succ k =>
            simp only [List.nil_append, List.replicate_succ, List.cons.injEq] at he
            rw [he.1] at hb
            exact absurd hb (by decide)
        | cons x a =>
          simp only [List.cons_append, List.cons.injEq] at he
          exact ⟨a, k, he.2, fun y hy => ha y (List.mem_cons_of_mem _ hy), hk⟩
    · rw [bool_of isB64Char_iff hb, Bool.false_and, if_neg (by simp)]
      by_cases hc : c = '='
      · subst hc
        rw [if_pos (by simp [hi]), base64Loop_equals (by omega) (by omega)]
        constructor
        · rintro ⟨k, rfl, hk⟩
          exact ⟨[], k + 1, by simp [List.replicate_succ], by simp, by omega⟩
        · rintro ⟨a, k, he, ha, hk⟩
          cases a with
          | nil =>
            cases k with
            | zero => simp at he
            | succ k =>
              simp only [List.nil_append, List.replicate_succ, List.cons.injEq, true_and] at he
              exact ⟨k, he, by omega⟩
          | cons x a =>
            simp only [List.cons_append, List.cons.injEq] at he
            exact absurd (he.1 ▸ ha x (by simp)) hb
      · rw [if_neg (by simp [hc])]
        simp only [Bool.false_eq_true, false_iff]
        rintro ⟨a, k, he, ha, hk⟩
        cases a with
        | nil =>
          cases k with
          | zero => simp at he
          | succ k =>
            simp only [List.nil_append, List.replicate_succ, List.cons.injEq] at he
            exact hc he.1
        | cons x a =>
          simp only [List.cons_append, List.cons.injEq] at he
          exact absurd (he.1 ▸ ha x (by simp)) hb

theorem isBase64_iff {s : Str} : isBase64 s = true ↔ Base64 s := by
  unfold isBase64 Base64
  cases s with
  | nil =>
    simp only [List.isEmpty_nil, if_true, Bool.false_eq_true, false_iff]
    rintro ⟨a, k, h, ha, -⟩
    exact ha (List.append_eq_nil_iff.mp h.symm).1
  | cons c s =>
    rw [if_neg (by simp)]
    unfold isBase64Loop
    by_cases hb : B64 c
    · rw [if_pos (by simp [isB64Char_iff.mpr hb]), base64Loop_iff (by omega)]
      constructor
      · rintro ⟨a, k, rfl, ha, hk⟩
        refine ⟨c :: a, k, by simp, by simp, ?_, hk⟩
        intro x hx
        rcases List.mem_cons.mp hx with rfl | hx
        · exact hb
        · exact ha x hx
      · rintro ⟨a, k, he, hne, ha, hk⟩
        cases a with
        | nil => exact absurd rfl hne
        | cons x a =>
          simp only [List.cons_append, List.cons.injEq] at he
          exact ⟨a, k, he.2, fun y hy => ha y (List.mem_cons_of_mem _ hy), hk⟩
    · rw [bool_of isB64Char_iff hb, Bool.false_and, if_neg (by simp)]
      rw [if_neg (by simp)]
      simp only [Bool.false_eq_true, false_iff]
      rintro ⟨a, k, he, hne, ha, hk⟩
      cases a with
      | nil => exact absurd rfl hne
      | cons x a =>
        simp only [List.cons_append, List.cons.injEq] at he
        exact absurd (he.1 ▸ ha x (by simp)) hb

theorem base64_chars {s : Str} (h : Base64 s) : '?' ∉ s := by
  obtain ⟨a, k, rfl, -, ha, -⟩ := h
  intro hm
  rcases List.mem_append.mp hm with hm | hm
  · exact absurd (ha _ hm) (by decide)
  · exact absurd (List.eq_of_mem_replicate hm) (by decide)

/-! ## Hashes -/

/-- The part of `hashOk` behind the algorithm. -/
def hashRest (rest : Str) : Bool :=
  match stripPrefix ['-'] rest with
  | none => false
  | some rest =>
    match eatUpTo '?' rest with
    | some (base64, _) => isBase64 base64
    | none => isBase64 rest

theorem hashRest_iff {s : Str} : hashRest s = true ↔
    ∃ b o, s = '-' :: (b ++ o) ∧ Base64 b ∧ (o = [] ∨ o.head? = some '?') := by
  unfold hashRest
  constructor
  · intro h
    split at h
    · cases h
    · next rest hr =>
      have e := stripPrefix_some.mp hr
      subst e
      split at h
      · next b q he =>
        obtain ⟨rfl, -, cs, rfl⟩ := eatUpTo_some.mp he
        exact ⟨b, '?' :: cs, rfl, isBase64_iff.mp h, .inr rfl⟩
      · exact ⟨rest, [], by simp, isBase64_iff.mp h, .inl rfl⟩
  · rintro ⟨b, o, rfl, hb, ho⟩
    have : stripPrefix ['-'] ('-' :: (b ++ o)) = some (b ++ o) := stripPrefix_some.mpr rfl
    rw [this]
    dsimp only
    rcases ho with rfl | ho
    · rw [List.append_nil, eatUpTo_none.mpr (base64_chars hb)]
      exact isBase64_iff.mpr hb
    · cases o with
      | nil => cases ho
      | cons c o =>
        cases ho
        rw [eatUpTo_some.mpr ⟨rfl, base64_chars hb, o, rfl⟩]
        exact isBase64_iff.mpr hb

theorem hashOk_eq (h : Str) : hashOk h =
    match (stripPrefix "sha256".toList h).or
      ((stripPrefix "sha384".toList h).or (stripPrefix "sha512".toList h)) with
    | none => false
    | some rest => hashRest rest := rfl

theorem hashOk_iff {h : Str} : hashOk h = true ↔ HashExpr h := by
  rw [hashOk_eq]
  constructor
  · intro hh
    split at hh
    · cases hh
    · next rest hr =>
      obtain ⟨b, o, e, hb, ho⟩ := hashRest_iff.mp hh
      have of : ∀ alg ∈ ["sha256".toList, "sha384".toList, "sha512".toList],
          stripPrefix alg h = some rest → HashExpr h := by
        intro alg ha hs
        have := stripPrefix_some.mp hs
        exact ⟨alg, ha, b, o, by rw [this, e], hb, ho⟩
      cases h1 : stripPrefix "sha256".toList h with
      | some x => rw [h1] at hr; cases hr; exact of _ (by simp) h1
      | none =>
        rw [h1, Option.none_or] at hr
        cases h2 : stripPrefix "sha384".toList h with
        | some x => rw [h2] at hr; cases hr; exact of _ (by simp) h2
        | none =>
          rw [h2, Option.none_or] at hr
          exact of _ (by simp) hr
  · rintro ⟨alg, ha, b, o, rfl, hb, ho⟩
    have hrest : hashRest ('-' :: (b ++ o)) = true := hashRest_iff.mpr ⟨b, o, rfl, hb, ho⟩
    simp only [List.mem_cons, List.not_mem_nil, or_false] at ha
    rcases ha with rfl | rfl | rfl
    · rw [stripPrefix_append]
      exact hrest
    · have : stripPrefix "sha256".toList ("sha384".toList ++ '-' :: (b ++ o)) = none := by
        simp [stripPrefix]
      rw [this, stripPrefix_append]
      exact hrest
    · have h1 : stripPrefix "sha256".toList ("sha512".toList ++ '-' :: (b ++ o)) = none := by
        simp [stripPrefix]
      have h2 : stripPrefix "sha384".toList ("sha512".toList ++ '-' :: (b ++ o)) = none := by
        simp [stripPrefix]
      rw [h1, h2, stripPrefix_append]
      exact hrest

/-! ## White space -/

theorem isSpace_iff {c : Char} : isSpace c = true ↔ White c := by
  unfold isSpace White
  simp only [Bool.or_eq_true, Bool.and_eq_true, decide_eq_true_eq, beq_iff_eq, List.mem_cons,
    List.not_mem_nil, or_false]
  omega

theorem splitSpace_white {w s : Str} (h : ∀ c ∈ w, White c) :
    splitSpace [] (w ++ s) = splitSpace [] s := by
  induction w with
  | nil => rfl
  | cons c w ih =>
    rw [List.cons_append]
    conv => lhs; unfold splitSpace
    rw [if_pos (isSpace_iff.mpr (h c (by simp)))]
    exact ih fun x hx => h x (List.mem_cons_of_mem _ hx)

theorem splitSpace_black {h s cur : Str} (hh : ∀ c ∈ h, ¬ White c) :
    splitSpace cur (h ++ s) = splitSpace (cur ++ h) s := by
  induction h generalizing cur with
  | nil => simp
  | cons c h ih =>
    rw [List.cons_append]
    conv => lhs; unfold splitSpace
    rw [if_neg fun hs => hh c (by simp) (isSpace_iff.mp hs),
      ih fun x hx => hh x (List.mem_cons_of_mem _ hx)]
    simp

theorem splitSpace_end {cur rest : Str} (hc : cur ≠ [])
    (hr : ∀ c, rest.head? = some c → White c) :
    splitSpace cur rest = cur :: splitSpace [] rest := by
  have he : cur.isEmpty = false := by cases cur <;> simp_all
  cases rest with
  | nil => simp [splitSpace, hc]
  | cons c rest =>
    have hs := isSpace_iff.mpr (hr c rfl)
    unfold splitSpace
    rw [if_pos hs, if_pos hs, he]
    rfl

theorem splitSpace_complete {hs : List Str} {s : Str} (h : Pieces hs s) :
    splitSpace [] s = hs := by
  induction h with
  | none hw =>
    have := splitSpace_white (s := []) hw
    rw [List.append_nil] at this
    rw [this]; rfl
  | cons hw hne hh hr _ ih =>
    rw [List.append_assoc, splitSpace_white hw, splitSpace_black hh, List.nil_append,
      splitSpace_end hne hr, ih]

theorem pieces_white {hs : List Str} {c : Char} {s : Str} (hc : White c) (h : Pieces hs s) :
    Pieces hs (c :: s) := by
  cases h with
  | none hw =>
    refine .none ?_
    intro x hx
    rcases List.mem_cons.mp hx with rfl | hx
    · exact hc
    · exact hw x hx
  | cons hw hne hh hr hp =>
    rw [← List.cons_append, ← List.cons_append]
    refine .cons ?_ hne hh hr hp
    intro x hx
    rcases List.mem_cons.mp hx with rfl | hx
    · exact hc
    · exact hw x hx

theorem splitSpace_sound {cur s : Str} (hc : ∀ c ∈ cur, ¬ White c) :
    Pieces (splitSpace cur s) (cur ++ s) := by
  induction s generalizing cur with
  | nil =>
    unfold splitSpace
    cases cur with
    | nil => exact .none (by simp)
    | cons x cur =>
      simp only [List.isEmpty_cons, Bool.false_eq_true, if_false]
      have := Pieces.cons (w := []) (rest := []) (by simp) (List.cons_ne_nil x cur) hc (by simp)
        (.none (by simp))
      simpa using this
  | cons c s ih =>
    unfold splitSpace
    split
    · next hs =>
      have hw := isSpace_iff.mp hs
      have hp := pieces_white hw (by simpa using ih (cur := []) (by simp))
      cases cur with
      | nil => exact hp
      | cons x cur =>
        simp only [List.isEmpty_cons, Bool.false_eq_true, if_false]
        have := Pieces.cons (w := []) (rest := c :: s) (by simp) (List.cons_ne_nil x cur) hc
          (by intro d hd; cases hd; exact hw) hp
        simpa using this
    · next hs =>
      have := ih (cur := cur ++ [c]) (by
        intro x hx
        rcases List.mem_append.mp hx with hx | hx
        · exact hc x hx
        · simp only [List.mem_cons, List.not_mem_nil, or_false] at hx
          subst hx
          exact fun hw => hs (isSpace_iff.mpr hw))
      simpa using this

theorem parseHash_sound {s r : Str} (h : parseHash s = some r) :
    ∃ i, s = i ++ r ∧ Integrity i := by
  unfold parseHash at h
  split at h
  · cases h
  · next i b he =>
    obtain ⟨h1, h2, -⟩ := eatUpTo_some.mp he
    dsimp only at h
    split at h
    · next hall =>
      split at h
      · cases h
      · next hne =>
        cases h
        refine ⟨i, h1, h2, splitSpace [] i, ?_, ?_, ?_⟩
        · simpa using splitSpace_sound (cur := []) (s := i) (by simp)
        · intro h'; rw [h'] at hne; exact hne rfl
        · intro x hx
          exact hashOk_iff.mp (List.all_eq_true.mp hall x hx)
    · cases h

theorem parseHash_complete {i r : Str} (h : Integrity i) :
    parseHash (i ++ '>' :: r) = some ('>' :: r) := by
  obtain ⟨h1, hs, hp, hne, hall⟩ := h
  unfold parseHash
  rw [eatUpTo_some.mpr ⟨rfl, h1, r, rfl⟩]
  dsimp only
  rw [splitSpace_complete hp, if_pos, if_neg]
  · cases hs <;> simp_all
  · exact List.all_eq_true.mpr fun x hx => hashOk_iff.mpr (hall x hx)

theorem eatOptionalHash_sound {s : Str} (h : eatOptionalHash s = some []) : OptIntegrity s := by
  unfold eatOptionalHash at h
  split at h
  · cases h; exact .inl rfl
  · next s1 hs =>
    have e := stripPrefix_some.mp hs
    obtain ⟨s2, h2, h3⟩ := bind_some_iff.mp h
    clear h
    obtain ⟨s3, h4, h5⟩ := bind_some_iff.mp h3
    clear h3
    have e2 := stripPrefix_some.mp h2
    obtain ⟨i, rfl, hi⟩ := parseHash_sound h4
    have e3 := stripPrefix_some.mp h5
    refine .inr ⟨i, hi, ?_⟩
    rw [e, e2, e3]
    simp

theorem eatOptionalHash_complete {s : Str} (h : OptIntegrity s) : eatOptionalHash s = some [] := by
  unfold eatOptionalHash
  rcases h with rfl | ⟨i, hi, rfl⟩
  · rfl
  · have : stripPrefix [','] (",integrity=<".toList ++ i ++ ['>']) =
        some ("integrity=<".toList ++ (i ++ ['>'])) := stripPrefix_some.mpr (by simp)
    rw [this]
    dsimp only
    refine bind_some_iff.mpr ⟨_, stripPrefix_append _ _, ?_⟩
    refine bind_some_iff.mpr ⟨_, parseHash_complete hi, ?_⟩
    rfl

end Verif.CompName
