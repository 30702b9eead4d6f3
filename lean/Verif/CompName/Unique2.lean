import Verif.CompName.Unique

/-!
# Names without capitals
-/
namespace Verif.CompName

open Spec (Lower Upper Digit Label LowerLabel joined Path pathText OptText IsName Kind Same SameChar
  Clash Capital Usable)

variable {nested : Bool} {semver : Str → Bool}

theorem nkind_method (r m : Str) : (⟨"[method]".toList ++ r ++ '.' :: m, .method⟩ : Name).nkind =
    .method (r ++ '.' :: m) := by
  show NKind.method (("[method]".toList ++ r ++ '.' :: m).drop "[method]".toList.length) = _
  rw [List.append_assoc, List.drop_left]

theorem nkind_static (r m : Str) : (⟨"[static]".toList ++ r ++ '.' :: m, .static⟩ : Name).nkind =
    .static (r ++ '.' :: m) := by
  show NKind.static (("[static]".toList ++ r ++ '.' :: m).drop "[static]".toList.length) = _
  rw [List.append_assoc, List.drop_left]

/-- The kind of an accepted `[method]` or `[static]` name. -/
theorem func_name {p r m : Str} {x : Name} (hp : p ∈ ["[method]".toList, "[static]".toList])
    (hr : Label r) (hm : Label m) (h : newName nested semver (p ++ r ++ '.' :: m) = some x) :
    (x.nkind = .method (r ++ '.' :: m) ∧ x.kind = .method ∨
      x.nkind = .static (r ++ '.' :: m) ∧ x.kind = .static) ∧
    x.raw = p ++ r ++ '.' :: m := by
  simp only [List.mem_cons, List.not_mem_nil, or_false] at hp
  rcases hp with rfl | rfl
  · have := newName_det (k := .method) h (.method hr hm)
    subst this
    exact ⟨.inl ⟨nkind_method r m, rfl⟩, rfl⟩
  · have := newName_det (k := .static) h (.static hr hm)
    subst this
    exact ⟨.inr ⟨nkind_static r m, rfl⟩, rfl⟩

theorem lower_parts {x : Name} {p r m : Str} (hk : x.kind = .method ∨ x.kind = .static)
    (hr : x.raw = p ++ r ++ '.' :: m) (h : ¬ Capital x.kind.spec x.raw) :
    (∀ c ∈ r, ¬ Upper c) ∧ ∀ c ∈ m, ¬ Upper c := by
  have hk' : x.kind.spec = .method ∨ x.kind.spec = .static ∨ x.kind.spec = .interface := by
    rcases hk with hk | hk <;> simp [hk, PKind.spec]
  constructor
  · intro c hc hu
    exact h ⟨hk', c, by rw [hr]; simp [hc], hu⟩
  · intro c hc hu
    exact h ⟨hk', c, by rw [hr]; simp [hc], hu⟩

theorem label_name {l : Str} {x : Name} (hl : Label l) (h : newName nested semver l = some x) :
    x.nkind = .label l := by
  have := newName_det (k := .label) h (.label hl)
  subst this
  rfl

theorem eq_of_clash {a b : Str} {x y : Name} (ha : newName nested semver a = some x)
    (hb : newName nested semver b = some y) (hc : Clash nested a b)
    (hx : ¬ Capital x.kind.spec x.raw) (hy : ¬ Capital y.kind.spec y.raw) :
    Equal x.nkind y.nkind := by
  cases hc with
  | label h1 h2 hs =>
    rw [label_name h1 ha, label_name h2 hb]
    exact .label hs
  | constructor h1 h2 hs =>
    rename_i l l'
    have e1 := newName_det (k := .constructor) ha (.constructor h1)
    have e2 := newName_det (k := .constructor) hb (.constructor h2)
    subst e1 e2
    exact .constructor hs
  | func hp hq hr hm hr' hm' hs1 hs2 =>
    obtain ⟨hkx, hrx⟩ := func_name hp hr hm ha
    obtain ⟨hky, hry⟩ := func_name hq hr' hm' hb
    obtain ⟨l1, l2⟩ := lower_parts (hkx.imp (·.2) (·.2)) hrx hx
    obtain ⟨l3, l4⟩ := lower_parts (hky.imp (·.2) (·.2)) hry hy
    have e1 := same_eq hs1 l1 l3
    have e2 := same_eq hs2 l2 l4
    subst e1 e2
    rcases hkx with ⟨hkx, -⟩ | ⟨hkx, -⟩ <;> rcases hky with ⟨hky, -⟩ | ⟨hky, -⟩ <;>
      rw [hkx, hky] <;> constructor
  | double hp hl hr hm hs1 hs2 =>
    obtain ⟨hky, -⟩ := func_name hp hr hm hb
    rw [label_name hl ha]
    have hd := (isDouble_iff hl hr hm).mpr ⟨hs1, hs2⟩
    rcases hky with ⟨hky, -⟩ | ⟨hky, -⟩ <;> rw [hky]
    · exact .lm hd
    · exact .ls hd
  | double' hp hl hr hm hs1 hs2 =>
    obtain ⟨hky, -⟩ := func_name hp hr hm ha
    rw [label_name hl hb]
    have hd := (isDouble_iff hl hr hm).mpr ⟨hs1, hs2⟩
    rcases hky with ⟨hky, -⟩ | ⟨hky, -⟩ <;> rw [hky]
    · exact .ml hd
    · exact .sl hd
  | interface p1 p2 n1 n2 hv hs =>
    have e1 := newName_det (k := .interface) ha (.interface p1 n1 hv)
    have e2 := newName_det (k := .interface) hb (.interface p2 n2 hv)
    subst e1 e2
    have he := same_eq hs
      (fun c hc hu => hx ⟨.inr (.inr rfl), c, List.mem_append_left _ hc, hu⟩)
      (fun c hc hu => hy ⟨.inr (.inr rfl), c, List.mem_append_left _ hc, hu⟩)
    rw [he]
    exact .interface
  | other =>
    rw [ha] at hb
    cases hb
    exact eq_iff.mp (eq_refl _)

/-- What a method writes to a hasher. -/
theorem hash_func {r m : Str} (hr : Label r) (hm : Label m) :
    Same r m ∧ funcHash (r ++ '.' :: m) = .byte 0 :: kebabHash r ∨
      ¬ Same r m ∧ funcHash (r ++ '.' :: m) = [.byte 2, .str (r ++ '.' :: m)] := by
  by_cases h : Same r m
  · exact .inl ⟨h, funcHash_double hr hm h⟩
  · exact .inr ⟨h, funcHash_other hr hm h⟩

theorem double_of_hash {l r m : Str} (hl : Label l) (hr : Label r) (hm : Label m)
    (h : .byte 0 :: kebabHash l = funcHash (r ++ '.' :: m)) :
    isDouble l (r ++ '.' :: m) = true := by
  rcases hash_func hr hm with ⟨hs, he⟩ | ⟨-, he⟩
  · rw [he] at h
    have := (kebabHash_eq hl hr).mp (List.cons.inj h).2
    exact (isDouble_iff hl hr hm).mpr ⟨this, same_trans this hs⟩
  · rw [he] at h
    have := (List.cons.inj h).1
    simp at this

theorem func_of_hash {r m r' m' : Str} (hr : Label r) (hm : Label m) (hr' : Label r')
    (hm' : Label m') (l1 : ∀ c ∈ r, ¬ Upper c) (l2 : ∀ c ∈ m, ¬ Upper c)
    (l3 : ∀ c ∈ r', ¬ Upper c) (l4 : ∀ c ∈ m', ¬ Upper c)
    (h : funcHash (r ++ '.' :: m) = funcHash (r' ++ '.' :: m')) :
    r ++ '.' :: m = r' ++ '.' :: m' := by
  rcases hash_func hr hm with ⟨hs, he⟩ | ⟨-, he⟩ <;>
    rcases hash_func hr' hm' with ⟨hs', he'⟩ | ⟨-, he'⟩ <;> rw [he, he'] at h
  · have := same_eq ((kebabHash_eq hr hr').mp (List.cons.inj h).2) l1 l3
    rw [← same_eq hs l1 l2, ← same_eq hs' l3 l4, this]
  · have := (List.cons.inj h).1
    simp at this
  · have := (List.cons.inj h).1
    simp at this
  · simpa using h

/-- The first value that is written. -/
def Write.tag : List Write → Nat
  | .byte n :: _ => n
  | _ => 0

theorem tag_func {r m : Str} (hr : Label r) (hm : Label m) :
    Write.tag (funcHash (r ++ '.' :: m)) = 0 ∨ Write.tag (funcHash (r ++ '.' :: m)) = 2 := by
  rcases hash_func hr hm with ⟨-, he⟩ | ⟨-, he⟩
  · left; rw [he]; rfl
  · right; rw [he]; rfl

theorem eq_of_hash {x y : Name} {a b : NKind} (ha : View nested semver x a)
    (hb : View nested semver y b)
    (hx : ¬ Capital x.kind.spec x.raw) (hy : ¬ Capital y.kind.spec y.raw)
    (h : a.hash' = b.hash') : Equal a b := by
  have ht := congrArg Write.tag h
  cases ha with
  | label hl =>
    cases hb with
    | label hl' => exact .label ((kebabHash_eq hl hl').mp (List.cons.inj h).2)
    | method hr hm => exact .lm (double_of_hash hl hr hm h)
    | static hr hm => exact .ls (double_of_hash hl hr hm h)
    | _ => exact absurd ht (by simp [NKind.hash', Write.tag])
  | constructor hl =>
    cases hb with
    | constructor hl' => exact .constructor ((kebabHash_eq hl hl').mp (List.cons.inj h).2)
    | method hr hm =>
      rcases tag_func hr hm with t | t <;> exact absurd (ht.trans t) (by simp [NKind.hash', Write.tag])
    | static hr hm =>
      rcases tag_func hr hm with t | t <;> exact absurd (ht.trans t) (by simp [NKind.hash', Write.tag])
    | _ => exact absurd ht (by simp [NKind.hash', Write.tag])
  | method hr hm =>
    obtain ⟨l1, l2⟩ := lower_parts (.inl rfl) rfl hx
    have tf := tag_func hr hm
    cases hb with
    | label hl => exact .ml (double_of_hash hl hr hm h.symm)
    | method hr' hm' =>
      obtain ⟨l3, l4⟩ := lower_parts (.inl rfl) rfl hy
      rw [func_of_hash hr hm hr' hm' l1 l2 l3 l4 h]
      exact .mm
    | static hr' hm' =>
      obtain ⟨l3, l4⟩ := lower_parts (.inr rfl) rfl hy
      rw [func_of_hash hr hm hr' hm' l1 l2 l3 l4 h]
      exact .ms
    | _ =>
      rcases tf with t | t <;>
        exact absurd (ht.symm.trans t) (by simp [NKind.hash', Write.tag])
  | static hr hm =>
    obtain ⟨l1, l2⟩ := lower_parts (.inr rfl) rfl hx
    have tf := tag_func hr hm
    cases hb with
    | label hl => exact .sl (double_of_hash hl hr hm h.symm)
    | method hr' hm' =>
      obtain ⟨l3, l4⟩ := lower_parts (.inl rfl) rfl hy
      rw [func_of_hash hr hm hr' hm' l1 l2 l3 l4 h]
      exact .sm
    | static hr' hm' =>
      obtain ⟨l3, l4⟩ := lower_parts (.inr rfl) rfl hy
      rw [func_of_hash hr hm hr' hm' l1 l2 l3 l4 h]
      exact .ss
    | _ =>
      rcases tf with t | t <;>
        exact absurd (ht.symm.trans t) (by simp [NKind.hash', Write.tag])
  | interface =>
    cases hb with
    | interface =>
      simp only [NKind.hash', List.cons.injEq, Write.str.injEq] at h
      rw [h.2.1]
      exact .interface
    | method hr hm =>
      rcases tag_func hr hm with t | t <;> exact absurd (ht.trans t) (by simp [NKind.hash', Write.tag])
    | static hr hm =>
      rcases tag_func hr hm with t | t <;> exact absurd (ht.trans t) (by simp [NKind.hash', Write.tag])
    | _ => exact absurd ht (by simp [NKind.hash', Write.tag])
  | dependency =>
    cases hb with
    | dependency =>
      simp only [NKind.hash', List.cons.injEq, Write.str.injEq] at h
      rw [h.2.1]
      exact .dependency
    | method hr hm =>
      rcases tag_func hr hm with t | t <;> exact absurd (ht.trans t) (by simp [NKind.hash', Write.tag])
    | static hr hm =>
      rcases tag_func hr hm with t | t <;> exact absurd (ht.trans t) (by simp [NKind.hash', Write.tag])
    | _ => exact absurd ht (by simp [NKind.hash', Write.tag])
  | url =>
    cases hb with
    | url =>
      simp only [NKind.hash', List.cons.injEq, Write.str.injEq] at h
      rw [h.2.1]
      exact .url
    | method hr hm =>
      rcases tag_func hr hm with t | t <;> exact absurd (ht.trans t) (by simp [NKind.hash', Write.tag])
    | static hr hm =>
      rcases tag_func hr hm with t | t <;> exact absurd (ht.trans t) (by simp [NKind.hash', Write.tag])
    | _ => exact absurd ht (by simp [NKind.hash', Write.tag])
  | hash =>
    cases hb with
    | hash =>
      simp only [NKind.hash', List.cons.injEq, Write.str.injEq] at h
      rw [h.2.1]
      exact .hash
    | method hr hm =>
      rcases tag_func hr hm with t | t <;> exact absurd (ht.trans t) (by simp [NKind.hash', Write.tag])
    | static hr hm =>
      rcases tag_func hr hm with t | t <;> exact absurd (ht.trans t) (by simp [NKind.hash', Write.tag])
    | _ => exact absurd ht (by simp [NKind.hash', Write.tag])

/-! ## Sequences of names -/

/-- What a call of `validate_extern` establishes. -/
theorem validateExtern_some {isExport : Bool} {fits : Name → Bool} {seen seen' : List Name}
    {s : Str} (h : validateExtern nested semver isExport fits seen s = some seen') :
    ∃ n, newName nested semver s = some n ∧ seen' = seen ++ [n] ∧ fits n = true ∧
      (∀ p ∈ seen, p.eq n = false) ∧
      (isExport = true → n.kind ≠ .hash ∧ n.kind ≠ .url ∧ n.kind ≠ .dependency) ∧
      (n.kind = .interface → ∃ v, versionOf semver s none = some v) := by
  unfold validateExtern at h
  obtain ⟨n, hn, h1⟩ := bind_some_iff.mp h
  clear h
  split at h1
  · cases h1
  · next he =>
    split at h1
    · cases h1
    · next hi =>
      split at h1
      · cases h1
      · next hf =>
        split at h1
        · cases h1
        · next hs =>
          split at h1
          · cases h1
          · cases h1
            refine ⟨n, hn, rfl, by simpa using hf, ?_, ?_, ?_⟩
            · intro p hp
              have := fun h => hs (List.any_eq_true.mpr ⟨p, hp, h⟩)
              simpa using this
            · intro hE
              rw [hE] at he
              refine ⟨fun h' => he ?_, fun h' => he ?_, fun h' => he ?_⟩ <;> rw [h'] <;> rfl
            · intro hI
              rw [hI] at hi
              cases hv : versionOf semver s none with
              | none => exact absurd (by rw [hv]; rfl) hi
              | some v => exact ⟨v, rfl⟩

theorem pairwise_snoc {α : Type} {R : α → α → Prop} {l : List α} {a : α}
    (h : l.Pairwise R) (ha : ∀ x ∈ l, R x a) : (l ++ [a]).Pairwise R := by
  rw [List.pairwise_append]
  refine ⟨h, by simp, ?_⟩
  intro x hx y hy
  simp only [List.mem_cons, List.not_mem_nil, or_false] at hy
  subst hy
  exact ha x hx

theorem validateExterns_some {isExport : Bool} {fits : Name → Bool} {names : List Str}
    {seen seen' : List Name}
    (hs : seen.Pairwise fun a b => a.eq b = false)
    (hn : ∀ n ∈ seen, newName nested semver n.raw = some n)
    (h : validateExterns nested semver isExport fits seen names = some seen') :
    (seen'.Pairwise fun a b => a.eq b = false) ∧
      (∀ n ∈ seen', newName nested semver n.raw = some n) ∧
      seen'.map (·.raw) = seen.map (·.raw) ++ names := by
  induction names generalizing seen with
  | nil => cases h; exact ⟨hs, hn, by simp⟩
  | cons s names ih =>
    unfold validateExterns at h
    split at h
    · cases h
    · next seen1 h1 =>
      obtain ⟨n, hnew, rfl, -, hne, -⟩ := validateExtern_some h1
      have hraw : n.raw = s := (newName_iff.mp hnew).1
      have := ih (pairwise_snoc hs hne) (by
        intro x hx
        rcases List.mem_append.mp hx with hx | hx
        · exact hn x hx
        · simp only [List.mem_cons, List.not_mem_nil, or_false] at hx
          subst hx
          rw [hraw]; exact hnew) h
      refine ⟨this.1, this.2.1, ?_⟩
      rw [this.2.2]
      simp [hraw]

theorem version_ok {s : Str} : (∃ v, versionOf semver s none = some v) ↔
    ∀ a v, s = a ++ '@' :: v → '@' ∉ a → semver v = true := by
  unfold versionOf
  constructor
  · rintro ⟨v, h⟩ a w rfl ha
    rw [eatUpTo_some.mpr ⟨rfl, ha, w, rfl⟩] at h
    simp only [List.drop_succ_cons, List.drop_zero, Option.getD_none, List.append_nil] at h
    split at h
    · assumption
    · cases h
  · intro h
    cases he : eatUpTo '@' s with
    | none => exact ⟨_, rfl⟩
    | some q =>
      obtain ⟨a, r⟩ := q
      obtain ⟨h1, h2, cs, rfl⟩ := eatUpTo_some.mp he
      have := h a cs h1 h2
      refine ⟨some cs, ?_⟩
      simp [this]

theorem spec_hash {k : PKind} : k.spec = .hash ↔ k = .hash := by cases k <;> simp [PKind.spec]
theorem spec_url {k : PKind} : k.spec = .url ↔ k = .url := by cases k <;> simp [PKind.spec]
theorem spec_dependency {k : PKind} : k.spec = .dependency ↔ k = .dependency := by
  cases k <;> simp [PKind.spec]
theorem spec_interface {k : PKind} : k.spec = .interface ↔ k = .interface := by
  cases k <;> simp [PKind.spec]

theorem usable_iff {isExport : Bool} {s : Str} {n : Name}
    (h : newName nested semver s = some n) :
    Usable nested semver isExport n.kind.spec s ↔
      (isExport = true → n.kind ≠ .hash ∧ n.kind ≠ .url ∧ n.kind ≠ .dependency) ∧
      (n.kind = .interface → ∃ v, versionOf semver s none = some v) := by
  unfold Usable
  rw [version_ok, Ne, Ne, Ne, spec_hash, spec_url, spec_dependency, spec_interface]
  constructor
  · rintro ⟨-, h1, h2⟩
    exact ⟨fun e => ⟨(h1 e).2.2, (h1 e).2.1, (h1 e).1⟩, h2⟩
  · rintro ⟨h1, h2⟩
    exact ⟨(newName_iff.mp h).2, fun e => ⟨(h1 e).2.2, (h1 e).2.1, (h1 e).1⟩, h2⟩

theorem validateExtern_iff {isExport : Bool} {fits : Name → Bool} {seen : List Name} {n : Name}
    (hn : newName nested semver n.raw = some n)
    (hu : Usable nested semver isExport n.kind.spec n.raw) (hf : fits n = true)
    (hs : ∀ p ∈ seen, p.eq n = false)
    (hp : ∀ p ∈ seen, newName nested semver p.raw = some p) :
    validateExtern nested semver isExport fits seen n.raw = some (seen ++ [n]) := by
  obtain ⟨h1, h2⟩ := (usable_iff hn).mp hu
  unfold validateExtern
  refine bind_some_iff.mpr ⟨n, hn, ?_⟩
  rw [if_neg, if_neg, if_neg, if_neg, if_neg]
  · intro h
    obtain ⟨p, hm, he⟩ := List.any_eq_true.mp h
    have e : p.raw = n.raw := by simpa using he
    have := hp p hm
    rw [e, hn] at this
    cases this
    have := hs n hm
    rw [show n.eq n = true from eq_refl _] at this
    cases this
  · intro h
    obtain ⟨p, hm, he⟩ := List.any_eq_true.mp h
    rw [hs p hm] at he
    cases he
  · simp [hf]
  · intro h
    simp only [Bool.and_eq_true, beq_iff_eq] at h
    obtain ⟨v, hv⟩ := h2 h.1
    rw [hv] at h
    exact absurd h.2 (by simp)
  · intro h
    simp only [Bool.and_eq_true, Bool.or_eq_true, beq_iff_eq] at h
    obtain ⟨a, b, c⟩ := h1 h.1
    rcases h.2 with (h' | h') | h'
    · exact a h'
    · exact b h'
    · exact c h'

theorem validateExterns_of {isExport : Bool} {fits : Name → Bool} {seen ks : List Name}
    (hn : ∀ n ∈ ks, newName nested semver n.raw = some n ∧
      Usable nested semver isExport n.kind.spec n.raw ∧ fits n = true)
    (hp : ∀ p ∈ seen, newName nested semver p.raw = some p)
    (hd : (seen ++ ks).Pairwise fun a b => a.eq b = false) :
    validateExterns nested semver isExport fits seen (ks.map (·.raw)) = some (seen ++ ks) := by
  induction ks generalizing seen with
  | nil => simp [validateExterns]
  | cons n ks ih =>
    obtain ⟨a, b, c⟩ := hn n (by simp)
    have hs : ∀ p ∈ seen, p.eq n = false := fun p hp' =>
      (List.pairwise_append.mp hd).2.2 p hp' n (by simp)
    rw [List.map_cons, validateExterns, validateExtern_iff a b c hs hp]
    dsimp only
    rw [ih (fun m hm => hn m (by simp [hm])) _ (by simpa using hd)]
    · simp
    · intro p hm
      rcases List.mem_append.mp hm with hm | hm
      · exact hp p hm
      · simp only [List.mem_cons, List.not_mem_nil, or_false] at hm
        subst hm
        exact a

/-- Every name of an accepted sequence may be used. -/
theorem validateExterns_usable {isExport : Bool} {fits : Name → Bool} {names : List Str}
    {seen seen' : List Name}
    (h : validateExterns nested semver isExport fits seen names = some seen') :
    ∀ s ∈ names, ∃ n, newName nested semver s = some n ∧
      Usable nested semver isExport n.kind.spec s ∧ fits n = true := by
  induction names generalizing seen with
  | nil => intro s hs; cases hs
  | cons s names ih =>
    unfold validateExterns at h
    split at h
    · cases h
    · next seen1 h1 =>
      obtain ⟨n, hnew, -, hf, -, h2, h3⟩ := validateExtern_some h1
      intro t ht
      rcases List.mem_cons.mp ht with rfl | ht
      · exact ⟨n, hnew, (usable_iff hnew).mpr ⟨h2, h3⟩, hf⟩
      · exact ih h t ht

/-- The names of accepted strings. -/
theorem names_of {names : List Str}
    (h : ∀ s ∈ names, ∃ n, newName nested semver s = some n) :
    ∃ ks : List Name, ks.map (·.raw) = names ∧
      ∀ n ∈ ks, newName nested semver n.raw = some n := by
  induction names with
  | nil => exact ⟨[], rfl, by simp⟩
  | cons s names ih =>
    obtain ⟨ks, h1, h2⟩ := ih fun t ht => h t (by simp [ht])
    obtain ⟨n, hn⟩ := h s (by simp)
    have e := (newName_iff.mp hn).1
    refine ⟨n :: ks, by simp [h1, e], ?_⟩
    intro m hm
    rcases List.mem_cons.mp hm with rfl | hm
    · rw [e]; exact hn
    · exact h2 m hm

end Verif.CompName
