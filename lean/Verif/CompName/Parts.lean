import Verif.CompName.Grammar3

/-!
# The parts of names
-/
namespace Verif.CompName

open Spec (Lower Upper Digit Label LowerLabel joined Path pathText OptText IsName Kind)

theorem resource_func {r m : Str} (h : Label r) : resource (r ++ '.' :: m) = some r := by
  unfold resource
  rw [eatUpTo_some.mpr ⟨rfl, not_in_label h _ (by decide), m, rfl⟩]
  rfl

theorem method_func {r m : Str} (h : Label r) : methodOf (r ++ '.' :: m) = some m := by
  unfold methodOf
  rw [eatUpTo_some.mpr ⟨rfl, not_in_label h _ (by decide), m, rfl⟩]
  rfl

theorem rfindSplit_last {c : Char} {a b : Str} (h : c ∉ b) :
    rfindSplit c (a ++ c :: b) = some (a, c :: b) := by
  unfold rfindSplit
  have : (a ++ c :: b).reverse = b.reverse ++ c :: a.reverse := by simp
  rw [this, eatUpTo_some.mpr ⟨rfl, by simpa using h, a.reverse, rfl⟩]
  simp

theorem rfindSplit_length {c : Char} {s x y : Str} (h : rfindSplit c s = some (x, y)) :
    s = x ++ y ∧ c ∉ y.drop 1 := by
  unfold rfindSplit at h
  cases he : eatUpTo c s.reverse with
  | none => rw [he] at h; cases h
  | some q =>
    obtain ⟨a, b⟩ := q
    rw [he] at h
    obtain ⟨h1, h2, cs, rfl⟩ := eatUpTo_some.mp he
    simp only [Option.map_some, Option.some.injEq, Prod.mk.injEq] at h
    obtain ⟨rfl, rfl⟩ := h
    constructor
    · have := congrArg List.reverse h1
      simpa using this
    · simpa using h2

theorem not_mem_joined {c x : Char} {l : List (List Char)} (h : x ≠ c) (hl : ∀ f ∈ l, x ∉ f) :
    x ∉ joined c l := by
  intro hm
  rcases mem_joined hm with h' | ⟨f, hf, hx⟩
  · exact h h'
  · exact hl f hf hx

theorem lower_not {s : Str} (h : LowerLabel s) (c : Char) (hc : ¬ KChar c) : c ∉ s :=
  not_in_label h.1 c hc

theorem joined_append (c : Char) (a b : List (List Char)) :
    joined c (a ++ b) = joined c a ++ joined c b := by
  simp [joined]

theorem not_in_text {nested : Bool} {n : List Char} {ns ps : List (List Char)}
    (h : Path nested n ns ps) (c : Char) (hc : ¬ KChar c) (h1 : c ≠ ':') (h2 : c ≠ '/') :
    c ∉ pathText n ns ps := by
  intro hm
  simp only [pathText, List.mem_append] at hm
  rcases hm with (hm | hm) | hm
  · exact lower_not h.first c hc hm
  · exact not_mem_joined h1 (fun f hf => lower_not (h.names f hf) c hc) hm
  · exact not_mem_joined h2 (fun f hf => not_in_label (h.projs f hf) c hc) hm

variable {nested : Bool} {n pkg p : List Char} {ns ps : List (List Char)} {v : Str}

/-- Where the last colon and the first slash are. -/
theorem namespace_path (h : Path nested n (ns ++ [pkg]) ps) (hv : ':' ∉ v) :
    rfindSplit ':' (pathText n (ns ++ [pkg]) ps ++ v) =
      some (n ++ joined ':' ns, ':' :: (pkg ++ joined '/' ps ++ v)) := by
  have e : pathText n (ns ++ [pkg]) ps ++ v =
      (n ++ joined ':' ns) ++ ':' :: (pkg ++ joined '/' ps ++ v) := by
    simp [pathText, joined_append, joined_cons, joined_nil]
  rw [e, rfindSplit_last]
  simp only [List.mem_append, not_or]
  exact ⟨⟨lower_not (h.names pkg (by simp)) _ (by decide),
    not_mem_joined (by decide) fun f hf => not_in_label (h.projs f hf) _ (by decide)⟩, hv⟩

theorem slash_path (h : Path nested n ns (p :: ps)) :
    eatUpTo '/' (pathText n ns (p :: ps) ++ v) =
      some (n ++ joined ':' ns, '/' :: (p ++ joined '/' ps ++ v)) := by
  apply eatUpTo_some.mpr
  refine ⟨by simp [pathText, joined_cons], ?_, _, rfl⟩
  simp only [List.mem_append, not_or]
  exact ⟨lower_not h.first _ (by decide),
    not_mem_joined (by decide) fun f hf => lower_not (h.names f hf) _ (by decide)⟩

theorem package_path (h : Path nested n (ns ++ [pkg]) (p :: ps)) (hv : ':' ∉ v) :
    packageOf (pathText n (ns ++ [pkg]) (p :: ps) ++ v) = some pkg := by
  unfold packageOf
  refine bind_some_iff.mpr ⟨_, namespace_path h hv, ?_⟩
  refine bind_some_iff.mpr ⟨_, slash_path h, ?_⟩
  dsimp only
  have e : n ++ joined ':' (ns ++ [pkg]) = (n ++ joined ':' ns ++ [':']) ++ pkg := by
    simp [joined_append, joined_cons, joined_nil]
  have hl : (n ++ joined ':' ns).length + 1 = (n ++ joined ':' ns ++ [':']).length := by simp; omega
  rw [e, hl, if_pos (by simp only [List.length_append]; omega), List.drop_left]

theorem projection_path (h : Path nested n ns (p :: ps)) (hv : OptText v) :
    projectionOf (pathText n ns (p :: ps) ++ v) = some (p ++ joined '/' ps) := by
  unfold projectionOf
  refine bind_some_iff.mpr ⟨_, slash_path h, ?_⟩
  dsimp only
  have hat : '@' ∉ pathText n ns (p :: ps) := not_in_text h _ (by decide) (by decide) (by decide)
  have e : ((eatUpTo '@' (pathText n ns (p :: ps) ++ v)).map (·.1)).getD
      (pathText n ns (p :: ps) ++ v) = pathText n ns (p :: ps) := by
    rcases hv with rfl | ⟨w, rfl, -⟩
    · rw [List.append_nil, eatUpTo_none.mpr hat]; rfl
    · rw [eatUpTo_some.mpr ⟨rfl, hat, w, rfl⟩]; rfl
  rw [e]
  have e2 : pathText n ns (p :: ps) = (n ++ joined ':' ns ++ ['/']) ++ (p ++ joined '/' ps) := by
    simp [pathText, joined_cons]
  have hl : (n ++ joined ':' ns).length + 1 = (n ++ joined ':' ns ++ ['/']).length := by simp; omega
  rw [e2, hl, if_pos (by simp only [List.length_append]; omega), List.drop_left]

theorem interface_path (h : Path nested n ns (p :: ps)) (hv : OptText v) :
    interfaceOf (pathText n ns (p :: ps) ++ v) = some p := by
  unfold interfaceOf
  refine bind_some_iff.mpr ⟨_, projection_path h hv, ?_⟩
  have hp : '/' ∉ p := not_in_label (h.projs p (by simp)) _ (by decide)
  cases ps with
  | nil =>
    rw [joined_nil, List.append_nil, eatUpTo_none.mpr hp]
    rfl
  | cons q ps =>
    rw [joined_cons, eatUpTo_some.mpr ⟨rfl, hp, _, rfl⟩]
    rfl

theorem version_path (h : Path nested n ns ps) (semver : Str → Bool) (suffix : Option Str) :
    versionOf semver (pathText n ns ps) suffix = some none := by
  unfold versionOf
  rw [eatUpTo_none.mpr (not_in_text h '@' (by decide) (by decide) (by decide))]

theorem version_path' (h : Path nested n ns ps) (semver : Str → Bool) (w : Str)
    (suffix : Option Str) :
    versionOf semver (pathText n ns ps ++ '@' :: w) suffix =
      if semver (w ++ suffix.getD []) then some (some (w ++ suffix.getD [])) else none := by
  unfold versionOf
  rw [eatUpTo_some.mpr ⟨rfl, not_in_text h '@' (by decide) (by decide) (by decide), w, rfl⟩]
  rfl

end Verif.CompName
