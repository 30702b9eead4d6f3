import Verif.Expand.Header

/-!
# C71: every type use ends up with a type of its signature
-/

namespace Verif.Expand

/-- **C71 (expansion).**  For every module: every type use that names a type is
left alone, every other one names the first `type` field of the result with its
signature; short block types state their signature instead; the definitions
appended at the end are exactly the signatures that are needed and not yet
defined, each once and in the order of first use; nothing else changes. -/
theorem expand_expanded (next : Nat) (fields : List Field) : Expanded fields (expand next fields) := by
  obtain ⟨gs, mid, news, m, h1, -, -, h2, h3, h4, h5, -⟩ := expand_all next fields
  exact ⟨mid, news, h1, forall₂_hdr h2 h3, h4, h5⟩

/-- `(type $t (func (param i32))) (func (param i32) block (result i32 i32) end)
(import … (func))` -/
private def demo : List Field :=
  [.import [⟨none, .func false ⟨none, none⟩⟩],
   .type ⟨none, .func ⟨[(none, .num 0)], []⟩, false, none, none, none, none⟩,
   .func none ⟨none, some ⟨[(some ⟨"p", 0⟩, .num 0)], []⟩⟩
     (some ([], [.block 0 none ⟨none, some ⟨[], [.num 0, .num 0]⟩⟩, .end_ none,
       .block 0 none ⟨none, none⟩, .end_ none]))]

example : expand 0 demo =
    [.import [⟨none, .func false ⟨some (.id ⟨"gensym", 2⟩), none⟩⟩],
     .type ⟨some ⟨"gensym", 1⟩, .func ⟨[(none, .num 0)], []⟩, false, none, none, none, none⟩,
     .func none ⟨some (.id ⟨"gensym", 1⟩), some ⟨[(some ⟨"p", 0⟩, .num 0)], []⟩⟩
       (some ([], [.block 0 none ⟨some (.id ⟨"gensym", 3⟩), some ⟨[], [.num 0, .num 0]⟩⟩, .end_ none,
         .block 0 none ⟨none, some ⟨[], []⟩⟩, .end_ none])),
     .type ⟨some ⟨"gensym", 2⟩, .func ⟨[], []⟩, false, none, none, none, none⟩,
     .type ⟨some ⟨"gensym", 3⟩, .func ⟨[], [.num 0, .num 0]⟩, false, none, none, none, none⟩] := by
  decide

/-- **C71 (no clashes).**  When no two types of the module share an identifier
and the counter is past the generated ones, no two types of the result share
an identifier: generated identifiers clash neither with each other nor with
those of the source. -/
theorem expand_ids_nodup (next : Nat) (fields : List Field) (h : (typeIds fields).Nodup)
    (hg : ∀ x ∈ typeIds fields, x.gen ≤ next) : (typeIds (expand next fields)).Nodup := by
  obtain ⟨gs, mid, news, m, h1, hgs, hm, h2, h3, h4, -, h5⟩ := expand_all next fields
  obtain ⟨i1, i2, i3⟩ := header_ids fields (hinv_start next) h hg
  rw [← hgs] at i1 i3
  rw [← hm] at i2 i3
  have hi : typeIds (expand next fields) = typeIds gs ++ news.filterMap TypeDef.id := by
    unfold typeIds
    rw [h1, typeSpace_append, typeSpace_types, (kept_spaces h3).2, List.filterMap_append]
  have hn : news.filterMap TypeDef.id = (List.range' (m + 1) news.length).map fun g => ⟨"gensym", g⟩ := by
    have : (news.map TypeDef.id).filterMap (fun x => x) = (fresh m news.length).filterMap (fun x => x) := by rw [h5]
    simpa [fresh, List.filterMap_map, Function.comp_def] using this
  rw [hi, hn]
  refine List.nodup_append.2 ⟨i1, ?_, ?_⟩
  · exact List.Pairwise.map _ (fun a b hab => by simpa using hab) (List.nodup_range' (step := 1))
  · intro a ha b hb hab
    subst hab
    obtain ⟨g, hg1, rfl⟩ := List.mem_map.1 hb
    have hg2 : m + 1 ≤ g := by
      have := List.mem_range'.1 hg1
      omega
    rcases i3 _ ha with q | ⟨-, q⟩
    · have hq := hg _ q
      simp at hq i2
      omega
    · simp at q; omega

example : (typeIds demo).Nodup ∧ ∀ x ∈ typeIds demo, x.gen ≤ 0 := by decide

/-- Two definitions that differ at most in that the second was given an
identifier. -/
def SameDef (t t' : TypeDef) : Prop := t' = { t with id := t'.id } ∧ (t.id ≠ none → t'.id = t.id)

/-- **C71 (numbering).**  The definitions of the module keep their indices:
whatever is appended comes after all of them, recursion groups included. -/
theorem expand_keeps_numbering (next : Nat) (fields : List Field) :
    ∃ ts news, typeSpace (expand next fields) = ts ++ news ∧
      List.Forall₂ SameDef (typeSpace fields) ts := by
  obtain ⟨mid, news, h1, h2, -⟩ := expand_expanded next fields
  refine ⟨typeSpace mid, news, ?_, ?_⟩
  · rw [h1, typeSpace_append, typeSpace_types]
  · generalize plains (expand next fields) = ds at h2
    clear h1
    induction h2 with
    | nil => exact .nil
    | cons h1 _ ih =>
      cases h1 with
      | type t x hx =>
        refine .cons ⟨rfl, fun hn => ?_⟩ ih
        cases ht : t.id with
        | none => exact absurd ht hn
        | some y => simp [hx y ht]
      | recGroup ts =>
        simp only [typeSpace]
        induction ts with
        | nil => exact ih
        | cons t ts ih2 => exact .cons ⟨rfl, fun _ => rfl⟩ ih2
      | _ => simpa only [typeSpace] using ih

example : ∃ ts news, typeSpace (expand 0 demo) = ts ++ news ∧ ts.length = 1 ∧ news.length = 2 :=
  ⟨(typeSpace (expand 0 demo)).take 1, (typeSpace (expand 0 demo)).drop 1, by decide, by decide, by decide⟩

/-- **C71 (meaning).**  The identifier a type use was given belongs to exactly
one position of the type index space of the result, and the definition there
is a function type with the signature of the use. -/
theorem expand_use_position (next : Nat) (fields : List Field) (h : (typeIds fields).Nodup)
    (hg : ∀ x ∈ typeIds fields, x.gen ≤ next) (k : Key) (x : Id)
    (hu : First (plains (expand next fields)) k x) :
    ∃ (n : Nat) (d : TypeDef), (typeSpace (expand next fields))[n]? = some d ∧ d.id = some x ∧ d.sig = some k ∧
      ∀ (m : Nat) (e : TypeDef), (typeSpace (expand next fields))[m]? = some e → e.id = some x → m = n := by
  have hnd := expand_ids_nodup next fields h hg
  unfold typeIds at hnd
  obtain ⟨l, d, r, h1, h2, h3, -⟩ := hu
  have hd : d ∈ typeSpace (expand next fields) := by
    have : d ∈ plains (expand next fields) := by rw [h1]; simp
    clear hnd h1
    generalize expand next fields = fs at *
    induction fs with
    | nil => exact this
    | cons f fs ih =>
      cases f with
      | type t =>
        rcases List.mem_cons.1 this with q | q
        · subst q; simp [typeSpace]
        · simp [typeSpace, ih q]
      | recGroup ts => simp [typeSpace, ih this]
      | _ => simpa only [typeSpace] using ih this
  obtain ⟨n, hn⟩ := List.mem_iff_getElem?.1 hd
  refine ⟨n, d, hn, h2, h3, ?_⟩
  generalize typeSpace (expand next fields) = ts at *
  intro m e hm he
  clear hd h1
  induction ts generalizing n m with
  | nil => simp at hn
  | cons t ts ih =>
    have hmem : ∀ {j : Nat} {c : TypeDef}, ts[j]? = some c → c.id = some x → x ∈ ts.filterMap TypeDef.id :=
      fun hj hc => List.mem_filterMap.2 ⟨_, List.mem_of_getElem? hj, hc⟩
    have tail : (ts.filterMap TypeDef.id).Nodup := by
      rw [List.filterMap_cons] at hnd
      split at hnd
      · exact hnd
      · exact (List.nodup_cons.1 hnd).2
    have head : t.id = some x → x ∉ ts.filterMap TypeDef.id := by
      intro ht
      rw [List.filterMap_cons, ht] at hnd
      exact (List.nodup_cons.1 hnd).1
    cases n with
    | zero =>
      cases m with
      | zero => rfl
      | succ m =>
        simp at hn hm
        subst hn
        exact absurd (hmem hm he) (head h2)
    | succ n =>
      cases m with
      | zero =>
        simp at hn hm
        subst hm
        exact absurd (hmem hn h2) (head he)
      | succ m =>
        simp at hn hm
        have h5 : m = n := by apply ih <;> assumption
        rw [h5]

example : First (plains (expand 0 demo)) ([], [.num 0, .num 0]) ⟨"gensym", 3⟩ :=
  ⟨(plains (expand 0 demo)).take 2, _, [], rfl, rfl, rfl, by decide⟩

/-- **C71 (no needless types).**  When every signature a module needs is defined
by a `type` field, nothing is appended. -/
theorem expand_appends_nothing (next : Nat) (fields : List Field)
    (h : ∀ k ∈ fields.flatMap Field.needs, some k ∈ (plains fields).map TypeDef.sig) :
    (expand next fields).length = fields.length := by
  obtain ⟨mid, news, h1, h2, -, h3⟩ := expand_expanded next fields
  have hun : ∀ (seen ks : List Key), (∀ k ∈ ks, k ∈ seen) → unseen seen ks = [] := by
    intro seen ks
    induction ks with
    | nil => intro _; rfl
    | cons k ks ih =>
      intro hk
      rw [unseen, if_pos (hk k (by simp))]
      exact ih fun k' h' => hk k' (by simp [h'])
  rw [hun _ _ fun k hk => by
    obtain ⟨d, hd1, hd2⟩ := List.mem_map.1 (h k hk)
    exact List.mem_filterMap.2 ⟨d, hd1, hd2⟩] at h3
  have : news = [] := by simpa using h3
  rw [h1, this]
  simpa using h2.length_eq.symm

example : ∀ k ∈ ([.type ⟨none, .func ⟨[], []⟩, false, none, none, none, none⟩, .func none ⟨none, none⟩ none] : List Field).flatMap Field.needs,
    some k ∈ (plains [.type ⟨none, .func ⟨[], []⟩, false, none, none, none, none⟩, .func none ⟨none, none⟩ none]).map TypeDef.sig := by
  decide

/-- The text format gives a type use without an index the first *final* function
type without supertypes and other attributes.  That is what happens when the
module has no other kind of function type. -/
theorem expand_simple_partial (next : Nat) (fields : List Field)
    (hs : ∀ t ∈ plains fields, t.sig ≠ none → t.Simple) (k : Key) (x : Id)
    (hu : First (plains (expand next fields)) k x) :
    ∃ d ∈ plains (expand next fields), d.id = some x ∧ d.sig = some k ∧ d.Simple := by
  obtain ⟨mid, news, h1, h2, h3, -⟩ := expand_expanded next fields
  obtain ⟨l, d, r, e1, e2, e3, -⟩ := hu
  have hd : d ∈ plains (expand next fields) := by rw [e1]; simp
  refine ⟨d, hd, e2, e3, ?_⟩
  rw [h1, plains_append, plains_types] at hd
  rcases List.mem_append.1 hd with hd' | hd'
  · clear hd
    rename' hd' => hd
    generalize plains (expand next fields) = ds at h2
    clear h1 e1
    induction h2 with
    | nil => simp [plains] at hd
    | cons a _ ih =>
      cases a with
      | type t y hy =>
        rcases List.mem_cons.1 hd with q | q
        · have := hs t (by simp [plains]) (by rw [q] at e3; intro hn; simp [TypeDef.sig] at e3 hn; split at hn <;> simp_all)
          rw [q]; exact this
        · exact ih (fun t' ht' => hs t' (by simp [plains, ht'])) q
      | _ => exact ih (by simpa only [plains] using hs) (by simpa only [plains] using hd)
  · exact h3 d hd'

example : ∀ t ∈ plains demo, t.sig ≠ none → t.Simple := by
  intro t ht _
  simp [demo, plains] at ht
  subst ht
  simp [TypeDef.Simple]

/-- `(type (sub (func))) (func)` -/
private def openDemo : List Field :=
  [.type ⟨none, .func ⟨[], []⟩, false, none, none, none, some false⟩, .func none ⟨none, none⟩ none]

/-- **C71 (finding).**  In general it is not so: in `(type (sub (func))) (func)`
the function is given the open type, although the abbreviation asks for a
final one and a definition of it should have been appended. -/
theorem expand_simple_fails :
    ¬ ∀ (next : Nat) (fields : List Field) (k : Key) (x : Id), First (plains (expand next fields)) k x →
      ∃ d ∈ plains (expand next fields), d.id = some x ∧ d.sig = some k ∧ d.Simple := by
  intro h
  obtain ⟨d, h1, -, -, h2⟩ := h 0 openDemo ([], []) ⟨"gensym", 1⟩
    ⟨[], ⟨some ⟨"gensym", 1⟩, .func ⟨[], []⟩, false, none, none, none, some false⟩, [], by decide, rfl, rfl, by simp⟩
  have : plains (expand 0 openDemo) = [⟨some ⟨"gensym", 1⟩, .func ⟨[], []⟩, false, none, none, none, some false⟩] := by decide
  rw [this] at h1
  simp at h1
  subst h1
  exact h2.2.2.2.2 rfl

/-- `(type $t (func)) (type (func (param (ref $t)))) (func (param (ref 0)))` -/
private def aliasDemo : List Field :=
  [.type ⟨some ⟨"t", 0⟩, .func ⟨[], []⟩, false, none, none, none, none⟩,
   .type ⟨none, .func ⟨[(none, .ref false (.concrete (.id ⟨"t", 0⟩)))], []⟩, false, none, none, none, none⟩,
   .func none ⟨none, some ⟨[(none, .ref false (.concrete (.num 0)))], []⟩⟩ none]

/-- **C71 (finding).**  Signatures are compared before identifiers are resolved:
a signature that writes `(ref 0)` does not find the definition that writes
`(ref $t)` for the same type, and a duplicate is appended. -/
theorem expand_compares_unresolved : (expand 0 aliasDemo).length = 4 := by decide

end Verif.Expand
