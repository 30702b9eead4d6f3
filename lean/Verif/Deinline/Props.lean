import Verif.Deinline.Names
import Verif.Resolve.NumProps
import Verif.Resolve.PanicProps

/-!
# C76: inline imports, exports, data and elements
-/

namespace Verif.Deinline

open Verif.Expand Verif.Resolve

/-- **C76 (what is inline).**  The pass gives exactly the fields the module is
short for: for each item its exports, then the segment of its contents, then the
item, all by the identifier of the item; and an identifier is generated for just
the items that are referred to in this way and have none. -/
theorem run_iff (fields : List Src) (n : Nat) (os : List Out) :
    Deinlined n fields os ↔ os = (run fields n).1 := by
  constructor
  · intro h; exact deinlined_unique' h (deinlined_run fields n)
  · rintro rfl; exact deinlined_run fields n

/-- `(memory (export "m") (data "…")) (func $f (export "a") (export "b") (import …)) (tag)` -/
private def demo : List Src :=
  [.memory none ["m"] (.inline false 65537 none), .func (some ⟨"f", 0⟩) ["a", "b"] ⟨none, none⟩ (.import false),
   .tag none [] ⟨none, none⟩ false]

example : run demo 0 =
  ([⟨.export .memory (.id ⟨"gensym", 1⟩), "m", none⟩,
    ⟨.data none (some (.id ⟨"gensym", 1⟩, [.plain 0x41 []])), "", none⟩,
    ⟨.memory (some ⟨"gensym", 1⟩), "", some (2, some 2)⟩,
    ⟨.export .func (.id ⟨"f", 0⟩), "a", none⟩, ⟨.export .func (.id ⟨"f", 0⟩), "b", none⟩,
    ⟨.import [⟨some ⟨"f", 0⟩, .func false ⟨none, none⟩⟩], "", none⟩,
    ⟨.tag none ⟨none, none⟩, "", none⟩], 1) := by decide

/-- **C76 (generated identifiers).**  If the identifiers of the source are not
generated ones and none is declared twice, the same holds after the pass: items
that get a name get one of their own. -/
theorem run_uniq (fields : List Src) (n : Nat) (s : Space) (hs : IsItem s)
    (hg : ∀ f ∈ fields, ∀ x, some x ∈ f.names s → x.gen = 0) (hu : Uniq (fields.flatMap (Src.names s))) :
    Uniq (space s (((run fields n).1.map (·.field)).flatMap decls)) :=
  (deinlined_fresh hs (deinlined_run fields n) hg hu).1

example : Uniq (demo.flatMap (Src.names .func)) := by
  intro n m x hn hm
  have : demo.flatMap (Src.names .func) = [some ⟨"f", 0⟩] := by decide
  rw [this] at hn hm
  match n, m with
  | 0, 0 => rfl
  | n + 1, _ => simp at hn
  | 0, m + 1 => simp at hm

/-- **C76 (numbering).**  The pass adds and removes no items: each space has as
many as the source declares, in particular before each field. -/
theorem run_numbering (fields : List Src) (n : Nat) (s : Space) (hs : IsItem s) :
    (space s (((run fields n).1.map (·.field)).flatMap decls)).length = (fields.flatMap (Src.names s)).length :=
  deinlined_length hs (deinlined_run fields n)

/-- **C76 (exports).**  After resolution of the whole module each inline export
exports the item it is written with: the number is that of the items of the space
before it. -/
theorem inline_export_index (fields : List Src) (out : List Field) (h : resolveSource fields = .ok out)
    (l r : List Src) (f : Src) (hf : fields = l ++ f :: r) (s : Space) (hs : f.space = some s)
    (e : String) (he : e ∈ f.exports) :
    ∃ j : Nat, ((run fields 0).1[j]?).map (·.name) = some e ∧
      out[j]? = some (.export s (.num (l.flatMap (Src.names s)).length)) := by
  subst hf
  have hitem : IsItem s := by
    cases f <;> simp [Src.space] at hs <;> subst hs <;> simp [IsItem]
  have hd := deinlined_run (l ++ f :: r) 0
  generalize ho : (run (l ++ f :: r) 0).1 = os at hd
  obtain ⟨os1, b, os2, m, rfl, h1, h2⟩ := deinlined_split hd
  have hused : f.used = true := by
    have hne : f.exports.isEmpty = false := by
      cases hx : f.exports with
      | nil => rw [hx] at he; simp at he
      | cons => rfl
    unfold Src.used
    split
    · rfl
    · rfl
    · simp [hne]
  cases h2 with
  | unused o hu _ => rw [hused] at hu; cases hu
  | used s' x o _ hs' hx hc =>
    rw [hs] at hs'
    cases hs'
    -- the item and the export before expansion
    obtain ⟨i, hi⟩ := List.mem_iff_getElem?.1 he
    have hil : i < f.exports.length := (List.getElem?_eq_some_iff.1 hi).1
    have hj : (os1 ++ (f.exports.map (fun e => ({ field := .export s (.id x), name := e } : Out)) ++ f.segment x ++ [o]) ++ os2)[os1.length + i]? =
        some { field := .export s (.id x), name := e } := by
      simp only [List.append_assoc]
      rw [List.getElem?_append_right (by omega), Nat.add_sub_cancel_left,
        List.getElem?_append_left (by simpa using hil), List.getElem?_map, hi]
      rfl
    have hpos : (space s (outDecls (os1 ++ (f.exports.map (fun e => ({ field := .export s (.id x), name := e } : Out)) ++ f.segment x ++ [o]) ++ os2)))[(l.flatMap (Src.names s)).length]? =
        some (some x) := by
      have h3 : space s (outDecls [o]) = [some x] := by
        have h2 : space s (outDecls [o]) = space s (decls o.field) := by simp [outDecls]
        rw [h2, core_space hitem hc]
        cases f <;> simp_all [Src.space]
      simp only [outDecls_append, space_append, exports_decls, segment_space hitem, h3]
      rw [← deinlined_length hitem h1]
      simp [space]
    refine ⟨os1.length + i, by rw [hj]; rfl, ?_⟩
    -- expansion and resolution
    simp only [resolveSource] at h
    rw [ho] at h
    generalize hos : os1 ++ (f.exports.map (fun e => ({ field := .export s (.id x), name := e } : Out)) ++ f.segment x ++ [o]) ++ os2 = os at *
    obtain ⟨-, mid, ⟨ms, news, h4, h5, -⟩, -, hu, h6⟩ := (resolveModule_iff _ _ _).1 h
    have hsp : s ≠ .type := by rcases hitem with rfl | rfl | rfl | rfl | rfl <;> simp
    have hspace : space s (mid.flatMap decls) = space s (outDecls os) := by
      rw [h4, List.flatMap_append, space_append]
      have hn : space s ((news.map Field.type).flatMap decls) = [] := by
        clear h4 h5
        induction news with
        | nil => rfl
        | cons t ts ih =>
          rw [List.map_cons, List.flatMap_cons, space_append, ih]
          simp [decls, space, Decl.nameIn, hsp]
      rw [hn, List.append_nil]
      unfold outDecls
      generalize os.map (·.field) = gs at h5
      clear h4 hn
      generalize plains mid = ts at h5
      induction h5 with
      | nil => rfl
      | cons h1 _ ih =>
        rw [List.flatMap_cons, List.flatMap_cons, space_append, space_append, ih]
        congr 1
        cases h1 with
        | type t y _ => simp [decls, space, Decl.nameIn, hsp]
        | «import» ss ss' h => simp only [decls]; rw [sigs_same h]
        | _ => rfl
    have hj1 : (os.map (·.field))[os1.length + i]? = some (.export s (.id x)) := by
      rw [List.getElem?_map, hj]; rfl
    have key : ∀ {R : Field → Field → Prop} {as bs : List Field}, List.Forall₂ R as bs → ∀ {j : Nat} {a : Field},
        as[j]? = some a → ∃ b, bs[j]? = some b ∧ R a b := by
      intro R as bs h
      induction h with
      | nil => intro j a h; simp at h
      | cons h1 _ ih =>
        intro j a h
        cases j with
        | zero => obtain rfl : _ = a := by simpa using h
                  exact ⟨_, rfl, h1⟩
        | succ j => simpa using ih (by simpa using h)
    obtain ⟨b, hb, hR⟩ := key h5 hj1
    cases hR with
    | «export» _ _ =>
      have hb' : mid[os1.length + i]? = some (.export s (.id x)) := by
        rw [h4, List.getElem?_append_left (List.getElem?_eq_some_iff.1 hb).1, hb]
      obtain ⟨c, hc', hR⟩ := key h6 hb'
      cases hR with
      | «export» _ _ i' hI =>
        cases hI with
        | mk k hD =>
          have := denotes_unique _ (hu.1 s) _ _ _ hD (.id x _ (by rw [hspace]; exact hpos))
          rw [hc', this]

/-- `(import … (func)) (func (export "e")) (func)`: function 1 is exported -/
private def exportDemo : List Src :=
  [.func none [] ⟨none, none⟩ (.import false), .func none ["e"] ⟨none, none⟩ (.inline ([], [])),
   .func none [] ⟨none, none⟩ (.inline ([], []))]

example : ∃ out, resolveSource exportDemo = .ok out ∧ out[1]? = some (.export .func (.num 1)) := ⟨_, rfl, by decide⟩

/-- **C75 for source modules.**  Resolution does not panic on any module without
generated identifiers, such as all that are parsed. -/
theorem resolve_source_no_panic (fields : List Src) (h : ∀ f ∈ fields, f.written) :
    resolveSource fields ≠ .error .panic := by
  apply resolve_no_panic
  intro g hg
  obtain ⟨o, ho, rfl⟩ := List.mem_map.1 hg
  exact deinlined_known (deinlined_run fields 0) h (fun _ _ hx => hx) o ho

example : ∀ f ∈ exportDemo, f.written := by
  intro f hf
  simp only [exportDemo, List.mem_cons, List.not_mem_nil, or_false] at hf
  rcases hf with rfl | rfl | rfl
  · exact ⟨by simp, by simp, by simp⟩
  · exact ⟨⟨by simp, by simp, by simp⟩, by simp, by intro i hi; simp at hi⟩
  · exact ⟨⟨by simp, by simp, by simp⟩, by simp, by intro i hi; simp at hi⟩

end Verif.Deinline
