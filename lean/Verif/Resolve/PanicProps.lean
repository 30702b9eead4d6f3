import Verif.Resolve.NoPanic
import Verif.Resolve.KnownExpand
import Verif.Resolve.Props

/-!
# C75: resolution does not panic
-/

namespace Verif.Resolve

open Verif.Expand

/-- **C75.**  Resolution does not panic on a module in which every generated
identifier that is referred to is declared: expansion gives every type use an
index, and the identifiers it generates are declared. -/
theorem resolve_no_panic (next : Nat) (fields : List Field) (h : AllKnown fields) :
    resolveModule next fields ≠ .error .panic := by
  refine np_bind (np_imports fields false) fun _ => ?_
  have hk := known_expanded h (expand_expanded next fields)
  have hn := np_register (expand next fields)
  unfold process
  cases hr : forM register (expand next fields) .empty with
  | error e => rw [hr] at hn; simpa [NP, bind, Except.bind] using hn
  | ok r => exact np_each fun f hf => np_modField ((registered _).1 r hr) (hk f hf)

/-- **C75 (inline types).**  Nor does the comparison of inline types with the type
beside them, in which `tryVal` ignores errors but would not survive a panic. -/
theorem resolve_no_panic_compare (next : Nat) (fields : List Field) (h : AllKnown fields) (r : Resolver)
    (hr : forM register (expand next fields) .empty = .ok r) (k : Key) (hk : some k ∈ r.typeInfo) :
    ∀ v ∈ k.1 ++ k.2, resolveVal r v ≠ .error .panic := by
  have hi := (registered _).1 r hr
  have hn := known_expanded h (expand_expanded next fields)
  intro v hv
  rw [hi.info] at hk
  obtain ⟨t, ht, hs⟩ := List.mem_map.1 hk
  refine np_val hi ?_
  have htd : kTypeDef ((expand next fields).flatMap decls) t := by
    simp only [types, List.mem_filterMap, List.mem_flatMap] at ht
    obtain ⟨d, ⟨f, hf, hd⟩, h1⟩ := ht
    cases d with
    | item s id => simp [Decl.typeDef?] at h1
    | type t' =>
      obtain rfl : t' = t := by simpa [Decl.typeDef?] using h1
      have := hn f hf
      cases f <;> simp [decls] at hd
      · subst hd; exact this
      · exact this _ hd
  cases hf : t.kind with
  | func f =>
    simp only [TypeDef.sig, hf, Option.some.injEq] at hs
    subst hs
    have hf' : kFunc ((expand next fields).flatMap decls) f := by
      have := htd.2.2.2
      rw [hf] at this
      exact this
    rcases List.mem_append.1 hv with hv | hv
    · obtain ⟨p, hp, rfl⟩ := List.mem_map.1 hv
      exact hf'.1 p hp
    · exact hf'.2 v hv
  | _ => simp [TypeDef.sig, hf] at hs

/-- `(func (export "e") call $missing)` after de-inlining: the export refers to a
generated identifier that is declared, the call to one of the source that is not. -/
private def panicDemo : List Field :=
  [.export .func (.id ⟨"gensym", 1⟩),
   .func (some ⟨"gensym", 1⟩) ⟨none, none⟩ (some ([], [.plain 0 [.item .func (.id ⟨"missing", 0⟩)]]))]

example : AllKnown panicDemo ∧ resolveModule 1 panicDemo = .error .unknown := by
  refine ⟨?_, by decide⟩
  intro f hf
  simp only [panicDemo, List.mem_cons, List.not_mem_nil, or_false] at hf
  rcases hf with rfl | rfl
  · intro x hx
    obtain rfl : _ = x := by simpa using hx
    exact .inr (by decide)
  · refine ⟨⟨by simp, by simp, by simp⟩, fun p hp => ?_⟩
    obtain rfl : _ = p := by simpa using hp
    refine ⟨by simp, fun i hi => ?_⟩
    simp only [List.mem_singleton] at hi
    subst hi
    intro r hr
    simp only [List.mem_singleton] at hr
    subst hr
    intro x hx
    obtain rfl : _ = x := by simpa using hx
    exact .inl rfl

/-- Without the hypothesis it panics: a generated identifier that nothing declares. -/
example : resolveModule 1 [.export .func (.id ⟨"gensym", 1⟩)] = .error .panic := by decide

end Verif.Resolve
