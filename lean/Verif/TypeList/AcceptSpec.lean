import Verif.TypeList.HistSpec
/-!
# When a recursion group can be added

The rules for type definitions of the specification, over the list `L` of the types that are
there already; `m` are the identifiers of the types of the module.
-/
namespace Verif.TypeList.Accept
open Spec (SubT Decls CompSub Comp.kind)

/-- The identifiers of the types of the module once the group has been added at the end of the
list. -/
def idsAfter (L : List (SubT Nat)) (m : List Nat) (xs : List (SubT Nat)) : List Nat :=
  m ++ List.range' L.length xs.length

/-- The list with the group at its end, its references being identifiers. -/
def withGroup (L : List (SubT Nat)) (m : List Nat) (xs : List (SubT Nat)) : List (SubT Nat) :=
  L ++ xs.map (SubT.map fun r => ((idsAfter L m xs)[r]?).getD 0)

/-- The number of supertypes above a type. -/
inductive Depth (L : List (SubT Nat)) : Nat → Nat → Prop
  | top {i x} : L[i]? = some x → x.supertype = none → Depth L i 0
  | sub {i x j d} : L[i]? = some x → x.supertype = some j → Depth L j d → Depth L i (d + 1)

/-- The declared supertype of a type is not final, and the type matches it. -/
def SuperOk (L : List (SubT Nat)) (x : SubT Nat) : Prop :=
  ∀ j, x.supertype = some j → ∃ y, L[j]? = some y ∧ y.final = false ∧ x.shared = y.shared ∧
    CompSub (declsOf L) x.comp y.comp

/-- Clauses for descriptors are on structures and come in pairs, and the supertype of a type has
clauses for supertypes. -/
def ClausesOk (L : List (SubT Nat)) (i : Nat) (x : SubT Nat) : Prop :=
  (x.descriptor.isSome ∨ x.describes.isSome → x.comp.kind = .struct) ∧
  (∀ d, x.descriptor = some d → ∃ y, L[d]? = some y ∧ y.describes = some i) ∧
  (∀ d, x.describes = some d → ∃ y, L[d]? = some y ∧ y.descriptor = some i) ∧
  (∀ j y, x.supertype = some j → L[j]? = some y →
    (∀ sd, y.descriptor = some sd → ∃ d z, x.descriptor = some d ∧ L[d]? = some z ∧
      z.supertype = some sd) ∧
    (∀ sd, y.describes = some sd → ∃ d z, x.describes = some d ∧ L[d]? = some z ∧
      z.supertype = some sd) ∧
    (y.describes = none → x.describes = none))

/-- One type of the list is well formed. -/
structure TypeOk (f : Features) (L : List (SubT Nat)) (i : Nat) (x : SubT Nat) : Prop where
  super : SuperOk L x
  shared : x.shared = true → compShared (declsOf L) x.comp
  cont : ∀ j, x.comp = .cont j → ∃ y, L[j]? = some y ∧ y.comp.kind = .func
  clauses : ClausesOk L i x
  feats : Spec.SubFeats f x
  descFeats : x.descriptor.isSome ∨ x.describes.isSome → f.customDescriptors = true

/-- A recursion group may be added to a module: its indices are in range, supertypes and
described types come first, its types are well formed once they are there, and at most 63
supertypes are above any. -/
structure Addable (f : Features) (L : List (SubT Nat)) (m : List Nat) (xs : List (SubT Nat)) :
    Prop where
  scope : ∀ x ∈ xs, ∀ r ∈ x.refs, r < m.length + xs.length
  earlier : ∀ p x, xs[p]? = some x → ∀ r, x.supertype = some r ∨ x.describes = some r →
    r < m.length + p
  types : ∀ i x, L.length ≤ i → (withGroup L m xs)[i]? = some x →
    TypeOk f (withGroup L m xs) i x
  depth : ∀ i, L.length ≤ i → i < L.length + xs.length →
    ∃ d, d ≤ 63 ∧ Depth (withGroup L m xs) i d

end Verif.TypeList.Accept
