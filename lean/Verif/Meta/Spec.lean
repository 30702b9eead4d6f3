import Verif.Meta.Model
/-!
# What a producers section is

A section says which versions a name has in a field (`Has`); it lists its fields, and the
names of each field, in an order. In a well-formed section no field occurs twice, and no name
occurs twice in a field.
-/
namespace Verif.Meta.Spec
open Verif.Reader

/-- The section `p` gives `version` for `name` in `field`. -/
def Has (p : Producers) (field name version : Str) : Prop :=
  ∃ m, (field, m) ∈ p ∧ (name, version) ∈ m

/-- No field and no name within a field occurs twice. -/
structure Wf (p : Producers) : Prop where
  fields : (p.map Prod.fst).Nodup
  names : ∀ e ∈ p, (e.2.map Prod.fst).Nodup

/-- The names of a field, in order. -/
def namesIn (p : Producers) (field : Str) : List Str :=
  p.flatMap fun e => if e.1 = field then e.2.map Prod.fst else []

/-- All the ways to get a producers section. -/
inductive Reach : Producers → Prop where
  | empty : Reach empty
  | read {bytes off p} : fromBytes bytes off = .ok p → Reach p
  | fromMeta (ls ps ss) : Reach (fromMeta ls ps ss)
  | add {p} (f n v) : Reach p → Reach (add p f n v)
  | merge {p q} : Reach p → Reach q → Reach (merge p q)

/-- The field names of the tool convention. -/
def fieldNames : List Str := ["language", "processed-by", "sdk"].map fun s => s.toUTF8.toList

/-- What the reader can read: fields of the convention only, strings (valid UTF-8), and names
and versions of at most 100000 bytes. -/
def Readable (p : Producers) : Prop :=
  ∀ e ∈ p, e.1 ∈ fieldNames ∧ ∀ nv ∈ e.2, validUtf8 nv.1 ∧ validUtf8 nv.2 ∧
    nv.1.length ≤ 100000 ∧ nv.2.length ≤ 100000

end Verif.Meta.Spec
