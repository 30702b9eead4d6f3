import Verif.Semver.Model
/-! Compatible versions and what merging imports is for. -/
namespace Verif.Semver.Spec

/-- Versions are compatible if they differ in build metadata only, or are no pre-releases and their
first number that is not zero is the same. -/
inductive Compatible : Version → Version → Prop
  | same {v w : Version} : v.major = w.major → v.minor = w.minor → v.patch = w.patch →
      v.pre = w.pre → Compatible v w
  | major {v w : Version} : v.pre = [] → w.pre = [] → v.major = w.major → v.major ≠ 0 →
      Compatible v w
  | minor {v w : Version} : v.pre = [] → w.pre = [] → v.major = w.major → v.minor = w.minor →
      v.minor ≠ 0 → v.major = 0 → Compatible v w

/-- A total order. -/
structure Total (cmp : Version → Version → Ordering) : Prop where
  eq : ∀ a b, cmp a b = .eq ↔ a = b
  swap : ∀ a b, cmp a b = .gt ↔ cmp b a = .lt
  trans : ∀ a b c, cmp a b = .lt → cmp b c = .lt → cmp a c = .lt

variable (R : Nat → Iface) (cmp : Version → Version → Ordering) (imports : List (Key × Item))

/-- The interface `i` of the package `ns:p` at version `v`. -/
def Is (id : Nat) (ns p i : String) (v : Version) : Prop :=
  R id = ⟨some ⟨ns, p, some v⟩, some i⟩

/-- Imported by its own name. -/
def Imported (id : Nat) : Prop := ∃ item, (Key.iface id, item) ∈ imports

/-- The same interface at a greater compatible version. -/
def Newer (l id : Nat) : Prop := ∃ ns p i v w, Is R id ns p i v ∧ Is R l ns p i w ∧
  Compatible v w ∧ cmp v w = .lt

/-- Another version is to be used. -/
def Outdated (id : Nat) : Prop := Imported imports id ∧ ∃ l, Imported imports l ∧ Newer R cmp l id

/-- An interface has one id. -/
def Distinct : Prop := ∀ id id' ns p i v, Imported imports id → Imported imports id' →
  Is R id ns p i v → Is R id' ns p i v → id = id'

/-- `l` is to be used in place of `id`: it is the newest. -/
def Replaces (l id : Nat) : Prop := Imported imports id ∧ Imported imports l ∧ Newer R cmp l id ∧
  ∀ x, Imported imports x → ¬ Newer R cmp x l

/-- The property: imports that go are those by the names of interfaces of which there is a newer
version. -/
def MergeKeeps : Prop := ∀ R cmp check imports repl imports', Total cmp → Distinct R imports →
  (imports.map (·.1)).Nodup → (∀ id item, (Key.iface id, item) ∈ imports → item = .iface id) →
  merge R cmp check imports = .ok (repl, imports') →
  ∀ k, (∃ item, (k, item) ∈ imports') ↔
    (∃ item, (k, item) ∈ imports) ∧ ∀ id, k = .iface id → ¬ Outdated R cmp imports id

end Verif.Semver.Spec
