import Verif.Resolve.Props

/-!
# C74: positions of names are indices of the binary
-/

namespace Verif.Resolve

open Verif.Expand

/-- **C74, except for tags.**  In a resolved module, what has position `n` among
the declarations of a space (the number its name was replaced by) has index `n`
in the binary, where imports come first.  Missing: the space of tags, for which
this is false, see `numbering_fails`. -/
theorem numbering_partial (next : Nat) (fields out : List Field) (h : resolveModule next fields = .ok out)
    (s : Space) (hs : s ≠ .tag) : space s (out.flatMap decls) = binarySpace s out := by
  obtain ⟨h1, mid, ⟨ms, ts, h2, h3, -⟩, -, -, h4⟩ := (resolveModule_iff next fields out).1 h
  apply ordered s hs
  have hc := (checkImports_iff fields false ()).2 ⟨by simp, h1⟩
  rw [checkImports_same (h3.imp fun _ _ h => FieldRel.sort h)] at hc
  rw [← checkImports_types ts, ← h2, checkImports_same (h4.imp fun _ _ h => FieldR.sort h)] at hc
  exact ((checkImports_iff _ _ _).1 hc).2

example : ∃ out, resolveModule 0
    [.import [⟨some ⟨"i", 0⟩, .func false ⟨none, none⟩⟩], .type ⟨none, .cont (.num 0), false, none, none, none, none⟩,
     .import [⟨some ⟨"j", 0⟩, .func false ⟨none, none⟩⟩], .func (some ⟨"f", 0⟩) ⟨none, none⟩ none] = .ok out ∧
    binarySpace .func out = [some ⟨"i", 0⟩, some ⟨"j", 0⟩, some ⟨"f", 0⟩] := ⟨_, rfl, by decide⟩

/-- `(tag $a) (import "" "" (tag $b)) (export "a" (tag $a))` -/
private def tagDemo : List Field :=
  [.tag (some ⟨"a", 0⟩) ⟨none, none⟩, .import [⟨some ⟨"b", 0⟩, .tag ⟨none, none⟩⟩], .export .tag (.id ⟨"a", 0⟩)]

/-- **C74 fails for tags.**  Imports may come after tags, which are then numbered
before them, but not so in the binary: here tag `$a` is to be exported, and
index 0 is exported, which in the binary is tag `$b`. -/
theorem numbering_fails : ∃ fields out, resolveModule 0 fields = .ok out ∧
    Field.export .tag (.id ⟨"a", 0⟩) ∈ fields ∧ Field.export .tag (.num 0) ∈ out ∧
    (binarySpace .tag out)[0]? = some (some ⟨"b", 0⟩) ∧ (binarySpace .tag out)[1]? = some (some ⟨"a", 0⟩) :=
  ⟨tagDemo, _, rfl, by decide, by decide, by decide, by decide⟩

end Verif.Resolve
