import Verif.Resolve.Instrs
import Verif.Resolve.Order
import Verif.Expand.Props

/-!
# C73: names of text modules stand for the position of what they name
-/

namespace Verif.Resolve

open Verif.Expand

/-- **C73 (names).**  Name resolution succeeds exactly for the modules that
declare no identifier twice in an index space, structure or function, whose
references all stand for something, whose inline types are those of the type
they come with and whose labels after `else` and `end` are those of the block;
the result has, for each reference, the position of what it names (for labels:
how many blocks out), and is otherwise unchanged. -/
theorem process_iff (fields out : List Field) : process fields = .ok out ↔ Resolved fields out := by
  obtain ⟨h1, h2⟩ := registered fields
  unfold process Resolved
  rw [ok_bind_iff]
  constructor
  · rintro ⟨r, hr, h3⟩
    have hi := h1 r hr
    exact ⟨hi.uniq, (computes_each (c_modField hi) _ _).1 h3⟩
  · rintro ⟨hu, h3⟩
    obtain ⟨r, hr⟩ := h2 hu
    exact ⟨r, hr, (computes_each (c_modField (h1 r hr)) _ _).2 h3⟩

/-- `(type $t (struct (field $a i8))) (func $f (param $p (ref $t)) block $l br $l
local.get $p struct.get $t $a call $f end)` after expansion -/
private def demo : List Field :=
  [.type ⟨some ⟨"t", 0⟩, .struct [(some ⟨"a", 0⟩, .packed 8)], false, none, none, none, none⟩,
   .func (some ⟨"f", 0⟩) ⟨some (.id ⟨"gensym", 1⟩), some ⟨[(some ⟨"p", 0⟩, .ref false (.concrete (.id ⟨"t", 0⟩)))], []⟩⟩
     (some ([], [.block 0 (some ⟨"l", 0⟩) ⟨none, some ⟨[], []⟩⟩, .block 0 none ⟨none, some ⟨[], []⟩⟩,
       .plain 1 [.label (.id ⟨"l", 0⟩)], .end_ none,
       .plain 2 [.loc (.id ⟨"p", 0⟩)], .plain 3 [.field (.id ⟨"t", 0⟩) (.id ⟨"a", 0⟩)],
       .plain 4 [.item .func (.id ⟨"f", 0⟩)], .end_ (some ⟨"l", 0⟩)])),
   .type ⟨some ⟨"gensym", 1⟩, .func ⟨[(none, .ref false (.concrete (.id ⟨"t", 0⟩)))], []⟩, false, none, none, none, none⟩]

example : process demo = .ok
  [.type ⟨some ⟨"t", 0⟩, .struct [(some ⟨"a", 0⟩, .packed 8)], false, none, none, none, none⟩,
   .func (some ⟨"f", 0⟩) ⟨some (.num 1), some ⟨[(some ⟨"p", 0⟩, .ref false (.concrete (.num 0)))], []⟩⟩
     (some ([], [.block 0 (some ⟨"l", 0⟩) ⟨none, some ⟨[], []⟩⟩, .block 0 none ⟨none, some ⟨[], []⟩⟩,
       .plain 1 [.label (.num 1)], .end_ none,
       .plain 2 [.loc (.num 0)], .plain 3 [.field (.num 0) (.num 0)],
       .plain 4 [.item .func (.num 0)], .end_ (some ⟨"l", 0⟩)])),
   .type ⟨some ⟨"gensym", 1⟩, .func ⟨[(none, .ref false (.concrete (.num 0)))], []⟩, false, none, none, none, none⟩] := by
  decide

/-- **C73 (whole pass).**  A module without inline imports and exports resolves to
`out` exactly if no import comes after a definition of what can be imported
(tags apart) and `out` is its expansion with all names resolved. -/
theorem resolveModule_iff (next : Nat) (fields out : List Field) :
    resolveModule next fields = .ok out ↔
      ImportsFirst fields ∧ ∃ mid, Expanded fields mid ∧ mid = expand next fields ∧ Resolved mid out := by
  unfold resolveModule
  rw [ok_bind_iff]
  constructor
  · rintro ⟨u, h1, h2⟩
    exact ⟨((checkImports_iff _ _ _).1 h1).2, _, expand_expanded next fields, rfl, (process_iff _ _).1 h2⟩
  · rintro ⟨h1, mid, -, rfl, h2⟩
    exact ⟨(), (checkImports_iff _ _ _).2 ⟨by simp, h1⟩, (process_iff _ _).2 h2⟩

example : ∃ out, resolveModule 0
    [.import [⟨some ⟨"i", 0⟩, .func false ⟨none, some ⟨[], [.num 0]⟩⟩⟩],
     .func none ⟨none, none⟩ (some ([], [.plain 4 [.item .func (.id ⟨"i", 0⟩)]]))] = .ok out := ⟨_, rfl⟩

/-- **C73 (determinism of names).**  An identifier that is not declared twice
stands for at most one position. -/
theorem denotes_unique (l : List (Option Id)) (h : Uniq l) (i : Index) (n m : Nat)
    (h1 : Denotes l i n) (h2 : Denotes l i m) : n = m := by
  cases h1 with
  | num _ => cases h2; rfl
  | id x _ ha => cases h2 with | id _ _ hb => exact h n m x ha hb

example : Uniq [some ⟨"a", 0⟩, none, some ⟨"b", 0⟩] ∧ Denotes [some ⟨"a", 0⟩, none, some ⟨"b", 0⟩] (.id ⟨"b", 0⟩) 2 := by
  refine ⟨?_, .id _ _ rfl⟩
  intro n m x hn hm
  match n, m with
  | 0, 0 | 2, 2 => rfl
  | 0, 2 | 2, 0 => simp at hn hm; rw [← hn] at hm; simp at hm
  | 1, _ => simp at hn
  | _, 1 => simp at hm
  | n + 3, _ => simp at hn
  | _, m + 3 => simp at hm

end Verif.Resolve
