import Verif.Remod.Module
import Verif.Remod.Spec
import Verif.Names.Spec
/-! What the payloads of a re-encoded module should be. -/
namespace Verif.Remod.Spec
open Verif.Reader Verif.Items Verif.Reenc Verif.Reenc.Spec Verif.Parser Verif.Instr

variable (m : Maps)

/-- The name section names the renamed items; other custom sections keep their bytes. -/
def CustomRenamed (name : List UInt8) (r r' : Reader) : Prop :=
  if name = "name".toUTF8.toList then
    ∃ subs, Names.Spec.SectionSays r subs ∧
      Names.Spec.SectionSays r' (subs.map (Names.Spec.Sub.rename m))
  else r'.rest = r.rest

/-- The same locals and operators, renamed, up to the end of the bytes, where as many control
frames are open. -/
def BodyRenamed (f : Instr.Features) (body body' : Reader) : Prop :=
  ∃ ds ops s ds' ops' s', localsOf body = .ok ds ∧ operatorsOf f body = .ok (ops, s) ∧
    localsOf body' = .ok ds' ∧ operatorsOf f body' = .ok (ops', s') ∧
    List.Forall₂ (LocalRenamed m) ds ds' ∧ List.Forall₂ (OpRenamed m) ops ops' ∧
    s'.stack = s.stack ∧ s.reader.eof = true ∧ s'.reader.eof = true

/-- The same payload, up to positions, with indices renamed. -/
def PayloadRenamed (f : Feats) : Payload → Payload → Prop
  | .version n e _, .version n' e' _ => n' = n ∧ e' = e
  | .limited id c r, .limited id' c' r' => id' = id ∧ c' = c ∧
    ∃ xs ys, collectItems f id ⟨r, c⟩ = some (.ok xs) ∧
      collectItems f id ⟨r', c⟩ = some (.ok ys) ∧ ItemsRenamed m f.toFeatures xs ys
  | .custom n r, .custom n' r' => n' = n ∧ CustomRenamed m n r r'
  | .start i _, .start j _ => j = m.func i
  | .dataCount c _, .dataCount c' _ => c' = c
  | .codeStart c _ _, .codeStart c' _ _ => c' = c
  | .codeEntry b, .codeEntry b' => BodyRenamed m ⟨true, true, true, true⟩ b b'
  | .unknown id c _, .unknown id' c' _ => id' = id ∧ c' = c
  | .endOf _, .endOf _ => True
  | _, _ => False

/-- A payload of a core module all parts of which can be read. -/
def PayloadReadable (f : Feats) : Payload → Prop
  | .version _ e _ => e = .module
  | .limited id c r => ∃ xs, collectItems f id ⟨r, c⟩ = some (.ok xs) ∧
    ItemsReadable f.toFeatures xs
  | .custom n r => n = "name".toUTF8.toList → ∃ subs, Names.Spec.SectionSays r subs
  | .codeEntry b => ∃ ds ops s, localsOf b = .ok ds ∧
    operatorsOf ⟨true, true, true, true⟩ b = .ok (ops, s)
  | .nested .. | .componentStart .. => False
  | _ => True

end Verif.Remod.Spec
