import Verif.Types.Model
/-!
# Re-encoding of types

The conversions of `/repo/crates/wasm-encoder/src/reencode.rs` (module `utils`, the default
bodies of the trait `Reencode`) from parser types to encoder types. A reencoder is
represented by its `type_index` method, a total map of indices; the default one
(`RoundtripReencoder`, lines 1068-1070) is the identity. `none` is
`Err(CanonicalizedHeapTypeReference)` or the panic of `unpack`/`heap_type`.
-/
namespace Verif.Types

/-- `UnpackedIndex::as_module_index` (types.rs lines 277-283). -/
def UnpackedIndex.asModuleIndex : UnpackedIndex → Option (BitVec 32)
  | .module i => some i
  | _ => none

namespace Reenc
variable (f : BitVec 32 → BitVec 32)

/-- `type_index_unpacked` (lines 1072-1079). -/
def typeIndexUnpacked (u : UnpackedIndex) : Option (BitVec 32) := do pure (f (← u.asModuleIndex))

/-- `type_index_unpacked(i.unpack())`. -/
def packedIndex (p : PackedIndex) : Option (BitVec 32) := do typeIndexUnpacked f (← p.unpack)

/-- `.map(|i| ..).transpose()?` (lines 1152-1155, 1180-1187). -/
def optIndex : Option PackedIndex → Option (Option (BitVec 32))
  | none => some none
  | some p => do pure (some (← packedIndex f p))

/-- `heap_type` (lines 1280-1296) with `abstract_heap_type` (1091-1113). -/
def heapType : HeapType → Option Enc.HeapType
  | .concrete i => do pure (.concrete (← typeIndexUnpacked f i))
  | .exact i => do pure (.exact (← typeIndexUnpacked f i))
  | .abstract shared ty => some (.abstract shared ty)

/-- `ref_type` (lines 1270-1278). -/
def refType (t : RefType) : Option Enc.RefType := do
  pure { nullable := t.isNullable, heapType := ← heapType f (← t.heapType) }

/-- `val_type` (lines 1256-1268). -/
def valType : ValType → Option Enc.ValType
  | .i32 => some .i32
  | .i64 => some .i64
  | .f32 => some .f32
  | .f64 => some .f64
  | .v128 => some .v128
  | .ref r => do pure (.ref (← refType f r))

/-- `storage_type` (lines 1236-1245). -/
def storageType : StorageType → Option Enc.StorageType
  | .i8 => some .i8
  | .i16 => some .i16
  | .val v => do pure (.val (← valType f v))

/-- `field_type` (lines 1226-1234). -/
def fieldType (t : FieldType) : Option Enc.FieldType := do
  pure { elementType := ← storageType f t.elementType, mutable := t.mutable }

/-- `func_type` (lines 1192-1204): one buffer, split by `FuncType::from_parts` at the number
of parameters (encoder types.rs lines 45-51, 173-183). -/
def funcType (t : FuncType) : Option Enc.FuncType := do
  let buf ← (t.params ++ t.results).mapM (valType f)
  pure { params := buf.take t.params.length, results := buf.drop t.params.length }

/-- The `match` of `composite_type` (lines 1164-1177) with `array_type` (1206-1211),
`struct_type` (1213-1224), `cont_type` (1247-1254). -/
def compositeInner : CompositeInnerType → Option Enc.CompositeInnerType
  | .func t => do pure (.func (← funcType f t))
  | .array t => do pure (.array (← fieldType f t))
  | .struct ts => do pure (.struct (← ts.mapM (fieldType f)))
  | .cont p => do pure (.cont (← packedIndex f p))

/-- `composite_type` (lines 1160-1190). -/
def compositeType (c : CompositeType) : Option Enc.CompositeType := do
  let inner ← compositeInner f c.inner
  pure { inner, shared := c.shared, descriptor := ← optIndex f c.descriptorIdx,
         describes := ← optIndex f c.describesIdx }

/-- `sub_type` (lines 1146-1158). -/
def subType (t : SubType) : Option Enc.SubType := do
  pure { isFinal := t.isFinal, supertypeIdx := ← optIndex f t.supertypeIdx,
         compositeType := ← compositeType f t.compositeType }

/-- `parse_recursive_type_group` (lines 1128-1144): the bytes appended to the section. -/
def recGroup : RecGroup → Option (List UInt8)
  | .explicit tys => do
    let subtypes ← (tys.map (·.2)).mapM (subType f)
    Enc.encodeRec subtypes
  | .implicit _ ty => do (← subType f ty).encode

end Reenc

/-! What a renaming of type indices does to encoder types (specification side). -/
namespace Enc
variable (f : BitVec 32 → BitVec 32)

def HeapType.rename : HeapType → HeapType
  | .abstract s t => .abstract s t
  | .concrete i => .concrete (f i)
  | .exact i => .exact (f i)

def ValType.rename : ValType → ValType
  | .ref r => .ref { r with heapType := r.heapType.rename f }
  | t => t

def StorageType.rename : StorageType → StorageType
  | .val v => .val (v.rename f)
  | t => t

def FieldType.rename (t : FieldType) : FieldType :=
  { t with elementType := t.elementType.rename f }

def CompositeInnerType.rename : CompositeInnerType → CompositeInnerType
  | .func t => .func { params := t.params.map (·.rename f), results := t.results.map (·.rename f) }
  | .array t => .array (t.rename f)
  | .struct ts => .struct (ts.map (·.rename f))
  | .cont i => .cont (f i)

def SubType.rename (t : SubType) : SubType :=
  { isFinal := t.isFinal, supertypeIdx := t.supertypeIdx.map f
    compositeType := {
      inner := t.compositeType.inner.rename f, shared := t.compositeType.shared
      descriptor := t.compositeType.descriptor.map f
      describes := t.compositeType.describes.map f } }

end Enc
end Verif.Types
