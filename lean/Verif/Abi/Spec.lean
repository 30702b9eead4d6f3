import Verif.Abi.Model
/-!
# The Canonical ABI

Sizes, alignments and flattening as in the Component Model's *Canonical ABI*, for memories with
pointers of `w` bytes (4 or 8). Written from the document, on value types as trees and with plain
natural numbers; nothing of `SizeAlign` is used.
-/
namespace Verif.Abi.Spec

/-- Value types after despecialization: a tuple is a record, an enum, option or result is a
variant, a map is a list. `word` is everything that is an `i32` index: handles, streams, futures
and error contexts. -/
inductive VT where
  | int (bytes : Nat)
  | f32 | f64
  | char
  | word
  | string
  | flags (n : Nat)
  | list
  | fixedList (t : VT) (n : Nat)
  | record (fields : List VT)
  | variant (cases : List (Option VT))

/-- The tree that a type of the arena stands for, up to a depth. There is none for what the
component model does not have as a value type: resources, unknown types, empty records, variants
and lists of fixed length, flags with no or more than 32 labels. -/
def unfold (types : List Kind) : Nat → Ty → Option VT
  | 0, _ => none
  | d + 1, ty =>
    match ty with
    | .bool | .u8 | .s8 => some (.int 1)
    | .u16 | .s16 => some (.int 2)
    | .u32 | .s32 => some (.int 4)
    | .u64 | .s64 => some (.int 8)
    | .f32 => some .f32
    | .f64 => some .f64
    | .char => some .char
    | .string => some .string
    | .errorContext => some .word
    | .id i =>
      match types[i]? with
      | none | some .resource | some .unknown => none
      | some (.type t) => unfold types d t
      | some .handle | some (.future _) | some (.stream _) => some .word
      | some (.list _) | some (.map _ _) => some .list
      | some (.flags n) => if 1 ≤ n ∧ n ≤ 32 then some (.flags n) else none
      | some (.fixedLengthList t n) => if n = 0 then none else (unfold types d t).map (.fixedList · n)
      | some (.record ts) | some (.tuple ts) =>
        if ts = [] then none else (ts.mapM (unfold types d)).map .record
      | some (.variant cs) =>
        if cs = [] then none else (cs.mapM (optional (unfold types d))).map .variant
      | some (.enum n) => if n = 0 then none else some (.variant (List.replicate n none))
      | some (.option t) => (unfold types d t).map fun t => .variant [none, some t]
      | some (.result a b) => ([a, b].mapM (optional (unfold types d))).map .variant
where
  optional (f : Ty → Option VT) : Option Ty → Option (Option VT)
    | none => some none
    | some t => (f t).map some

/-- The least multiple of `a` that is at least `x`. -/
def alignUp (x a : Nat) : Nat := (x + (a - 1)) / a * a

/-- Bytes of the discriminant of a variant with `n` cases. -/
def discBytes (n : Nat) : Nat := if n ≤ 2 ^ 8 then 1 else if n ≤ 2 ^ 16 then 2 else 4

mutual
/-- `alignment` -/
def align (w : Nat) : VT → Nat
  | .int b => b
  | .f32 | .char | .word => 4
  | .f64 => 8
  | .string | .list => w
  | .flags n => if n ≤ 8 then 1 else if n ≤ 16 then 2 else 4
  | .fixedList t _ => align w t
  | .record fs => maxAlign w fs
  | .variant cs => max (discBytes cs.length) (maxCaseAlign w cs)
/-- `alignment_record` -/
def maxAlign (w : Nat) : List VT → Nat
  | [] => 1
  | t :: ts => max (align w t) (maxAlign w ts)
/-- `max_case_alignment` -/
def maxCaseAlign (w : Nat) : List (Option VT) → Nat
  | [] => 1
  | none :: cs => maxCaseAlign w cs
  | some t :: cs => max (align w t) (maxCaseAlign w cs)
end

mutual
/-- `elem_size` -/
def size (w : Nat) : VT → Nat
  | .int b => b
  | .f32 | .char | .word => 4
  | .f64 => 8
  | .string | .list => 2 * w
  | .flags n => if n ≤ 8 then 1 else if n ≤ 16 then 2 else 4
  | .fixedList t n => n * size w t
  | .record fs => alignUp (fieldsEnd w 0 fs) (maxAlign w fs)
  | .variant cs =>
    alignUp (alignUp (discBytes cs.length) (maxCaseAlign w cs) + maxCaseSize w cs)
      (max (discBytes cs.length) (maxCaseAlign w cs))
/-- The end of the last field when the first may begin at `s`. -/
def fieldsEnd (w : Nat) (s : Nat) : List VT → Nat
  | [] => s
  | t :: ts => fieldsEnd w (alignUp s (align w t) + size w t) ts
def maxCaseSize (w : Nat) : List (Option VT) → Nat
  | [] => 0
  | none :: cs => maxCaseSize w cs
  | some t :: cs => max (size w t) (maxCaseSize w cs)
end

/-- Where each field of a record begins. -/
def offsets (w : Nat) (s : Nat) : List VT → List Nat
  | [] => []
  | t :: ts => alignUp s (align w t) :: offsets w (alignUp s (align w t) + size w t) ts

/-! ## Flattening -/

/-- Core value types. -/
inductive Core where
  | i32 | i64 | f32 | f64
  deriving DecidableEq, Repr

/-- The core type of an address. -/
def ptr (w : Nat) : Core := if w = 4 then .i32 else .i64

/-- `join` -/
def join (a b : Core) : Core :=
  if a = b then a
  else if (a = .i32 ∧ b = .f32) ∨ (a = .f32 ∧ b = .i32) then .i32
  else .i64

/-- Lays one list over another. -/
def joinLists : List Core → List Core → List Core
  | [], ys => ys
  | xs, [] => xs
  | x :: xs, y :: ys => join x y :: joinLists xs ys

mutual
/-- `flatten_type` -/
def flatten (w : Nat) : VT → List Core
  | .int b => [if b ≤ 4 then .i32 else .i64]
  | .f32 => [.f32]
  | .f64 => [.f64]
  | .char | .word | .flags _ => [.i32]
  | .string | .list => [ptr w, ptr w]
  | .fixedList t n => (List.replicate n (flatten w t)).flatten
  | .record fs => flattenAll w fs
  | .variant cs => .i32 :: flattenCases w [] cs
/-- `flatten_types` -/
def flattenAll (w : Nat) : List VT → List Core
  | [] => []
  | t :: ts => flatten w t ++ flattenAll w ts
/-- `flatten_variant`, with the cases so far -/
def flattenCases (w : Nat) (acc : List Core) : List (Option VT) → List Core
  | [] => acc
  | none :: cs => flattenCases w acc cs
  | some t :: cs => flattenCases w (joinLists acc (flatten w t)) cs
end

/-- `flatten_functype`: the options of `canon lift` and `canon lower` that a binding may use. -/
inductive Canon where
  | lift | lower | liftAsyncCallback | liftAsyncStackful | lowerAsync

/-- `flatten_functype`: parameters and results of the core function. -/
def flattenFunc (w : Nat) (c : Canon) (params : List VT) (result : Option VT) :
    List Core × List Core :=
  let ps := flattenAll w params
  let rs := flattenAll w result.toList
  let params n := if ps.length > n then [ptr w] else ps
  match c with
  | .lift => (params 16, if rs.length > 1 then [ptr w] else rs)
  | .lower => if rs.length > 1 then (params 16 ++ [ptr w], []) else (params 16, rs)
  | .liftAsyncCallback => (params 16, [.i32])
  | .liftAsyncStackful => (params 16, [])
  | .lowerAsync => (if rs.length > 0 then params 4 ++ [ptr w] else params 4, [.i32])

/-! ## Reading the answers of the code -/

/-- The core type that a `WasmType` stands for, as documented in abi.rs lines 36-58. -/
def core (w : Nat) : WasmType → Core
  | .i32 => .i32
  | .i64 => .i64
  | .f32 => .f32
  | .f64 => .f64
  | .pointer | .length => ptr w
  | .pointerOrI64 => .i64

/-- Which options a binding of the guest uses. -/
def canon : AbiVariant → Canon
  | .guestImport => .lower
  | .guestExport => .lift
  | .guestImportAsync => .lowerAsync
  | .guestExportAsync => .liftAsyncCallback
  | .guestExportAsyncStackful => .liftAsyncStackful

/-- The most flat parameters. -/
def maxParams : Canon → Nat
  | .lowerAsync => 4
  | _ => 16

/-- No type has more cases than a discriminant can tell apart. -/
def FewCases (types : List Kind) : Prop :=
  ∀ k ∈ types, (∀ cs, k = .variant cs → cs.length ≤ 2 ^ 32) ∧ (∀ n, k = .enum n → n ≤ 2 ^ 32)

/-- The types that a definition mentions. -/
def refs : Kind → List Ty
  | .record ts | .tuple ts => ts
  | .variant cs => cs.filterMap id
  | .option t | .list t | .fixedLengthList t _ | .type t => [t]
  | .result a b => a.toList ++ b.toList
  | .map k v => [k, v]
  | .future t | .stream t => t.toList
  | .resource | .handle | .flags _ | .enum _ | .unknown => []

/-- Each definition mentions only earlier ones, which is how a `Resolve` keeps its types. -/
def Ordered (types : List Kind) : Prop :=
  ∀ i k, types[i]? = some k → ∀ j, .id j ∈ refs k → j < i

end Verif.Abi.Spec
