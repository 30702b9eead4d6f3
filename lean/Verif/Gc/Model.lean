import Verif.Remod.Model
/-! Garbage collection of adapter modules (crates/wit-component/src/gc.rs), from the parsed module
on: `run` without `Module::parse`, `liveness`, `encode`.

Strings are their bytes. `fn(&mut Module, u32)` pointers on the worklist are a tag. `HashMap`s are
lists of pairs in which the first pair for a key counts. Numbers of items are natural numbers,
made `u32` where they are used as indices. The producers section, which is copied, is left out,
and the sections are kept as lists of the items that they are given. -/
namespace Verif.Gc
open Verif.Reader Verif.Instr Verif.Items Verif.Reenc

/-- `anyhow::Error`, or a panic. -/
inductive Fail where
  | err (m : String)
  | panic (m : String)
  deriving DecidableEq, Repr

/-! ### `mod bitvec` -/

/-- `struct BitVec` (lines 1062-1065). -/
structure BitSet where
  bits : List (BitVec 64)
  deriving DecidableEq, Repr

/-- `idx_bit` (lines 1097-1103). -/
def idxBit (i : BitVec 32) : Nat × BitVec 64 := (i.toNat / 64, 1#64 <<< (i.toNat % 64))

/-- `BitVec::insert` (lines 1070-1085). -/
def BitSet.insert (s : BitSet) (i : BitVec 32) : Bool × BitSet :=
  match s.bits[(idxBit i).1]? with
  | some w =>
    if w &&& (idxBit i).2 ≠ 0 then (false, s)
    else (true, ⟨s.bits.set (idxBit i).1 (w ||| (idxBit i).2)⟩)
  | none =>
    (true, ⟨(s.bits ++ List.replicate ((idxBit i).1 + 1 - s.bits.length) 0).set (idxBit i).1
      (idxBit i).2⟩)

/-- `BitVec::contains` (lines 1088-1094). -/
def BitSet.contains (s : BitSet) (i : BitVec 32) : Bool :=
  match s.bits[(idxBit i).1]? with
  | some w => w &&& (idxBit i).2 ≠ 0
  | none => false

/-! ### The module -/

/-- `enum Definition` (lines 211-215). -/
inductive Def (α : Type) where
  | imp (module name : List UInt8)
  | loc (a : α)
  deriving DecidableEq, Repr

/-- `struct Table` (lines 190-193). -/
structure Table where
  dfn : Def Unit
  ty : TableType
  deriving DecidableEq, Repr

/-- `struct Memory` (lines 195-198). -/
structure Memory where
  dfn : Def Unit
  ty : MemoryType
  deriving DecidableEq, Repr

/-- `struct Global` (lines 200-203). -/
structure Global where
  dfn : Def ConstExpr
  ty : GlobalType
  deriving DecidableEq, Repr

/-- `struct Func` (lines 205-209); a `FunctionBody` is its reader. -/
structure Func where
  dfn : Def Reader
  ty : BitVec 32
  deriving DecidableEq, Repr

/-- `struct Module` (lines 162-188) without what `liveness` computes and the producers. -/
structure Module where
  types : List Types.FuncType := []
  tables : List Table := []
  globals : List Global := []
  memories : List Memory := []
  funcs : List Func := []
  exports : List Export := []
  funcNames : List (BitVec 32 × List UInt8) := []
  globalNames : List (BitVec 32 × List UInt8) := []
  deriving DecidableEq, Repr

/-! ### Liveness -/

/-- The four closures that are pushed on the worklist (lines 390-403, 410-416, 423-427, 468-474). -/
inductive Kind where
  | func | global | table | type
  deriving DecidableEq, Repr

/-- The fields `live_*` and `worklist` of `Module` (lines 175-187); the last element of the
worklist comes first. -/
structure Live where
  types : BitSet := ⟨[]⟩
  tables : BitSet := ⟨[]⟩
  globals : BitSet := ⟨[]⟩
  memories : BitSet := ⟨[]⟩
  funcs : BitSet := ⟨[]⟩
  work : List (BitVec 32 × Kind) := []
  deriving DecidableEq, Repr

/-- `Module::func` (lines 386-404). -/
def Live.func (L : Live) (i : BitVec 32) : Live :=
  match L.funcs.insert i with
  | (false, _) => L
  | (true, s) => { L with funcs := s, work := (i, .func) :: L.work }

/-- `Module::global` (lines 406-417). -/
def Live.global (L : Live) (i : BitVec 32) : Live :=
  match L.globals.insert i with
  | (false, _) => L
  | (true, s) => { L with globals := s, work := (i, .global) :: L.work }

/-- `Module::table` (lines 419-428). -/
def Live.table (L : Live) (i : BitVec 32) : Live :=
  match L.tables.insert i with
  | (false, _) => L
  | (true, s) => { L with tables := s, work := (i, .table) :: L.work }

/-- `Module::memory` (lines 430-432). -/
def Live.memory (L : Live) (i : BitVec 32) : Live :=
  { L with memories := (L.memories.insert i).2 }

/-- `Module::ty` (lines 464-475). -/
def Live.type (L : Live) (i : BitVec 32) : Live :=
  match L.types.insert i with
  | (false, _) => L
  | (true, s) => { L with types := s, work := (i, .type) :: L.work }

/-- `self.ty(i.as_module_index().unwrap())` (line 460). -/
def Live.index (L : Live) (u : Types.UnpackedIndex) : Except Fail Live :=
  match u.asModuleIndex with
  | some i => .ok (L.type i)
  | none => .error (.panic "called `Option::unwrap()` on a `None` value")

/-- `Module::heapty` (lines 457-462). -/
def Live.heapty (L : Live) : Types.HeapType → Except Fail Live
  | .abstract _ _ => .ok L
  | .concrete u => L.index u
  | .exact u => L.index u

/-- `Module::refty` (lines 453-455); `none` is a panic of `heap_type`. -/
def Live.refty (L : Live) (t : Types.RefType) : Except Fail Live :=
  match t.heapType with
  | some h => L.heapty h
  | none => .error (.panic "unreachable")

/-- `Module::valty` (lines 440-445). -/
def Live.valty (L : Live) : Types.ValType → Except Fail Live
  | .ref r => L.refty r
  | _ => .ok L

/-- `Module::valtys` (lines 447-451), and the loop of lines 470-472. -/
def Live.valtys (L : Live) : List Types.ValType → Except Fail Live
  | [] => .ok L
  | t :: ts =>
    match L.valty t with
    | .error e => .error e
    | .ok L' => L'.valtys ts

/-- `Module::blockty` (lines 434-438). -/
def Live.blockty (L : Live) : BlockType → Live
  | .funcType i => L.type i
  | _ => L

/-- The rules `mark_live` (lines 956-995) for `u32` fields. -/
def Live.field (L : Live) : Field → BitVec 32 → Live
  | .typeIndex, i => L.type i
  | .arrayTypeIndex, i => L.type i
  | .arrayTypeIndexDst, i => L.type i
  | .arrayTypeIndexSrc, i => L.type i
  | .structTypeIndex, i => L.type i
  | .srcTable, i => L.table i
  | .dstTable, i => L.table i
  | .tableIndex, i => L.table i
  | .table, i => L.table i
  | .globalIndex, i => L.global i
  | .functionIndex, i => L.func i
  | .mem, i => L.memory i
  | .srcMem, i => L.memory i
  | .dstMem, i => L.memory i
  | .localIndex, _ => L
  | .relativeDepth, _ => L
  | .tagIndex, _ => L
  | .dataIndex, _ => L
  | .arrayDataIndex, _ => L
  | .elemIndex, _ => L
  | .arrayElemIndex, _ => L
  | .arraySize, _ => L
  | .fieldIndex, _ => L
  | .argumentIndex, _ => L
  | .resultIndex, _ => L
  | .contTypeIndex, _ => L

/-- The visitor methods that `define_visit!` makes (lines 942-954, with the rules of lines
956-995): every field of the operator in order. -/
def Live.visit (L : Live) : Operator → Except Fail Live
  | .block _ ty => .ok (L.blockty ty)
  | .tryTable _ _ => .error (.panic "not implemented")
  | .idx o i => .ok (L.field (idxField o) i)
  | .memorySize i => .ok (L.field .mem i)
  | .memoryGrow i => .ok (L.field .mem i)
  | .idx2 o i j => .ok ((L.field (idx2Fields o).1 i).field (idx2Fields o).2 j)
  | .callIndirect ty table => .ok ((L.field .typeIndex ty).field .tableIndex table)
  | .returnCallIndirect ty table => .ok ((L.field .typeIndex ty).field .tableIndex table)
  | .memoryInit data mem => .ok ((L.field .dataIndex data).field .mem mem)
  | .tableInit elem table => .ok ((L.field .elemIndex elem).field .table table)
  | .mem _ a => .ok (L.memory a.memory)
  | .memLane _ a _ => .ok (L.memory a.memory)
  | .heap _ h => L.heapty h
  | .cast _ _ a b =>
    match L.refty a with
    | .error e => .error e
    | .ok L' => L'.refty b
  | .atomic o _ i => .ok (L.field (atomicField o) i)
  | .atomic2 o _ i j => .ok ((L.field (atomic2Fields o).1 i).field (atomic2Fields o).2 j)
  | .typedSelect ty => L.valty ty
  | .typedSelectMulti tys => L.valtys tys
  | .resume _ _ => .error (.panic "not implemented")
  | .resumeThrow _ _ _ => .error (.panic "not implemented")
  | .resumeThrowRef _ _ => .error (.panic "not implemented")
  | _ => .ok L

/-- The loop of `Module::operators` (lines 478-481) and `ops.finish()` (line 482). A read that
succeeds consumes a byte, so that the number of bytes bounds the number of steps. -/
def operatorsFrom (f : Instr.Features) : Nat → OperatorsReader → Live → Except Fail Live
  | 0, s, L =>
    match s.finish with
    | .error _ => .error (.err "finish")
    | .ok () => .ok L
  | n + 1, s, L =>
    if s.reader.eof then
      match s.finish with
      | .error _ => .error (.err "finish")
      | .ok () => .ok L
    else
      match s.read f with
      | .error _ => .error (.err "operator")
      | .ok (op, s') =>
        match L.visit op with
        | .error e => .error e
        | .ok L' => operatorsFrom f n s' L'

/-- `Module::operators` (lines 477-484). -/
def Live.operators (f : Instr.Features) (L : Live) (s : OperatorsReader) : Except Fail Live :=
  operatorsFrom f s.reader.bytesRemaining s L

variable (f : Instr.Features) (m : Module)

/-- The closure of `func` (lines 390-403). -/
def liveFunc (L : Live) (i : BitVec 32) : Except Fail Live :=
  match m.funcs[i.toNat]? with
  | none => .error (.panic "index out of bounds")
  | some fn =>
    match fn.dfn with
    | .imp _ _ => .ok (L.type fn.ty)
    | .loc body =>
      match operatorsReader body with
      | .error _ => .error (.err "locals")
      | .ok s => (L.type fn.ty).operators f s

/-- The closure of `global` (lines 410-416). -/
def liveGlobal (L : Live) (i : BitVec 32) : Except Fail Live :=
  match m.globals[i.toNat]? with
  | none => .error (.panic "index out of bounds")
  | some g =>
    match g.dfn with
    | .imp _ _ => .ok L
    | .loc e => L.operators f (.new e.reader)

/-- The closure of `table` (lines 423-427). -/
def liveTable (L : Live) (i : BitVec 32) : Except Fail Live :=
  match m.tables[i.toNat]? with
  | none => .error (.panic "index out of bounds")
  | some t => L.valty (.ref t.ty.elementType)

/-- The closure of `ty` (lines 468-474). -/
def liveType (L : Live) (i : BitVec 32) : Except Fail Live :=
  match m.types[i.toNat]? with
  | none => .error (.panic "index out of bounds")
  | some t => L.valtys (t.params ++ t.results)

/-- `func(self, idx)?` (line 381). -/
def liveStep (L : Live) : BitVec 32 × Kind → Except Fail Live
  | (i, .func) => liveFunc f m L i
  | (i, .global) => liveGlobal f m L i
  | (i, .table) => liveTable m L i
  | (i, .type) => liveType m L i

/-- The loop over the exports (lines 369-377). -/
def liveExports (L : Live) : List Export → Except Fail Live
  | [] => .ok L
  | e :: es =>
    match e.kind with
    | .func | .funcExact => liveExports (L.func e.index) es
    | .global => liveExports (L.global e.index) es
    | .table => liveExports (L.table e.index) es
    | .memory => liveExports (L.memory e.index) es
    | .tag => .error (.err "unsupported exported tag")

/-- The loop over the worklist (lines 380-382). The number of steps is bounded by `fuel`, which is
never exhausted with the fuel of `liveness` (see `c56_live`). -/
def liveLoop : Nat → Live → Except Fail Live
  | 0, _ => .error (.panic "out of fuel")
  | n + 1, L =>
    match L.work with
    | [] => .ok L
    | w :: ws =>
      match liveStep f m { L with work := ws } w with
      | .error e => .error e
      | .ok L' => liveLoop n L'

/-- The number of steps that suffices for `liveness`: every item is handled at most once, and an
item that does not exist ends the loop. -/
def Module.size (m : Module) : Nat :=
  m.funcs.length + m.globals.length + m.tables.length + m.types.length

/-- `Module::liveness` (lines 367-384). -/
def liveness : Except Fail Live :=
  match liveExports {} m.exports with
  | .error e => .error e
  | .ok L => liveLoop f m (m.size + 2) L

/-! ### `struct Remap` and `struct Encoder` -/

/-- `struct Remap` (lines 1108-1114). -/
structure Remap where
  map : List (BitVec 32 × BitVec 32) := []
  next : Nat := 0
  deriving DecidableEq, Repr

/-- `Remap::push` (lines 1120-1123). -/
def Remap.push (r : Remap) (old : BitVec 32) : Remap :=
  { map := (old, BitVec.ofNat 32 r.next) :: r.map, next := r.next + 1 }

/-- `map.funcs.next += 1` (lines 650, 687). -/
def Remap.skip (r : Remap) : Remap := { r with next := r.next + 1 }

/-- `self.map.get(&old)` (lines 1129-1131). -/
def Remap.get? (r : Remap) (old : BitVec 32) : Option (BitVec 32) := r.map.lookup old

/-- `Remap::remap` (lines 1128-1133). -/
def Remap.remap (r : Remap) (old : BitVec 32) : Except Fail (BitVec 32) :=
  match r.get? old with
  | some new => .ok new
  | none => .error (.panic "can't map to a new index")

/-- `struct Encoder` (lines 1024-1031). -/
structure Encoder where
  types : Remap := {}
  funcs : Remap := {}
  memories : Remap := {}
  globals : Remap := {}
  tables : Remap := {}
  deriving DecidableEq, Repr

/-- The index methods of `trait Reencode`. -/
inductive Method where
  | type | func | table | memory | global | tag | data | elem
  deriving DecidableEq, Repr

/-- `impl Reencode for Encoder` (lines 1035-1053), as total maps; `Encoder.knows` says where the
methods panic. -/
def Encoder.maps (e : Encoder) : Maps where
  type i := (e.types.get? i).getD i
  func i := (e.funcs.get? i).getD i
  table i := (e.tables.get? i).getD i
  memory i := (e.memories.get? i).getD i
  global i := (e.globals.get? i).getD i
  tag := id
  data := id
  elem := id

/-- The index methods of `Encoder` that do not panic (lines 1035-1053 and 1128-1133); the methods
for tags, data and elements are the default ones. -/
def Encoder.knows (e : Encoder) : Method × BitVec 32 → Bool
  | (.type, i) => (e.types.get? i).isSome
  | (.func, i) => (e.funcs.get? i).isSome
  | (.table, i) => (e.tables.get? i).isSome
  | (.memory, i) => (e.memories.get? i).isSome
  | (.global, i) => (e.globals.get? i).isSome
  | (.tag, _) => true
  | (.data, _) => true
  | (.elem, _) => true

/-- A re-encoding that calls these index methods. All of them are looked at before anything is
encoded, instead of one by one; in both cases one of them that panics ends everything. -/
def Encoder.check (e : Encoder) (calls : List (Method × BitVec 32)) : Except Fail Unit :=
  if calls.all e.knows then .ok () else .error (.panic "can't map to a new index")

/-! The index methods that the re-encoder calls (crates/wasm-encoder/src/reencode.rs). -/

/-- `type_index_unpacked` (lines 1072-1079). -/
def indexCalls (u : Types.UnpackedIndex) : List (Method × BitVec 32) :=
  match u.asModuleIndex with
  | some i => [(.type, i)]
  | none => []

/-- `heap_type` (lines 1280-1296). -/
def heapCalls : Types.HeapType → List (Method × BitVec 32)
  | .abstract _ _ => []
  | .concrete u => indexCalls u
  | .exact u => indexCalls u

/-- `ref_type` (lines 1270-1278). -/
def refCalls (t : Types.RefType) : List (Method × BitVec 32) :=
  match t.heapType with
  | some h => heapCalls h
  | none => []

/-- `val_type` (lines 1256-1268). -/
def valCalls : Types.ValType → List (Method × BitVec 32)
  | .ref r => refCalls r
  | _ => []

/-- `func_type` (lines 1192-1204). -/
def funcTypeCalls (t : Types.FuncType) : List (Method × BitVec 32) :=
  (t.params ++ t.results).flatMap valCalls

/-- `block_type` (lines 1666-1677). -/
def blockCalls : BlockType → List (Method × BitVec 32)
  | .empty => []
  | .funcType i => [(.type, i)]
  | .type t => valCalls t

/-- The `map` rules of `translate!` (lines 1704-1757). -/
def fieldCalls : Field → BitVec 32 → List (Method × BitVec 32)
  | .tagIndex, i => [(.tag, i)]
  | .functionIndex, i => [(.func, i)]
  | .table, i => [(.table, i)]
  | .tableIndex, i => [(.table, i)]
  | .dstTable, i => [(.table, i)]
  | .srcTable, i => [(.table, i)]
  | .typeIndex, i => [(.type, i)]
  | .arrayTypeIndex, i => [(.type, i)]
  | .arrayTypeIndexDst, i => [(.type, i)]
  | .arrayTypeIndexSrc, i => [(.type, i)]
  | .structTypeIndex, i => [(.type, i)]
  | .globalIndex, i => [(.global, i)]
  | .mem, i => [(.memory, i)]
  | .srcMem, i => [(.memory, i)]
  | .dstMem, i => [(.memory, i)]
  | .dataIndex, i => [(.data, i)]
  | .elemIndex, i => [(.elem, i)]
  | .arrayDataIndex, i => [(.data, i)]
  | .arrayElemIndex, i => [(.elem, i)]
  | .relativeDepth, _ => []
  | .localIndex, _ => []
  | .arraySize, _ => []
  | .fieldIndex, _ => []
  | .argumentIndex, i => [(.type, i)]
  | .resultIndex, i => [(.type, i)]
  | .contTypeIndex, i => [(.type, i)]

/-- `catch` (lines 968-984). -/
def catchCalls : Catch → List (Method × BitVec 32)
  | .one tag _ => [(.tag, tag)]
  | .oneRef tag _ => [(.tag, tag)]
  | .all _ => []
  | .allRef _ => []

/-- `handle` (lines 986-999). -/
def handleCalls : Handle → List (Method × BitVec 32)
  | .onLabel tag _ => [(.tag, tag)]
  | .onSwitch tag => [(.tag, tag)]

/-- `instruction` (lines 1679-1779). -/
def calls : Operator → List (Method × BitVec 32)
  | .block _ ty => blockCalls ty
  | .tryTable ty cs => blockCalls ty ++ cs.flatMap catchCalls
  | .idx o i => fieldCalls (idxField o) i
  | .catch_ tag => fieldCalls .tagIndex tag
  | .memorySize i => fieldCalls .mem i
  | .memoryGrow i => fieldCalls .mem i
  | .idx2 o i j => fieldCalls (idx2Fields o).1 i ++ fieldCalls (idx2Fields o).2 j
  | .callIndirect ty table => fieldCalls .typeIndex ty ++ fieldCalls .tableIndex table
  | .returnCallIndirect ty table => fieldCalls .typeIndex ty ++ fieldCalls .tableIndex table
  | .memoryInit data mem => fieldCalls .dataIndex data ++ fieldCalls .mem mem
  | .tableInit elem table => fieldCalls .elemIndex elem ++ fieldCalls .table table
  | .mem _ a => [(.memory, a.memory)]
  | .memLane _ a _ => [(.memory, a.memory)]
  | .heap _ h => heapCalls h
  | .cast _ _ a b => refCalls a ++ refCalls b
  | .atomic o _ i => fieldCalls (atomicField o) i
  | .atomic2 o _ i j => fieldCalls (atomic2Fields o).1 i ++ fieldCalls (atomic2Fields o).2 j
  | .typedSelect ty => valCalls ty
  | .typedSelectMulti tys => tys.flatMap valCalls
  | .resume ty hs => fieldCalls .contTypeIndex ty ++ hs.flatMap handleCalls
  | .resumeThrow ty tag hs =>
    fieldCalls .contTypeIndex ty ++ fieldCalls .tagIndex tag ++ hs.flatMap handleCalls
  | .resumeThrowRef ty hs => fieldCalls .contTypeIndex ty ++ hs.flatMap handleCalls
  | _ => []

/-- The calls for a sequence of operators. -/
def readerCalls (s : OperatorsReader) : List (Method × BitVec 32) :=
  match s.collect f with
  | .ok (ops, _) => ops.flatMap calls
  | .error _ => []

/-- `const_expr` (lines 1651-1664). -/
def constCalls (c : ConstExpr) : List (Method × BitVec 32) := readerCalls f (.new c.reader)

/-- `new_function_with_parsed_locals` (lines 1811-1821). -/
def localCalls (body : Reader) : List (Method × BitVec 32) :=
  match localsOf body with
  | .ok ds => ds.flatMap (valCalls ·.2)
  | .error _ => []

/-- `parse_function_body` (lines 1795-1806). -/
def bodyCalls (body : Reader) : List (Method × BitVec 32) :=
  localCalls body ++
    match operatorsReader body with
    | .ok s => readerCalls f s
    | .error _ => []

/-! ### Encoding -/

/-- The sections that `encode` assembles (lines 515-521, 799-903), each as the list of what was
added to it. -/
structure Out where
  types : List Types.Enc.FuncType := []
  imports : List (List UInt8 × List UInt8 × Items.Enc.EntityType) := []
  funcs : List (BitVec 32) := []
  tables : List Items.Enc.TableType := []
  memories : List Items.Enc.MemoryType := []
  globals : List Items.Enc.Global := []
  exports : List Items.Enc.Export := []
  start : Option (BitVec 32) := none
  code : List (List UInt8) := []
  funcNames : List (BitVec 32 × List UInt8) := []
  globalNames : List (BitVec 32 × List UInt8) := []
  deriving DecidableEq, Repr

/-- The local variables of `encode`. -/
structure St where
  map : Encoder := {}
  out : Out := {}
  emptyType : Option (BitVec 32) := none
  numMemories : Nat := 0
  reallocIndex : Option Nat := none
  numFuncImports : Nat := 0
  deriving DecidableEq, Repr

/-- `?` on a re-encoding. -/
def orErr : Option α → Except Fail α
  | some a => .ok a
  | none => .error (.err "reencode")

/-- `live_iter` (lines 1014-1022). -/
def liveIter (live : BitSet) (xs : List α) : List (BitVec 32 × α) :=
  (xs.zipIdx.map fun p => (BitVec.ofNat 32 p.2, p.1)).filter fun p => live.contains p.1

/-- Lines 533-535. -/
def emptyTypeOf (r : Remap) (i : BitVec 32) (ty : Types.Enc.FuncType)
    (old : Option (BitVec 32)) : Except Fail (Option (BitVec 32)) :=
  if ty.params = [] ∧ ty.results = [] then do pure (some (← r.remap i)) else pure old

/-- The loop body for types (lines 524-536). -/
def encodeType (s : St) (p : BitVec 32 × Types.FuncType) : Except Fail St := do
  let map := { s.map with types := s.map.types.push p.1 }
  map.check (funcTypeCalls p.2)
  let ty ← orErr (Types.Reenc.funcType map.maps.type p.2)
  let empty ← emptyTypeOf map.types p.1 ty s.emptyType
  pure { s with map, emptyType := empty, out := { s.out with types := s.out.types ++ [ty] } }

/-- The `match` of lines 542-549. -/
def addMemory (o : Out) (t : Items.Enc.MemoryType) : Def Unit → Out
  | .imp m n => { o with imports := o.imports ++ [(m, n, .memory t)] }
  | .loc _ => { o with memories := o.memories ++ [t] }

/-- The loop body for memories (lines 539-551). -/
def encodeMemory (s : St) (p : BitVec 32 × Memory) : Except Fail St :=
  .ok { s with
    map := { s.map with memories := s.map.memories.push p.1 }
    out := addMemory s.out (Remod.memoryType p.2.ty) p.2.dfn
    numMemories := s.numMemories + 1 }

/-- The `match` of lines 556-563. -/
def addTable (o : Out) (t : Items.Enc.TableType) : Def Unit → Out
  | .imp m n => { o with imports := o.imports ++ [(m, n, .table t)] }
  | .loc _ => { o with tables := o.tables ++ [t] }

/-- The loop body for tables (lines 553-564). -/
def encodeTable (s : St) (p : BitVec 32 × Table) : Except Fail St := do
  let map := { s.map with tables := s.map.tables.push p.1 }
  map.check (refCalls p.2.ty.elementType)
  let ty ← orErr (Remod.tableType map.maps p.2.ty)
  pure { s with map, out := addTable s.out ty p.2.dfn }

/-- The `match` of lines 569-577. -/
def addGlobal (map : Encoder) (o : Out) (t : Items.Enc.GlobalType) :
    Def ConstExpr → Except Fail Out
  | .imp m n => .ok { o with imports := o.imports ++ [(m, n, .global t)] }
  | .loc e => do
    map.check (constCalls f e)
    let init ← orErr (constExpr map.maps f e)
    pure { o with globals := o.globals ++ [{ ty := t, init }] }

/-- The loop body for globals (lines 566-578). -/
def encodeGlobal (s : St) (p : BitVec 32 × Global) : Except Fail St := do
  let map := { s.map with globals := s.map.globals.push p.1 }
  map.check (valCalls p.2.ty.contentType)
  let ty ← orErr (Remod.globalType map.maps p.2.ty)
  pure { s with map, out := ← addGlobal f map s.out ty p.2.dfn }

/-- The bytes of `"__main_module__"`. -/
def mainModule : List UInt8 := "__main_module__".toUTF8.data.toList
/-- The bytes of `"canonical_abi_realloc"`. -/
def canonicalAbiRealloc : List UInt8 := "canonical_abi_realloc".toUTF8.data.toList
/-- The bytes of `"cabi_realloc"`. -/
def cabiRealloc : List UInt8 := "cabi_realloc".toUTF8.data.toList
/-- The bytes of `"__stack_pointer"`. -/
def stackPointer : List UInt8 := "__stack_pointer".toUTF8.data.toList
/-- The bytes of `"allocation_state"`. -/
def allocationState : List UInt8 := "allocation_state".toUTF8.data.toList

/-- `is_realloc` (lines 587-588). -/
def isRealloc (m n : List UInt8) : Bool :=
  m = mainModule ∧ (n = canonicalAbiRealloc ∨ n = cabiRealloc)

/-- The closure of `partition` (lines 592-597). -/
def staysImport (main : Option (List UInt8)) (fn : Func) : Bool :=
  match fn.dfn with
  | .imp m n => !isRealloc m n || main.isSome
  | .loc _ => false

/-- The `match` of lines 602-617. -/
def addImport (main : Option (List UInt8)) (s : St) (ty : BitVec 32) :
    Def Reader → Except Fail St
  | .imp m n =>
    .ok { s with
      reallocIndex := if isRealloc m n then some s.numFuncImports else s.reallocIndex
      out := { s.out with imports := s.out.imports ++
        [(m, if isRealloc m n then main.getD n else n, .function ty)] }
      numFuncImports := s.numFuncImports + 1 }
  | .loc _ => .error (.panic "internal error: entered unreachable code")

/-- The loop body for imported functions (lines 599-618). -/
def encodeImport (main : Option (List UInt8)) (s : St) (p : BitVec 32 × Func) :
    Except Fail St := do
  let map := { s.map with funcs := s.map.funcs.push p.1 }
  let ty ← map.types.remap p.2.ty
  addImport main { s with map } ty p.2.dfn

/-- `wasm_encoder::FuncType::new([I32; 4], [I32])` (lines 622-630). -/
def reallocType : Types.Enc.FuncType := ⟨[.i32, .i32, .i32, .i32], [.i32]⟩
/-- `types.ty().function([], [])` (lines 636, 765). -/
def emptyFuncType : Types.Enc.FuncType := ⟨[], []⟩

/-- `add_realloc_type` and `add_empty_type` (lines 620-638): the new section and the index. -/
def addType (o : Out) (t : Types.Enc.FuncType) : Out × BitVec 32 :=
  ({ o with types := o.types ++ [t] }, BitVec.ofNat 32 o.types.length)

/-- `find_mut_i32_global` (lines 909-932). -/
def findGlobal (L : Live) (name : List UInt8) : Except Fail (Option (BitVec 32)) :=
  match (liveIter L.globals m.globals).filter (fun p =>
    p.2.ty.mutable && p.2.ty.contentType = .i32 && m.globalNames.lookup p.1 = some name) with
  | [] => .ok none
  | [p] => .ok (some p.1)
  | _ => .error (.err "found several mutable i32 globals with this name")

/-- The extra import (lines 645-660). -/
def addReallocImport (main : Option (List UInt8)) (sp : Option (BitVec 32)) (s : St) : St :=
  match main, sp, s.reallocIndex with
  | some realloc, some _, none =>
    let (o, ty) := addType s.out reallocType
    { s with
      map := { s.map with funcs := s.map.funcs.skip }
      reallocIndex := some s.numFuncImports
      out := { o with
        imports := o.imports ++ [(mainModule, realloc, .function ty)]
        funcNames := o.funcNames ++ [(BitVec.ofNat 32 s.numFuncImports, realloc)] }
      numFuncImports := s.numFuncImports + 1 }
  | _, _, _ => s

/-- `const PAGE_SIZE` (line 14). -/
def pageSize : BitVec 32 := 65536

/-- The instructions of `realloc_via_memory_grow` (lines 57-97). -/
def reallocCode : List Instr.Enc.Instr :=
  [.i32Const 0, .idx .localGet 0, .plain .i32Ne, .block .if_ .empty, .plain .unreachable, .end_,
   .i32Const 0, .idx .localGet 1, .plain .i32Ne, .block .if_ .empty, .plain .unreachable, .end_,
   .i32Const pageSize, .idx .localGet 3, .plain .i32Ne, .block .if_ .empty, .plain .unreachable,
   .end_,
   .i32Const 1, .memoryGrow 0, .idx .localTee 4,
   .i32Const (-1), .plain .i32Eq, .block .if_ .empty, .plain .unreachable, .end_,
   .idx .localGet 4, .i32Const 16, .plain .i32Shl, .end_]

/-- `enum StackAllocationState` (lines 102-108). -/
def unallocated : BitVec 32 := 0
@[inherit_doc unallocated] def allocating : BitVec 32 := 1
@[inherit_doc unallocated] def allocated : BitVec 32 := 2

/-- The instructions before the allocation (lines 117-129). -/
def stackHead : Option (BitVec 32) → List Instr.Enc.Instr
  | none => []
  | some st => [.idx .globalGet st, .i32Const unallocated, .plain .i32Eq, .block .if_ .empty,
      .i32Const allocating, .idx .globalSet st]

/-- The instructions after the allocation (lines 140-145). -/
def stackTail : Option (BitVec 32) → List Instr.Enc.Instr
  | none => []
  | some st => [.i32Const allocated, .idx .globalSet st, .end_]

/-- The instructions of `allocate_stack_via_realloc` (lines 115-147). -/
def stackCode (realloc sp : BitVec 32) (st : Option (BitVec 32)) : List Instr.Enc.Instr :=
  stackHead st ++
    [.i32Const 0, .i32Const 0, .i32Const 8, .i32Const pageSize, .idx .call realloc,
     .i32Const pageSize, .plain .i32Add, .idx .globalSet sp] ++
    stackTail st ++ [.end_]

/-- `wasm_encoder::Function`: `Function::new` and the instructions. -/
def function (locals : List (BitVec 32 × Types.Enc.ValType)) (is : List Instr.Enc.Instr) :
    Except Fail (List UInt8) := do
  let head ← orErr (functionNew locals)
  let code ← orErr (Instr.Enc.encodeSeq is)
  pure (head ++ code)

/-- `realloc_via_memory_grow` (lines 54-100). -/
def reallocFunction : Except Fail (List UInt8) := function [(1, .i32)] reallocCode

/-- `allocate_stack_via_realloc` (lines 110-150). -/
def stackFunction (realloc sp : BitVec 32) (st : Option (BitVec 32)) : Except Fail (List UInt8) :=
  function [] (stackCode realloc sp st)

/-- The `match` of lines 665-676. -/
def addLocal (s : St) (ty : BitVec 32) : Def Reader → Except Fail St
  | .imp _ _ => do
    let body ← reallocFunction
    pure { s with
      reallocIndex := some (s.numFuncImports + s.out.funcs.length)
      out := { s.out with funcs := s.out.funcs ++ [ty], code := s.out.code ++ [body] } }
  | .loc _ => .ok { s with out := { s.out with funcs := s.out.funcs ++ [ty] } }

/-- The loop body for local functions (lines 662-677). -/
def encodeLocal (s : St) (p : BitVec 32 × Func) : Except Fail St := do
  let map := { s.map with funcs := s.map.funcs.push p.1 }
  let ty ← map.types.remap p.2.ty
  addLocal { s with map } ty p.2.dfn

/-- `lazy_stack_init_index` (lines 679-694). -/
def lazyInit (main : Option (List UInt8)) (sp state : Option (BitVec 32)) (s : St) :
    St × Option Nat :=
  if sp.isSome ∧ state.isSome ∧ main.isSome then
    let (o, ty) := addType s.out emptyFuncType
    ({ s with map := { s.map with funcs := s.map.funcs.skip }
              out := { o with funcs := o.funcs ++ [ty] } },
     some (s.numFuncImports + s.out.funcs.length))
  else (s, none)

/-- `exported_funcs` (lines 696-703). -/
def exportedFuncs (m : Module) : List (BitVec 32) :=
  m.exports.filterMap fun e => if e.kind = .func then some e.index else none

/-- The first arm of lines 714-722: `parse_function_body` with a call put before the operators. -/
def bodyWithCall (map : Maps) (callee : BitVec 32) (body : Reader) : Option (List UInt8) := do
  let head ← newFunction map body
  let call ← Instr.Enc.Instr.encode (.idx .call callee)
  match operatorsReader body with
  | .error _ => none
  | .ok s => do
    pure (head ++ call ++ (← instructionsFrom map f s.reader.bytesRemaining s))

/-- The `match` of lines 711-726. -/
def encodeBody (map : Encoder) (stackInit : Option Nat) (exported : Bool) (body : Reader) :
    Except Fail (List UInt8) := do
  map.check (bodyCalls f body)
  match stackInit, exported with
  | some k, true => orErr (bodyWithCall f map.maps (BitVec.ofNat 32 k) body)
  | _, _ => orErr (functionBody map.maps f body)

/-- The loop body for code (lines 705-727). -/
def encodeCode (stackInit : Option Nat) (s : St) (p : BitVec 32 × Func) : Except Fail St :=
  match p.2.dfn with
  | .imp _ _ => .ok s
  | .loc body => do
    let code ← encodeBody f s.map stackInit ((exportedFuncs m).contains p.1) body
    pure { s with out := { s.out with code := s.out.code ++ [code] } }

/-- `o.unwrap()`. -/
def unwrap : Option α → Except Fail α
  | some a => .ok a
  | none => .error (.panic "called `Option::unwrap()` on a `None` value")

/-- The function that allocates the stack lazily (lines 729-735). -/
def addLazy (stackInit : Option Nat) (sp state : Option (BitVec 32)) (s : St) : Except Fail St :=
  match stackInit with
  | none => .ok s
  | some _ => do
    let realloc ← unwrap s.reallocIndex
    let sp ← unwrap sp
    let body ← stackFunction (BitVec.ofNat 32 realloc) sp state
    pure { s with out := { s.out with code := s.out.code ++ [body] } }

/-- The extra `realloc_via_memory_grow` (lines 737-743). -/
def addRealloc (sp state : Option (BitVec 32)) (s : St) : Except Fail St :=
  if sp.isSome ∧ (s.reallocIndex = none ∨ state = none) then do
    let (o, ty) := addType s.out reallocType
    let body ← reallocFunction
    pure { s with
      reallocIndex := some (s.numFuncImports + s.out.funcs.length)
      out := { o with funcs := o.funcs ++ [ty], code := o.code ++ [body] } }
  else .ok s

/-- `empty_type.unwrap_or_else` (lines 764-767). -/
def startType (s : St) : Out × BitVec 32 :=
  match s.emptyType with
  | some t => (s.out, t)
  | none => addType s.out emptyFuncType

/-- The bytes of `"allocate_stack"`. -/
def allocateStack : List UInt8 := "allocate_stack".toUTF8.data.toList
/-- The bytes of `"realloc_via_memory_grow"`. -/
def reallocViaMemoryGrow : List UInt8 := "realloc_via_memory_grow".toUTF8.data.toList

/-- The start function (lines 748-778). -/
def addStart (stackInit : Option Nat) (sp state : Option (BitVec 32)) (s : St) : Except Fail St :=
  match sp, stackInit with
  | some sp, none =>
    if s.numMemories = 0 then .ok s
    else if s.numMemories ≠ 1 then .error (.err "adapter modules don't support multi-memory")
    else do
      let sp ← s.map.globals.remap sp
      let index := BitVec.ofNat 32 (s.numFuncImports + s.out.funcs.length)
      let (o, ty) := startType s
      let realloc ← unwrap s.reallocIndex
      let body ← stackFunction (BitVec.ofNat 32 realloc) sp state
      pure { s with out := { o with
        funcs := o.funcs ++ [ty]
        funcNames := o.funcNames ++ [(index, allocateStack)]
        code := o.code ++ [body]
        start := some index } }
  | _, _ => .ok s

/-- The checks of lines 786-797. -/
def checkShape (L : Live) (o : Out) : Except Fail Unit :=
  if liveIter L.tables m.tables ≠ [] then
    .error (.err "tables should not be present in the final adapter module")
  else if (liveIter L.memories m.memories).length > 1 then
    .error (.err "the adapter module should not use multi-memory")
  else if o.memories ≠ [] then .error (.err "locally-defined memories are not allowed")
  else .ok ()

/-- The loop body for exports (lines 821-842). -/
def encodeExport (map : Encoder) (e : Export) : Except Fail Items.Enc.Export :=
  match e.kind with
  | .func => do pure { name := e.name, kind := .func, index := ← map.funcs.remap e.index }
  | .table => do pure { name := e.name, kind := .table, index := ← map.tables.remap e.index }
  | .memory => do pure { name := e.name, kind := .memory, index := ← map.memories.remap e.index }
  | .global => do pure { name := e.name, kind := .global, index := ← map.globals.remap e.index }
  | _ => .error (.err "unsupported export kind")

/-- The loops over names (lines 857-870). -/
def encodeNames (r : Remap) (names : List (BitVec 32 × List UInt8)) :
    List (BitVec 32) → Except Fail (List (BitVec 32 × List UInt8))
  | [] => .ok []
  | i :: is =>
    match names.lookup i with
    | none => encodeNames r names is
    | some n => do
      let j ← r.remap i
      pure ((j, n) :: (← encodeNames r names is))

/-- The names of the extra functions (lines 885-893). -/
def extraNames (main : Option (List UInt8)) (state : Option (BitVec 32))
    (stackInit realloc : Option Nat) : List (BitVec 32 × List UInt8) :=
  (match realloc with
    | some k => if main = none ∨ state = none then
        [(BitVec.ofNat 32 k, reallocViaMemoryGrow)] else []
    | none => []) ++
  (match stackInit with
    | some k => [(BitVec.ofNat 32 k, allocateStack)]
    | none => [])

/-- Types, memories, tables and globals (lines 523-578). -/
def encodeItems (L : Live) : Except Fail St := do
  let s ← (liveIter L.types m.types).foldlM encodeType {}
  let s ← (liveIter L.memories m.memories).foldlM encodeMemory s
  let s ← (liveIter L.tables m.tables).foldlM encodeTable s
  (liveIter L.globals m.globals).foldlM (encodeGlobal f) s

/-- The indices of functions (lines 580-694). -/
def encodeFuncs (main : Option (List UInt8)) (L : Live) (sp state : Option (BitVec 32)) (s : St) :
    Except Fail (St × Option Nat) := do
  let live := liveIter L.funcs m.funcs
  let s ← (live.filter fun p => staysImport main p.2).foldlM (encodeImport main) s
  let s := addReallocImport main sp s
  let s ← (live.filter fun p => !staysImport main p.2).foldlM encodeLocal s
  pure (lazyInit main sp state s)

/-- The code (lines 705-778). -/
def encodeCodes (L : Live) (stackInit : Option Nat) (sp state : Option (BitVec 32)) (s : St) :
    Except Fail St := do
  let s ← (liveIter L.funcs m.funcs).foldlM (encodeCode f m stackInit) s
  let s ← addLazy stackInit sp state s
  let s ← addRealloc sp state s
  addStart stackInit sp state s

/-- `Module::encode` (lines 508-907). The globals `sp` and `allocation_state` (lines 640-641)
are looked up before the loop over imported functions, from which they are independent. -/
def encode (main : Option (List UInt8)) (L : Live) : Except Fail Out := do
  let s ← encodeItems f m L
  let sp ← findGlobal m L stackPointer
  let state ← findGlobal m L allocationState
  let (s, stackInit) ← encodeFuncs m main L sp state s
  let s ← encodeCodes f m L stackInit sp state s
  checkShape m L s.out
  let exports ← m.exports.mapM (encodeExport s.map)
  let funcNames ← encodeNames s.map.funcs m.funcNames ((liveIter L.funcs m.funcs).map (·.1))
  let globalNames ← encodeNames s.map.globals m.globalNames
    ((liveIter L.globals m.globals).map (·.1))
  pure { s.out with
    exports
    funcNames := s.out.funcNames ++ funcNames ++ extraNames main state stackInit s.reallocIndex
    globalNames }

/-! ### `run` -/

/-- `IndexMap::swap_remove` by name. -/
def swapRemove (es : List Export) (name : List UInt8) : List Export :=
  match es.findIdx? (·.name = name), es.getLast? with
  | some i, some z => (es.set i z).dropLast
  | _, _ => es

/-- `run` (lines 21-50) after `module.parse(wasm)?`. -/
def run (main : Option (List UInt8)) (required : List (List UInt8)) : Except Fail Out :=
  if required = [] then .error (.panic "assertion failed: !required.is_empty()")
  else if ¬ required.all (fun n => m.exports.any (·.name = n)) then
    .error (.err "adapter module does not have export")
  else
    let unneeded := (m.exports.map (·.name)).filter fun n => !required.contains n
    let m' := { m with exports := unneeded.foldl swapRemove m.exports }
    if m'.exports = [] then .error (.panic "assertion failed: !module.exports.is_empty()")
    else match liveness f m' with
      | .error e => .error e
      | .ok L => encode f m' main L

end Verif.Gc
