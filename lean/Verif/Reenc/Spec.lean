import Verif.Reenc.Model
import Verif.Instr.Spec
/-! What renaming the indices of a module does to instructions, operators and locals. -/
namespace Verif.Reenc.Spec
open Verif.Reader Verif.Instr Verif.Instr.Spec

/-- The index spaces of the specification, and immediates that are not indices of the module. -/
inductive Space where
  | type | func | table | memory | global | tag | data | elem
  | label | local | field | count
  deriving DecidableEq, Repr

def into (m : Maps) : Space → BitVec 32 → BitVec 32
  | .type => m.type
  | .func => m.func
  | .table => m.table
  | .memory => m.memory
  | .global => m.global
  | .tag => m.tag
  | .data => m.data
  | .elem => m.elem
  | .label | .local | .field | .count => id

/-- The index space of the immediate, from the grammar of instructions
(br labelidx, call funcidx, ref.func funcidx, call_ref typeidx, …). -/
def idxSpace : Idx → Space
  | .br => .label
  | .brIf => .label
  | .brOnNull => .label
  | .brOnNonNull => .label
  | .rethrow => .label
  | .call => .func
  | .returnCall => .func
  | .refFunc => .func
  | .callRef => .type
  | .returnCallRef => .type
  | .refGetDesc => .type
  | .throw => .tag
  | .suspend => .tag
  | .localGet => .local
  | .localSet => .local
  | .localTee => .local
  | .globalGet => .global
  | .globalSet => .global
  | .dataDrop => .data
  | .elemDrop => .elem
  | .memoryFill => .memory
  | .memoryDiscard => .memory
  | .structNew => .type
  | .structNewDefault => .type
  | .structNewDesc => .type
  | .structNewDefaultDesc => .type
  | .arrayNew => .type
  | .arrayNewDefault => .type
  | .arrayGet => .type
  | .arrayGetS => .type
  | .arrayGetU => .type
  | .arraySet => .type
  | .arrayFill => .type
  | .tableFill => .table
  | .tableSet => .table
  | .tableGet => .table
  | .tableGrow => .table
  | .tableSize => .table
  | .contNew => .type

/-- The index spaces of two immediates in the order of the binary format, which for
`array.copy`, `memory.copy` and `table.copy` is destination first. -/
def idx2Space : Idx2 → Space × Space
  | .memoryCopy => (.memory, .memory)
  | .structGet => (.type, .field)
  | .structGetS => (.type, .field)
  | .structGetU => (.type, .field)
  | .structSet => (.type, .field)
  | .arrayNewFixed => (.type, .count)
  | .arrayNewData => (.type, .data)
  | .arrayInitData => (.type, .data)
  | .arrayNewElem => (.type, .elem)
  | .arrayInitElem => (.type, .elem)
  | .arrayCopy => (.type, .type)
  | .tableCopy => (.table, .table)
  | .contBind => (.type, .type)
  | .switch => (.type, .tag)

def atomicSpace : Atomic → Space
  | .globalAtomicGet | .globalAtomicSet | .globalAtomicRmwAdd | .globalAtomicRmwSub
  | .globalAtomicRmwAnd | .globalAtomicRmwOr | .globalAtomicRmwXor | .globalAtomicRmwXchg
  | .globalAtomicRmwCmpxchg => .global
  | .tableAtomicGet | .tableAtomicSet | .tableAtomicRmwXchg | .tableAtomicRmwCmpxchg => .table
  | .arrayAtomicGet | .arrayAtomicGetS | .arrayAtomicGetU | .arrayAtomicSet | .arrayAtomicRmwAdd
  | .arrayAtomicRmwSub | .arrayAtomicRmwAnd | .arrayAtomicRmwOr | .arrayAtomicRmwXor
  | .arrayAtomicRmwXchg | .arrayAtomicRmwCmpxchg => .type

variable (m : Maps)

def renameBlock : Enc.BlockType → Enc.BlockType
  | .empty => .empty
  | .result t => .result (t.rename m.type)
  | .functionType i => .functionType (m.type i)

def renameCatch : Enc.Catch → Enc.Catch
  | .one t l => .one (m.tag t) l
  | .oneRef t l => .oneRef (m.tag t) l
  | .all l => .all l
  | .allRef l => .allRef l

def renameHandle : Enc.Handle → Enc.Handle
  | .onLabel t l => .onLabel (m.tag t) l
  | .onSwitch t => .onSwitch (m.tag t)

def renameMem (a : Enc.MemArg) : Enc.MemArg := { a with memoryIndex := m.memory a.memoryIndex }

def renameRef (t : Types.Enc.RefType) : Types.Enc.RefType :=
  { t with heapType := t.heapType.rename m.type }

/-- Every index of the instruction that refers to something of the module is renamed in its
index space; everything else stays. -/
def rename : Enc.Instr → Enc.Instr
  | .block o t => .block o (renameBlock m t)
  | .tryTable t cs => .tryTable (renameBlock m t) (cs.map (renameCatch m))
  | .idx o i => .idx o (into m (idxSpace o) i)
  | .catch_ t => .catch_ (m.tag t)
  | .memorySize i => .memorySize (m.memory i)
  | .memoryGrow i => .memoryGrow (m.memory i)
  | .idx2 o i j => .idx2 o (into m (idx2Space o).1 i) (into m (idx2Space o).2 j)
  | .callIndirect table ty => .callIndirect (m.table table) (m.type ty)
  | .returnCallIndirect table ty => .returnCallIndirect (m.table table) (m.type ty)
  | .memoryInit mem data => .memoryInit (m.memory mem) (m.data data)
  | .tableInit table elem => .tableInit (m.table table) (m.elem elem)
  | .mem o a => .mem o (renameMem m a)
  | .memLane o a l => .memLane o (renameMem m a) l
  | .heap o h => .heap o (h.rename m.type)
  | .cast o d a b => .cast o d (renameRef m a) (renameRef m b)
  | .atomic o x i => .atomic o x (into m (atomicSpace o) i)
  | .atomic2 o x i j => .atomic2 o x (m.type i) j
  | .typedSelect t => .typedSelect (t.rename m.type)
  | .typedSelectMulti ts => .typedSelectMulti (ts.map (·.rename m.type))
  | .resume t hs => .resume (m.type t) (hs.map (renameHandle m))
  | .resumeThrow t e hs => .resumeThrow (m.type t) (m.tag e) (hs.map (renameHandle m))
  | .resumeThrowRef t hs => .resumeThrowRef (m.type t) (hs.map (renameHandle m))
  | i => i

/-- The second operator is the first with its indices renamed. -/
def OpRenamed (op op' : Operator) : Prop := ∃ i, Corr i op ∧ Corr (rename m i) op'

/-- The same for constant expressions: each has operators up to a final `end` at the end of its
bytes. -/
def ConstRenamed (f : Instr.Features) (c c' : Items.ConstExpr) : Prop :=
  ∃ (ops ops' : List Operator) (s s' : OperatorsReader),
    (OperatorsReader.new c.reader).collect f = .ok (ops, s) ∧ s.finish = .ok () ∧
    (OperatorsReader.new c'.reader).collect f = .ok (ops', s') ∧ s'.finish = .ok () ∧
    List.Forall₂ (OpRenamed m) ops ops'

/-- The same for a declaration of locals. -/
def LocalRenamed (d d' : BitVec 32 × Types.ValType) : Prop :=
  d'.1 = d.1 ∧ ∃ e : Types.Enc.ValType, d.2.Is e ∧ d'.2.Is (e.rename m.type)

/-- The renaming keeps indices of types below the limit of wasmparser's packed references, and
does not rename memory 0 or table 0 where the features leave no room for another index. -/
structure MapsFit (f : Instr.Features) : Prop where
  type : ∀ i : BitVec 32, i.toNat < 2 ^ 20 → (m.type i).toNat < 2 ^ 20
  memory : f.multiMemory ∨ m.memory 0 = 0
  table : f.callIndirectOverlong ∨ m.table 0 = 0

/-- First the one, then the other. -/
def then_ (m m' : Maps) : Maps :=
  { type := m'.type ∘ m.type, func := m'.func ∘ m.func, table := m'.table ∘ m.table
    memory := m'.memory ∘ m.memory, global := m'.global ∘ m.global, tag := m'.tag ∘ m.tag
    data := m'.data ∘ m.data, elem := m'.elem ∘ m.elem }

/-- Equal operators, except that a `br_table` keeps the position and the encoding of its
targets, which may differ. -/
def OpEq : Operator → Operator → Prop
  | .brTable t, .brTable t' =>
    t.cnt = t'.cnt ∧ t.default = t'.default ∧ ∃ ls, t.targets = .ok ls ∧ t'.targets = .ok ls
  | op, op' => op = op'

end Verif.Reenc.Spec
