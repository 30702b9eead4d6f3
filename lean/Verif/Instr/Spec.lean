import Verif.Instr.Stack
import Verif.Instr.EncModel
import Verif.Types.Spec
/-! What reading back an instruction means. -/
namespace Verif.Instr.Spec
open Verif.Reader Verif.Types Verif.Instr

/-- Number of bits that the access reads or writes. -/
def accessBits : Mem → Nat
  | .i32Load8S | .i32Load8U | .i64Load8S | .i64Load8U | .i32Store8 | .i64Store8
  | .v128Load8Splat | .i32AtomicLoad8U | .i64AtomicLoad8U | .i32AtomicStore8 | .i64AtomicStore8
  | .i32AtomicRmw8AddU | .i64AtomicRmw8AddU | .i32AtomicRmw8SubU | .i64AtomicRmw8SubU
  | .i32AtomicRmw8AndU | .i64AtomicRmw8AndU | .i32AtomicRmw8OrU | .i64AtomicRmw8OrU
  | .i32AtomicRmw8XorU | .i64AtomicRmw8XorU | .i32AtomicRmw8XchgU | .i64AtomicRmw8XchgU
  | .i32AtomicRmw8CmpxchgU | .i64AtomicRmw8CmpxchgU => 8
  | .i32Load16S | .i32Load16U | .i64Load16S | .i64Load16U | .i32Store16 | .i64Store16
  | .v128Load16Splat | .i32AtomicLoad16U | .i64AtomicLoad16U | .i32AtomicStore16
  | .i64AtomicStore16 | .i32AtomicRmw16AddU | .i64AtomicRmw16AddU | .i32AtomicRmw16SubU
  | .i64AtomicRmw16SubU | .i32AtomicRmw16AndU | .i64AtomicRmw16AndU | .i32AtomicRmw16OrU
  | .i64AtomicRmw16OrU | .i32AtomicRmw16XorU | .i64AtomicRmw16XorU | .i32AtomicRmw16XchgU
  | .i64AtomicRmw16XchgU | .i32AtomicRmw16CmpxchgU | .i64AtomicRmw16CmpxchgU => 16
  | .i32Load | .f32Load | .i64Load32S | .i64Load32U | .i32Store | .f32Store | .i64Store32
  | .v128Load32Splat | .v128Load32Zero | .memoryAtomicNotify | .memoryAtomicWait32
  | .i32AtomicLoad | .i64AtomicLoad32U | .i32AtomicStore | .i64AtomicStore32 | .i32AtomicRmwAdd
  | .i64AtomicRmw32AddU | .i32AtomicRmwSub | .i64AtomicRmw32SubU | .i32AtomicRmwAnd
  | .i64AtomicRmw32AndU | .i32AtomicRmwOr | .i64AtomicRmw32OrU | .i32AtomicRmwXor
  | .i64AtomicRmw32XorU | .i32AtomicRmwXchg | .i64AtomicRmw32XchgU | .i32AtomicRmwCmpxchg
  | .i64AtomicRmw32CmpxchgU => 32
  | .i64Load | .f64Load | .i64Store | .f64Store | .v128Load8x8S | .v128Load8x8U
  | .v128Load16x4S | .v128Load16x4U | .v128Load32x2S | .v128Load32x2U | .v128Load64Splat
  | .v128Load64Zero | .memoryAtomicWait64 | .i64AtomicLoad | .i64AtomicStore | .i64AtomicRmwAdd
  | .i64AtomicRmwSub | .i64AtomicRmwAnd | .i64AtomicRmwOr | .i64AtomicRmwXor
  | .i64AtomicRmwXchg | .i64AtomicRmwCmpxchg => 64
  | .v128Load | .v128Store => 128

/-- Number of bits of the lane that is read or written. -/
def laneBits : MemLane → Nat
  | .v128Load8Lane | .v128Store8Lane => 8
  | .v128Load16Lane | .v128Store16Lane => 16
  | .v128Load32Lane | .v128Store32Lane => 32
  | .v128Load64Lane | .v128Store64Lane => 64

/-! ### The operator that corresponds to an instruction -/

def BlockCorr : Enc.BlockType → BlockType → Prop
  | .empty, .empty => True
  | .result e, .type v => v.Is e
  | .functionType i, .funcType j => i = j
  | _, _ => False

def OrderCorr : Enc.Ordering → Ordering → Prop
  | .acqRel, .acqRel | .seqCst, .seqCst => True
  | _, _ => False

def CatchCorr : Enc.Catch → Catch → Prop
  | .one t l, .one t' l' | .oneRef t l, .oneRef t' l' => t = t' ∧ l = l'
  | .all l, .all l' | .allRef l, .allRef l' => l = l'
  | _, _ => False

def HandleCorr : Enc.Handle → Handle → Prop
  | .onLabel t l, .onLabel t' l' => t = t' ∧ l = l'
  | .onSwitch t, .onSwitch t' => t = t'
  | _, _ => False

/-- Same alignment, offset and memory. The maximal alignment is not part of the binary
format: it is the one at which `2 ^ maxAlign` bytes are `bits` bits. -/
def MemCorr (bits : Nat) (m : Enc.MemArg) (m' : MemArg) : Prop :=
  m'.align.toNat = m.align.toNat ∧ m'.offset = m.offset ∧ m'.memory = m.memoryIndex ∧
    8 * 2 ^ m'.maxAlign.toNat = bits

def RefCorr (e : Types.Enc.RefType) (t : RefType) : Prop :=
  RefType.new e.nullable e.heapType.denote = some t

/-- The operator has the same name and the same immediates under the names of its fields. -/
def Corr : Enc.Instr → Operator → Prop
  | .plain o, .plain o' => o = o'
  | .else_, .else_ | .end_, .end_ | .catchAll, .catchAll | .atomicFence, .atomicFence => True
  | .block o t, .block o' t' => o = o' ∧ BlockCorr t t'
  | .tryTable t cs, .tryTable t' cs' => BlockCorr t t' ∧ List.Forall₂ CatchCorr cs cs'
  | .idx o i, .idx o' i' => o = o' ∧ i = i'
  | .catch_ t, .catch_ t' => t = t'
  | .delegate l, .delegate l' => l = l'
  | .memorySize i, .memorySize i' | .memoryGrow i, .memoryGrow i' => i = i'
  | .idx2 o i j, .idx2 o' i' j' => o = o' ∧ i = i' ∧ j = j'
  | .callIndirect table type, .callIndirect type' table' => table = table' ∧ type = type'
  | .returnCallIndirect table type, .returnCallIndirect type' table' =>
    table = table' ∧ type = type'
  | .memoryInit m data, .memoryInit data' m' => m = m' ∧ data = data'
  | .tableInit table elem, .tableInit elem' table' => table = table' ∧ elem = elem'
  | .brTable ls l, .brTable t => t.targets = .ok ls ∧ t.default = l ∧ t.cnt = ls.length
  | .mem o m, .mem o' m' => o = o' ∧ MemCorr (accessBits o) m m'
  | .memLane o m l, .memLane o' m' l' => o = o' ∧ MemCorr (laneBits o) m m' ∧ l = l'
  | .lane o l, .lane o' l' => o = o' ∧ l = l'
  | .i8x16Shuffle ls, .i8x16Shuffle ls' => ls = ls'
  | .heap o h, .heap o' h' => o = o' ∧ h.denote = h'
  | .cast o d a b, .cast o' d' a' b' => o = o' ∧ d = d' ∧ RefCorr a a' ∧ RefCorr b b'
  | .atomic o x i, .atomic o' x' i' => o = o' ∧ OrderCorr x x' ∧ i = i'
  | .atomic2 o x i j, .atomic2 o' x' i' j' => o = o' ∧ OrderCorr x x' ∧ i = i' ∧ j = j'
  | .i32Const v, .i32Const v' | .f32Const v, .f32Const v' => v = v'
  | .i64Const v, .i64Const v' | .f64Const v, .f64Const v' => v = v'
  | .v128Const v, .v128Const bs => bs.length = 16 ∧ leValue bs = v.toNat
  | .typedSelect e, .typedSelect v => v.Is e
  | .typedSelectMulti es, .typedSelectMulti vs => List.Forall₂ ValType.Is vs es
  | .resume t hs, .resume t' hs' | .resumeThrowRef t hs, .resumeThrowRef t' hs' =>
    t = t' ∧ List.Forall₂ HandleCorr hs hs'
  | .resumeThrow t e hs, .resumeThrow t' e' hs' =>
    t = t' ∧ e = e' ∧ List.Forall₂ HandleCorr hs hs'
  | _, _ => False

/-! ### What wasmparser accepts: its limits, the enabled features, and the control frame -/

def BlockFits : Enc.BlockType → Prop
  | .result e => e.Fits
  | _ => True

/-- The alignment fits the bits left for it, other memories need multi-memory, offsets from
2^32 on need memory64. -/
def MemFits (f : Features) (m : Enc.MemArg) : Prop :=
  m.align.toNat < (if f.multiMemory then 64 else 32) ∧
    (f.multiMemory ∨ m.memoryIndex = 0) ∧ (f.memory64 ∨ m.offset.toNat < 2 ^ 32)

/-- Limits and features. -/
def Fits (f : Features) : Enc.Instr → Prop
  | .block o t => BlockFits t ∧ (o = .try_ → f.legacyExceptions)
  | .catchAll | .catch_ _ => f.legacyExceptions
  | .tryTable t cs => BlockFits t ∧ cs.length ≤ 10000
  | .memorySize i | .memoryGrow i => f.multiMemory ∨ i = 0
  | .callIndirect table _ => f.callIndirectOverlong ∨ table = 0
  | .brTable ls _ => ls.length ≤ 7654321
  | .mem _ m | .memLane _ m _ => MemFits f m
  | .i8x16Shuffle ls => ls.length = 16
  | .heap _ h => match h with
    | .concrete i => i.toNat < 2 ^ 20
    | _ => True
  | .cast _ _ a b => a.heapType.denote.Fits ∧ b.heapType.denote.Fits
  | .typedSelect e => e.Fits
  | .typedSelectMulti es => es.length ≤ 10 ∧ es.length ≠ 1 ∧ ∀ e ∈ es, e.Fits
  | .resume _ hs | .resumeThrow _ _ hs | .resumeThrowRef _ hs => hs.length ≤ 10000
  | _ => True

/-! ### Nesting -/

/-- The part an instruction plays in the block structure. -/
inductive Tok where
  | opens | opensIf | else_ | opensTry | catch_ | catchAll | delegate | end_ | other
  deriving DecidableEq, Repr

def tok : Enc.Instr → Tok
  | .block .block _ | .block .loop _ | .tryTable .. => .opens
  | .block .if_ _ => .opensIf
  | .block .try_ _ => .opensTry
  | .else_ => .else_
  | .catch_ _ => .catch_
  | .catchAll => .catchAll
  | .delegate _ => .delegate
  | .end_ => .end_
  | _ => .other

def tokOp : Operator → Tok
  | .block .block _ | .block .loop _ | .tryTable .. => .opens
  | .block .if_ _ => .opensIf
  | .block .try_ _ => .opensTry
  | .else_ => .else_
  | .catch_ _ => .catch_
  | .catchAll => .catchAll
  | .delegate _ => .delegate
  | .end_ => .end_
  | _ => .other

/-- The grammar of instruction sequences: `Body true` are the sequences `instr*` of the binary
format, `Body false` what may follow the body of a legacy `try` up to its `end`. -/
inductive Body : Bool → List Tok → Prop
  | nil : Body true []
  | other {rest} : Body true rest → Body true (.other :: rest)
  | block {b rest} : Body true b → Body true rest →
      Body true (.opens :: (b ++ .end_ :: rest))
  | if_ {b rest} : Body true b → Body true rest →
      Body true (.opensIf :: (b ++ .end_ :: rest))
  | ifElse {b e rest} : Body true b → Body true e → Body true rest →
      Body true (.opensIf :: (b ++ .else_ :: (e ++ .end_ :: rest)))
  | try_ {b cs rest} : Body true b → Body false cs → Body true rest →
      Body true (.opensTry :: (b ++ (cs ++ rest)))
  | delegate {b rest} : Body true b → Body true rest →
      Body true (.opensTry :: (b ++ .delegate :: rest))
  | end_ : Body false [.end_]
  | catch_ {b cs} : Body true b → Body false cs → Body false (.catch_ :: (b ++ cs))
  | catchAll {b} : Body true b → Body false (.catchAll :: (b ++ [.end_]))

/-- `expr ::= instr* end`. -/
def Expr (ts : List Tok) : Prop := ∃ b, Body true b ∧ ts = b ++ [.end_]

/-- The frame in which the instruction is read allows it. -/
def FrameOk (k : FrameKind) (t : Tok) : Prop :=
  (t = .else_ → k = .if_) ∧ (t = .catch_ ∨ t = .catchAll → k = .legacyTry ∨ k = .legacyCatch) ∧
    (t = .delegate → k = .legacyTry)

/-! ### Ambiguity -/

/-- Instructions with an encoding of their own: bit 6 of the alignment is clear (it marks a
memory index), `typed_select_multi` is not given exactly one type, and there are 16 shuffle
lanes (their Rust type is `[Lane; 16]`). -/
def Unambiguous : Enc.Instr → Prop
  | .mem _ m | .memLane _ m _ => m.align.getLsbD 6 = false
  | .typedSelectMulti ts => ts.length ≠ 1
  | .i8x16Shuffle ls => ls.length = 16
  | _ => True

end Verif.Instr.Spec
