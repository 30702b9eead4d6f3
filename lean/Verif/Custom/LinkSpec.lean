import Verif.Custom.Spec
/-! Branch hints, `linking`, `reloc.*` and `dylink.0`: grammars and what a user of the readers
sees. -/
namespace Verif.Custom
open Verif.Reader Verif.Leb Verif.Items

/-- `G*`. -/
def Seq (G : Grammar α) : Grammar (List α) := fun xs b =>
  ∃ bs : List (List UInt8), b = bs.flatten ∧ List.Forall₂ G xs bs

/-! ### Branch hints -/

/-- `branchhint ::= u32 0x01 (0x00 | 0x01)`. -/
inductive IsHint : Grammar Hint
  | mk {h b} : U32 h.funcOffset b → IsHint h (b ++ [1, if h.taken then 1 else 0])

/-- `funchints ::= funcidx vec(branchhint)`. -/
inductive IsHints : Grammar (BitVec 32 × List Hint)
  | mk {f b1 b2} : U32 f.1 b1 → Vec IsHint f.2 b2 → IsHints f (b1 ++ b2)

/-- All the functions of the section, with all their hints. -/
def hintsRead (r : Reader) (l : List (BitVec 32 × List Hint)) : Prop :=
  ∃ s fs, SectionLimited.new r = .ok s ∧ s.collect readHintFunction = .ok fs ∧
    List.Forall₂ (fun f e => f.func = e.1 ∧ f.hints.collect readHint = .ok e.2) fs l

/-- The arguments of `function_hints` for a function with its hints. -/
def hintsArgs (f : BitVec 32 × List Hint) : BitVec 32 × List (BitVec 32 × BitVec 32) :=
  (f.1, f.2.map fun h => (h.funcOffset, if h.taken then 1 else 0))

/-! ### `linking` -/

/-- Bit 4 of the flags. -/
def Defined (flags : BitVec 32) : Prop := flags.toNat.testBit 4 = false
/-- A name is there if the symbol is defined or if bit 6 of the flags is set. -/
def Named (flags : BitVec 32) : Prop := Defined flags ∨ flags.toNat.testBit 6 = true

/-- Something that is there under a condition. -/
inductive Opt (c : Prop) (G : Grammar α) : Grammar (Option α)
  | none : ¬ c → Opt c G none []
  | some {x b} : c → G x b → Opt c G (some x) b

/-- The kinds of symbols. -/
def kindByte : Indexed → UInt8
  | .func => 0
  | .global => 2
  | .event => 4
  | .table => 5

/-- Where a data symbol is defined. -/
inductive IsDataDef : Grammar DataDef
  | mk {d b1 b2 b3} : U32 d.index b1 → U32 d.offset b2 → U32 d.size b3 → IsDataDef d (b1 ++ b2 ++ b3)

/-- `syminfo` of Linking.md. -/
inductive IsSymbol : Grammar Symbol
  | indexed {k flags index name b1 b2 b3} : U32 flags b1 → U32 index b2 →
      Opt (Named flags) Name name b3 →
      IsSymbol (.indexed k flags index name) (kindByte k :: b1 ++ b2 ++ b3)
  | data {flags name d b1 b2 b3} : U32 flags b1 → Name name b2 →
      Opt (Defined flags) IsDataDef d b3 → IsSymbol (.data flags name d) (1 :: b1 ++ b2 ++ b3)
  | section {flags sect b1 b2} : U32 flags b1 → U32 sect b2 →
      IsSymbol (.section flags sect) (3 :: b1 ++ b2)

inductive IsSegment : Grammar Segment
  | mk {s b1 b2 b3} : Name s.name b1 → U32 s.alignment b2 → U32 s.flags b3 →
      IsSegment s (b1 ++ b2 ++ b3)

inductive IsInit : Grammar (BitVec 32 × BitVec 32)
  | mk {i b1 b2} : U32 i.1 b1 → U32 i.2 b2 → IsInit i (b1 ++ b2)

def comdatByte : ComdatKind → UInt8
  | .data => 0
  | .func => 1
  | .global => 2
  | .event => 3
  | .table => 4
  | .section => 5

inductive IsComdatSymbol : Grammar (ComdatKind × BitVec 32)
  | mk {c b} : U32 c.2 b → IsComdatSymbol c (comdatByte c.1 :: b)

inductive IsComdat : Grammar (List UInt8 × BitVec 32 × List (ComdatKind × BitVec 32))
  | mk {c b1 b2 b3} : Name c.1 b1 → U32 c.2.1 b2 → Vec IsComdatSymbol c.2.2 b3 →
      IsComdat c (b1 ++ b2 ++ b3)

/-- The contents of a subsection. -/
inductive Sub where
  | segments (l : List Segment)
  | inits (l : List (BitVec 32 × BitVec 32))
  | comdats (l : List (List UInt8 × BitVec 32 × List (ComdatKind × BitVec 32)))
  | symbols (l : List Symbol)
  | unknown (id : UInt8) (data : List UInt8)
  deriving DecidableEq, Repr

inductive IsPayload : UInt8 → Grammar Sub
  | segments {l b} : Vec IsSegment l b → IsPayload 5 (.segments l) b
  | inits {l b} : Vec IsInit l b → IsPayload 6 (.inits l) b
  | comdats {l b} : Vec IsComdat l b → IsPayload 7 (.comdats l) b
  | symbols {l b} : Vec IsSymbol l b → IsPayload 8 (.symbols l) b
  | unknown {id b} : id ∉ [5, 6, 7, 8] → IsPayload id (.unknown id b) b

/-- A subsection: its identifier, its size, its contents. -/
inductive InSub (P : UInt8 → Grammar α) : Grammar α
  | mk {id : UInt8} {x n p} : id < 128 → ULeb 32 n p.length → P id x p → InSub P x (id :: n ++ p)

/-- `linking ::= 2:u32 subsection*`. -/
inductive IsLinking : Grammar (List Sub)
  | mk {l b1 b2} : ULeb 32 b1 2 → Seq (InSub IsPayload) l b2 → IsLinking l (b1 ++ b2)

/-- All the items of a subsection. -/
inductive holds : Linking → Sub → Prop
  | segments {s l} : s.collect readSegment = .ok l → holds (.items .segmentInfo s) (.segments l)
  | inits {s l} : s.collect readInitFunc = .ok l → holds (.items .initFuncs s) (.inits l)
  | comdats {s cs l} : s.collect readComdat = .ok cs →
      List.Forall₂ (fun c e => c.name = e.1 ∧ c.flags = e.2.1 ∧
        c.symbols.collect readComdatSymbol = .ok e.2.2) cs l →
      holds (.items .comdatInfo s) (.comdats l)
  | symbols {s l} : s.collect readSymbol = .ok l → holds (.items .symbolTable s) (.symbols l)
  | unknown {id data range} : holds (.unknown id data range) (.unknown id data)

/-- All the subsections with all their items. -/
def linkingRead (r : Reader) (l : List Sub) : Prop :=
  ∃ r' ls, readLinking r = .ok r' ∧ subs linkingFromReader r' = .ok ls ∧ List.Forall₂ holds ls l

/-- The method of the builder for a symbol; events and sections have none. -/
def addSymbol (b : Enc.Builder) : Symbol → Option Enc.Builder
  | .indexed k flags index name => addIndexed b k flags index name
  | .data flags name d => addData b flags name d
  | .section .. => none

/-- There is a method, the name and the definition are given if and only if the flags say so. -/
def Symbol.Fits : Symbol → Prop
  | .indexed k flags _ name => k ≠ .event ∧ (name.isSome ↔ Named flags) ∧ ∀ n ∈ name, Str n
  | .data flags name d => Str name ∧ (d.isSome ↔ Defined flags)
  | .section .. => False

/-- A section with some symbol tables; it panics if a table is too large. -/
def buildLinking (tables : List (List Symbol)) : Option (List UInt8) :=
  tables.foldlM (fun bytes t => do addTable bytes (← calls addSymbol t)) newLinking

/-! ### `reloc.*` -/

/-- What a relocation is about. -/
inductive Target where
  | functionIndex | tableIndex | memoryAddr | typeIndex | globalIndex | functionOffset
  | sectionOffset | eventIndex | tableNumber
  deriving DecidableEq, Repr

/-- How the number at the place of the relocation is encoded. -/
inductive Form where
  | leb32 | sleb32 | int32 | leb64 | sleb64 | int64
  deriving DecidableEq, Repr

/-- The table of Linking.md and LLVM's WasmRelocs.def. -/
def relocTable : List (RelocType × Target × Form) :=
  [(.functionIndexLeb, .functionIndex, .leb32), (.tableIndexSleb, .tableIndex, .sleb32),
   (.tableIndexI32, .tableIndex, .int32), (.memoryAddrLeb, .memoryAddr, .leb32),
   (.memoryAddrSleb, .memoryAddr, .sleb32), (.memoryAddrI32, .memoryAddr, .int32),
   (.typeIndexLeb, .typeIndex, .leb32), (.globalIndexLeb, .globalIndex, .leb32),
   (.functionOffsetI32, .functionOffset, .int32), (.sectionOffsetI32, .sectionOffset, .int32),
   (.eventIndexLeb, .eventIndex, .leb32), (.memoryAddrRelSleb, .memoryAddr, .sleb32),
   (.tableIndexRelSleb, .tableIndex, .sleb32), (.globalIndexI32, .globalIndex, .int32),
   (.memoryAddrLeb64, .memoryAddr, .leb64), (.memoryAddrSleb64, .memoryAddr, .sleb64),
   (.memoryAddrI64, .memoryAddr, .int64), (.memoryAddrRelSleb64, .memoryAddr, .sleb64),
   (.tableIndexSleb64, .tableIndex, .sleb64), (.tableIndexI64, .tableIndex, .int64),
   (.tableNumberLeb, .tableNumber, .leb32), (.memoryAddrTlsSleb, .memoryAddr, .sleb32),
   (.functionOffsetI64, .functionOffset, .int64), (.memoryAddrLocrelI32, .memoryAddr, .int32),
   (.tableIndexRelSleb64, .tableIndex, .sleb64), (.memoryAddrTlsSleb64, .memoryAddr, .sleb64),
   (.functionIndexI32, .functionIndex, .int32)]

/-- A padded LEB128 number of 32 bits has five bytes, one of 64 bits has ten. -/
def Form.size : Form → Nat
  | .leb32 | .sleb32 => 5
  | .int32 => 4
  | .leb64 | .sleb64 => 10
  | .int64 => 8

def Form.wide : Form → Bool
  | .leb64 | .sleb64 | .int64 => true
  | _ => false

/-- Relocations of addresses and offsets have an addend, as wide as the number. -/
def addendOf (t : Target) (f : Form) : AddendKind :=
  if t = .memoryAddr ∨ t = .functionOffset ∨ t = .sectionOffset then
    if f.wide then .addend64 else .addend32
  else .none

inductive IsAddend : AddendKind → Grammar (BitVec 64)
  | none : IsAddend .none 0 []
  | addend32 {v b} : SLeb 32 b v.toInt → IsAddend .addend32 v b
  | addend64 {v b} : SLeb 64 b v.toInt → IsAddend .addend64 v b

/-- `relocation_entry` of Linking.md; the type is the place in the table. -/
inductive IsReloc : Grammar Reloc
  | mk {e : Reloc} {n : UInt8} {t : Target} {f : Form} {b1 b2 b3} :
      relocTable[n.toNat]? = some (e.ty, t, f) → U32 e.offset b1 → U32 e.index b2 →
      IsAddend (addendOf t f) e.addend b3 → IsReloc e (n :: b1 ++ b2 ++ b3)

/-- `reloc ::= section:u32 entries:vec(relocation_entry)`. -/
inductive IsRelocs : Grammar (BitVec 32 × List Reloc)
  | mk {x b1 b2} : U32 x.1 b1 → Vec IsReloc x.2 b2 → IsRelocs x (b1 ++ b2)

/-- The section and all the entries. -/
def relocsRead (r : Reader) (x : BitVec 32 × List Reloc) : Prop :=
  ∃ s, readRelocs r = .ok (x.1, s) ∧ s.collect readReloc = .ok x.2

end Verif.Custom
