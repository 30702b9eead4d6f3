import Verif.Expand.Model

/-!
# Text format: name resolution (`crates/wast/src/core/resolve/names.rs`)

All identifiers of a module are replaced by indices: first everything that is
declared is numbered, then all references are looked up.
-/

namespace Verif.Resolve

open Verif.Expand

/-- How resolution fails: the errors of the code, or a panic. -/
inductive Err where
  | duplicate
  | unknown
  | mismatch
  | label
  | importOrder
  | panic
deriving DecidableEq, Repr

abbrev M := Except Err

/-- `Namespace`, `crates/wast/src/names.rs:5-9`: the map is a list. -/
structure Namespace where
  names : List (Id × Nat)
  count : Nat
deriving DecidableEq, Repr

/-- `Namespace::default`, `crates/wast/src/names.rs:5`. -/
def Namespace.empty : Namespace := ⟨[], 0⟩

/-- `HashMap::get` of the names. -/
def Namespace.get (ns : Namespace) (x : Id) : Option Nat :=
  (ns.names.find? (fun e => e.1 = x)).map (·.2)

/-- `Namespace::register_specific`, `crates/wast/src/names.rs:30-41`. -/
def Namespace.registerSpecific (ns : Namespace) (x : Id) (n : Nat) : M Namespace :=
  if (ns.get x).isSome then .error .duplicate
  else .ok { ns with names := (x, n) :: ns.names }

/-- `Namespace::register` and `Namespace::alloc`, `crates/wast/src/names.rs:12-28`;
the counter does not wrap. -/
def Namespace.register (ns : Namespace) : Option Id → M Namespace
  | none => .ok { ns with count := ns.count + 1 }
  | some x =>
    if (ns.get x).isSome then .error .duplicate
    else .ok { names := (x, ns.count) :: ns.names, count := ns.count + 1 }

/-- `resolve_error`, `crates/wast/src/names.rs:56-65`: panics on generated
identifiers. -/
def resolveError (x : Id) : Err := if x.gen = 0 then .unknown else .panic

/-- `Namespace::resolve`, `crates/wast/src/names.rs:43-53`: the number is both
returned and written back as an index. -/
def Namespace.resolve (ns : Namespace) : Index → M Nat
  | .num n => .ok n
  | .id x =>
    match ns.get x with
    | some n => .ok n
    | none => .error (resolveError x)

/-- `Resolver`, `crates/wast/src/core/resolve/names.rs:16-32`, with `TypeInfo`,
`:767-773` (`none` is `Other`). -/
structure Resolver where
  ns : Space → Namespace
  fields : Nat → Option Namespace
  typeInfo : List (Option Key)

/-- `Resolver::default`. -/
def Resolver.empty : Resolver := ⟨fun _ => .empty, fun _ => none, []⟩

/-- An item is given the next index of its space, for example
`self.funcs.register(i.id, "func")`, `crates/wast/src/core/resolve/names.rs:89-127`. -/
def registerItem (s : Space) (id : Option Id) (r : Resolver) : M Resolver :=
  match (r.ns s).register id with
  | .ok ns => .ok { r with ns := fun s' => if s' = s then ns else r.ns s' }
  | .error e => .error e

/-- The loop over the fields of a structure,
`crates/wast/src/core/resolve/names.rs:58-66`. -/
def registerFields : Nat → List (Option Id × Storage) → Option Namespace → M (Option Namespace)
  | _, [], ns => .ok ns
  | i, (none, _) :: fs, ns => registerFields (i + 1) fs ns
  | i, (some x, _) :: fs, ns =>
    match (ns.getD .empty).registerSpecific x i with
    | .ok ns' => registerFields (i + 1) fs (some ns')
    | .error e => .error e

/-- The signature recorded for a type, `crates/wast/src/core/resolve/names.rs:74-81`. -/
def infoOf (t : TypeDef) : Option Key :=
  match t.kind with
  | .func f => some f.key
  | _ => none

/-- The named fields of a type, `crates/wast/src/core/resolve/names.rs:53-69`. -/
def fieldsOf (t : TypeDef) : List (Option Id × Storage) :=
  match t.kind with
  | .struct fs => fs
  | _ => []

/-- `Resolver::register_type`, `crates/wast/src/core/resolve/names.rs:50-84`. -/
def registerType (t : TypeDef) (r : Resolver) : M Resolver :=
  let index := (r.ns .type).count
  match registerItem .type t.id r with
  | .error e => .error e
  | .ok r =>
    match registerFields 0 (fieldsOf t) (r.fields index) with
    | .error e => .error e
    | .ok ns =>
      .ok { r with fields := fun i => if i = index then ns else r.fields i, typeInfo := r.typeInfo ++ [infoOf t] }

/-- A `for` loop with `?` that changes the resolver. -/
def forM {α : Type} (f : α → Resolver → M Resolver) : List α → Resolver → M Resolver
  | [], r => .ok r
  | a :: as, r =>
    match f a r with
    | .ok r => forM f as r
    | .error e => .error e

/-- The space of an import, `crates/wast/src/core/resolve/names.rs:90-98`. -/
def kindSpace : ItemKind → Space
  | .func _ _ => .func
  | .memory => .memory
  | .table _ => .table
  | .global _ => .global
  | .tag _ => .tag

/-- `Resolver::register`, `crates/wast/src/core/resolve/names.rs:86-129`. -/
def register : Field → Resolver → M Resolver
  | .import sigs, r => forM (fun s => registerItem (kindSpace s.kind) s.id) sigs r
  | .global id _ _, r => registerItem .global id r
  | .memory id, r => registerItem .memory id r
  | .func id _ _, r => registerItem .func id r
  | .table id _ _, r => registerItem .table id r
  | .type t, r => registerType t r
  | .recGroup ts, r => forM registerType ts r
  | .elem id _ _, r => registerItem .elem id r
  | .data id _, r => registerItem .data id r
  | .tag id _, r => registerItem .tag id r
  | .export _ _, r => .ok r
  | .start _, r => .ok r
  | .custom, r => .ok r

/-- `Resolver::resolve`, `crates/wast/src/core/resolve/names.rs:300-309`, and the
direct lookups of segments; the index is replaced by its number. -/
def resolve (r : Resolver) (s : Space) (i : Index) : M Index :=
  (r.ns s).resolve i >>= fun n => .ok (.num n)

/-- A `for` loop with `?` that changes the elements. -/
def eachM {α β : Type} (f : α → M β) : List α → M (List β)
  | [] => .ok []
  | a :: as =>
    match f a with
    | .error e => .error e
    | .ok b =>
      match eachM f as with
      | .error e => .error e
      | .ok bs => .ok (b :: bs)

/-- An `if let Some(x)` with `?` that changes `x`. -/
def optM {α β : Type} (f : α → M β) : Option α → M (Option β)
  | none => .ok none
  | some a =>
    match f a with
    | .error e => .error e
    | .ok b => .ok (some b)

/-- `resolve_heaptype`, `crates/wast/src/core/resolve/names.rs:892-900`. -/
def resolveHeap (r : Resolver) : Heap → M Heap
  | .abs s k => .ok (.abs s k)
  | .concrete i =>
    resolve r .type i >>= fun i => .ok (.concrete i)
  | .exact i =>
    resolve r .type i >>= fun i => .ok (.exact i)

/-- `resolve_valtype` and `resolve_reftype`,
`crates/wast/src/core/resolve/names.rs:881-890`. -/
def resolveVal (r : Resolver) : ValTy → M ValTy
  | .num k => .ok (.num k)
  | .ref n h =>
    resolveHeap r h >>= fun h => .ok (.ref n h)

/-- `resolve_storagetype`, `crates/wast/src/core/resolve/names.rs:902-907`. -/
def resolveStorage (r : Resolver) : Storage → M Storage
  | .packed k => .ok (.packed k)
  | .val v =>
    resolveVal r v >>= fun v => .ok (.val v)

/-- A loop over pairs of which the second component is resolved. -/
def sndM {α β : Type} (f : β → M β) (p : α × β) : M (α × β) :=
  match f p.2 with
  | .ok b => .ok (p.1, b)
  | .error e => .error e

/-- `resolve_type_func`, `crates/wast/src/core/resolve/names.rs:870-879`. -/
def resolveFunc (r : Resolver) (f : FuncTy) : M FuncTy :=
  eachM (sndM (resolveVal r)) f.params >>= fun ps =>
    eachM (resolveVal r) f.results >>= fun rs => .ok ⟨ps, rs⟩

/-- The kinds of `resolve_type_def`, `crates/wast/src/core/resolve/names.rs:854-867`. -/
def resolveKind (r : Resolver) : Kind → M Kind
  | .func f => resolveFunc r f >>= fun f => .ok (.func f)
  | .struct fs => eachM (sndM (resolveStorage r)) fs >>= fun fs => .ok (.struct fs)
  | .array s => resolveStorage r s >>= fun s => .ok (.array s)
  | .cont i => resolve r .type i >>= fun i => .ok (.cont i)

/-- `resolve_type_def`, `crates/wast/src/core/resolve/names.rs:844-868`. -/
def resolveTypeDef (r : Resolver) (t : TypeDef) : M TypeDef :=
  optM (resolve r .type) t.parent >>= fun parent =>
    optM (resolve r .type) t.descriptor >>= fun descriptor =>
      optM (resolve r .type) t.describes >>= fun describes =>
        resolveKind r t.kind >>= fun kind => .ok { t with kind, parent, descriptor, describes }

/-- Resolution whose error is dropped, `crates/wast/src/core/resolve/names.rs:807-808`:
what cannot be resolved stays. A panic would not be dropped; that there is none
is `resolve_no_panic_compare`. -/
def tryVal (r : Resolver) (v : ValTy) : ValTy :=
  match resolveVal r v with
  | .ok v => v
  | .error _ => v

/-- The closure `types_not_equal`, `crates/wast/src/core/resolve/names.rs:804-810`. -/
def typesNotEqual (r : Resolver) (a b : ValTy) : Bool := tryVal r a ≠ tryVal r b

/-- `check_matches`, `crates/wast/src/core/resolve/names.rs:781-831`. -/
def checkMatches (r : Resolver) (f : FuncTy) (n : Nat) : M Unit :=
  match r.typeInfo[n]? with
  | none => .error .unknown
  | some none => .error .mismatch
  | some (some (params, results)) =>
    if params.length ≠ f.params.length ∨ results.length ≠ f.results.length ∨
        (params.zip f.params).any (fun p => typesNotEqual r p.1 p.2.2) ∨
        (results.zip f.results).any (fun p => typesNotEqual r p.1 p.2)
    then .error .mismatch
    else .ok ()

/-- `Resolver::resolve_type_use`, `crates/wast/src/core/resolve/names.rs:269-293`:
the number of the type and the inline type, which is taken out. -/
def resolveTypeUse (r : Resolver) (u : TypeUse) : M (Nat × Option FuncTy) :=
  match u.index with
  | none => .error .panic
  | some i =>
    (r.ns .type).resolve i >>= fun n =>
      match u.inline with
      | none => .ok (n, none)
      | some f =>
        resolveFunc r f >>= fun f =>
          checkMatches r f n >>= fun _ => .ok (n, some f)

/-- A type use of which only the index remains. -/
def resolveUse (r : Resolver) (u : TypeUse) : M TypeUse :=
  resolveTypeUse r u >>= fun p => .ok ⟨some (.num p.1), none⟩

/-- `ExprResolver::resolve_block_type`, `crates/wast/src/core/resolve/names.rs:373-389`. -/
def resolveBlockType (r : Resolver) (u : TypeUse) : M TypeUse :=
  if u.index.isSome then resolveUse r u
  else optM (resolveFunc r) u.inline >>= fun f => .ok ⟨none, f⟩

/-- `ExprResolver::resolve_label`, `crates/wast/src/core/resolve/names.rs:735-754`:
`blocks` has the innermost block first. -/
def resolveLabel (blocks : List (Option Id)) : Index → M Index
  | .num n => .ok (.num n)
  | .id x =>
    match blocks.findIdx? (fun b => b = some x) with
    | some n => .ok (.num n)
    | none => .error (resolveError x)

/-- `ExprResolver::resolve_field`, `crates/wast/src/core/resolve/names.rs:756-766`. -/
def resolveField (r : Resolver) (t f : Index) : M (Index × Index) :=
  (r.ns .type).resolve t >>= fun n =>
    match f with
    | .num k => .ok (.num n, .num k)
    | .id x =>
      match r.fields n with
      | none => .error .unknown
      | some ns =>
        ns.resolve (.id x) >>= fun k => .ok (.num n, .num k)

/-- The references of an instruction, `crates/wast/src/core/resolve/names.rs:391-712`.
`scopes` only ever has the one scope of the function (`let` is gone), and a
local is looked up in it, `:457-474`. -/
def resolveRef (r : Resolver) (scope : Namespace) (blocks : List (Option Id)) : Ref → M Ref
  | .item s i => resolve r s i >>= fun i => .ok (.item s i)
  | .loc i => scope.resolve i >>= fun n => .ok (.loc (.num n))
  | .label i => resolveLabel blocks i >>= fun i => .ok (.label i)
  | .field t f => resolveField r t f >>= fun p => .ok (.field p.1 p.2)
  | .val v => resolveVal r v >>= fun v => .ok (.val v)
  | .heap h => resolveHeap r h >>= fun h => .ok (.heap h)

/-- A catch clause of `try_table`, `crates/wast/src/core/resolve/names.rs:498-503`. -/
def resolveCatch (r : Resolver) (blocks : List (Option Id)) (c : Option Index × Index) :
    M (Option Index × Index) :=
  optM (resolve r .tag) c.1 >>= fun t =>
    resolveLabel blocks c.2 >>= fun l => .ok (t, l)

/-- The labels of `else` and `end`, `crates/wast/src/core/resolve/names.rs:513-545`. -/
def checkLabel (blocks : List (Option Id)) (label : Option Id) : M Unit :=
  match blocks with
  | [] => .ok ()
  | b :: _ =>
    match label with
    | none => .ok ()
    | some l => if some l = b then .ok () else .error .label

/-- `ExprResolver::resolve_instr`, `crates/wast/src/core/resolve/names.rs:391-712`:
the instruction and the blocks after it. -/
def resolveInstr (r : Resolver) (scope : Namespace) (blocks : List (Option Id)) :
    Instr → M (Instr × List (Option Id))
  | .block op l u => resolveBlockType r u >>= fun u => .ok (.block op l u, l :: blocks)
  | .tryTable l u cs => resolveBlockType r u >>= fun u => eachM (resolveCatch r blocks) cs >>= fun cs => .ok (.tryTable l u cs, l :: blocks)
  | .else_ l => checkLabel blocks l >>= fun _ => .ok (.else_ l, blocks)
  | .end_ l => checkLabel blocks l >>= fun _ => .ok (.end_ l, blocks.tail)
  | .delegate i => resolveLabel blocks.tail i >>= fun i => .ok (.delegate i, blocks.tail)
  | .callIndirect op t u => resolve r .table t >>= fun t => resolveUse r u >>= fun u => .ok (.callIndirect op t u, blocks)
  | .plain op rs => eachM (resolveRef r scope blocks) rs >>= fun rs => .ok (.plain op rs, blocks)

/-- `ExprResolver::resolve`, `crates/wast/src/core/resolve/names.rs:366-371`. -/
def resolveInstrs (r : Resolver) (scope : Namespace) : List (Option Id) → List Instr → M (List Instr)
  | _, [] => .ok []
  | blocks, i :: is =>
    resolveInstr r scope blocks i >>= fun p =>
      resolveInstrs r scope p.2 is >>= fun is => .ok (p.1 :: is)

/-- `Resolver::resolve_expr`, `crates/wast/src/core/resolve/names.rs:295-297`. -/
def resolveExpr (r : Resolver) (e : List Instr) : M (List Instr) := resolveInstrs r .empty [] e

/-- Registration of locals one after the other. -/
def registerAll : List (Option Id) → Namespace → M Namespace
  | [], ns => .ok ns
  | x :: xs, ns =>
    match ns.register x with
    | .ok ns => registerAll xs ns
    | .error e => .error e

/-- The names of the parameters in scope, `crates/wast/src/core/resolve/names.rs:163-173`. -/
def paramNames (r : Resolver) (n : Nat) : Option FuncTy → List (Option Id)
  | some f => f.params.map (·.1)
  | none =>
    match r.typeInfo[n]? with
    | some (some k) => k.1.map (fun _ => none)
    | _ => []

/-- The body of a function, `crates/wast/src/core/resolve/names.rs:152-189`. -/
def resolveBody (r : Resolver) (n : Nat) (inline : Option FuncTy)
    (b : List (Option Id × ValTy) × List Instr) : M (List (Option Id × ValTy) × List Instr) :=
  eachM (sndM (resolveVal r)) b.1 >>= fun locals =>
    registerAll (paramNames r n inline ++ locals.map (·.1)) .empty >>= fun scope =>
      resolveInstrs r scope [] b.2 >>= fun is => .ok (locals, is)

/-- `Resolver::resolve_item_sig`, `crates/wast/src/core/resolve/names.rs:255-267`. -/
def resolveItemSig (r : Resolver) (s : ItemSig) : M ItemSig :=
  match s.kind with
  | .func e u => resolveUse r u >>= fun u => .ok { s with kind := .func e u }
  | .tag u => resolveUse r u >>= fun u => .ok { s with kind := .tag u }
  | .global t => resolveVal r t >>= fun t => .ok { s with kind := .global t }
  | .table h => resolveHeap r h >>= fun h => .ok { s with kind := .table h }
  | .memory => .ok s

/-- The place of an active element segment, `crates/wast/src/core/resolve/names.rs:195-202`. -/
def resolveElemAt (r : Resolver) (p : Option Index × List Instr) : M (Option Index × List Instr) :=
  optM (resolve r .table) p.1 >>= fun t => resolveExpr r p.2 >>= fun is => .ok (t, is)

/-- The place of an active data segment, `crates/wast/src/core/resolve/names.rs:221-225`. -/
def resolveDataAt (r : Resolver) (p : Index × List Instr) : M (Index × List Instr) :=
  resolve r .memory p.1 >>= fun t => resolveExpr r p.2 >>= fun is => .ok (t, is)

/-- The payload of an element segment, `crates/wast/src/core/resolve/names.rs:203-216`. -/
def resolvePayload (r : Resolver) : Payload → M Payload
  | .indices is => eachM (resolve r .func) is >>= fun is => .ok (.indices is)
  | .exprs t es => eachM (resolveExpr r) es >>= fun es => resolveHeap r t >>= fun t => .ok (.exprs t es)

/-- `Resolver::resolve_field`, `crates/wast/src/core/resolve/names.rs:131-253`. -/
def resolveModField (r : Resolver) : Field → M Field
  | .import sigs => eachM (resolveItemSig r) sigs >>= fun sigs => .ok (.import sigs)
  | .type t => resolveTypeDef r t >>= fun t => .ok (.type t)
  | .recGroup ts => eachM (resolveTypeDef r) ts >>= fun ts => .ok (.recGroup ts)
  | .func id u none => resolveUse r u >>= fun u => .ok (.func id u none)
  | .func id u (some b) => resolveTypeUse r u >>= fun p => resolveBody r p.1 p.2 b >>= fun b => .ok (.func id ⟨some (.num p.1), p.2⟩ (some b))
  | .elem id a p => optM (resolveElemAt r) a >>= fun a => resolvePayload r p >>= fun p => .ok (.elem id a p)
  | .data id a => optM (resolveDataAt r) a >>= fun a => .ok (.data id a)
  | .start i => resolve r .func i >>= fun i => .ok (.start i)
  | .export s i => resolve r s i >>= fun i => .ok (.export s i)
  | .global id t init => resolveVal r t >>= fun t => optM (resolveExpr r) init >>= fun init => .ok (.global id t init)
  | .tag id u => resolveUse r u >>= fun u => .ok (.tag id u)
  | .table id h init => resolveHeap r h >>= fun h => optM (resolveExpr r) init >>= fun init => .ok (.table id h init)
  | .memory id => .ok (.memory id)
  | .custom => .ok .custom

/-- `names::resolve` and `Resolver::process`,
`crates/wast/src/core/resolve/names.rs:8-12, 35-48`. -/
def process (fields : List Field) : M (List Field) :=
  forM register fields .empty >>= fun r => eachM (resolveModField r) fields

/-- Whether imports may follow, `crates/wast/src/core/resolve/mod.rs:41-47`. -/
def endsImports : Field → Bool
  | .memory _ => true
  | .func _ _ _ => true
  | .table _ _ _ => true
  | .global _ _ _ => true
  | _ => false

/-- The loop that checks the order of imports,
`crates/wast/src/core/resolve/mod.rs:34-49`. -/
def checkImports : Bool → List Field → M Unit
  | _, [] => .ok ()
  | last, .import _ :: fs => if last then .error .importOrder else checkImports last fs
  | last, f :: fs => checkImports (last || endsImports f) fs

/-- `resolve` after de-inlining, `crates/wast/src/core/resolve/mod.rs:32-59`. -/
def resolveModule (next : Nat) (fields : List Field) : M (List Field) :=
  checkImports false fields >>= fun _ => process (expand next fields)

end Verif.Resolve
