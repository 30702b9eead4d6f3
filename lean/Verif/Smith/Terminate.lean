import Verif.Smith.Wasm
/-
Model of `Module::ensure_termination`, crates/wasm-smith/src/core/terminate.rs. Indices are natural
numbers; `u32::try_from(..).unwrap()` of a number of locals is not modelled.
-/
namespace Verif.Smith

/-- `Instructions`, crates/wasm-smith/src/core.rs 417-420. The bytes do not matter. -/
inductive Body (P : Type) where
  | generated (is : List (Instr P))
  | arbitrary

/-- `Code`, crates/wasm-smith/src/core.rs 411-414. -/
structure CodeEntry (P : Type) where
  locals : List Ty
  instructions : Body P

/-- `Module`, crates/wasm-smith/src/core.rs 46-163: the fields that matter here. Of globals the types, of
defined globals the index and the initial value (a constant), of tables and memories whether they are
64-bit, of functions (imported ones first) the numbers of parameters and results. -/
structure Module (P : Type) where
  globals : List Ty
  definedGlobals : List (Nat × Val)
  table64 : List Bool
  memory64 : List Bool
  funcs : List (Nat × Nat)
  code : List (CodeEntry P)

/-- The locals of a function and the temporary ones that were added: `code.locals`, and the variables
captured by the closures `temp_i32_local` and `temp_i64_local`, terminate.rs 35-55. -/
structure Temps where
  locals : List Ty
  t32 : Option Nat
  t64 : Option Nat
  deriving DecidableEq, Repr

/-- The closure `temp_i32_local`, terminate.rs 35-44. -/
def tempI32 (params : Nat) (s : Temps) : Nat × Temps :=
  match s.t32 with
  | some l => (l, s)
  | none =>
    let l := s.locals.length + params
    (l, { s with locals := s.locals ++ [.int .i32], t32 := some l })

/-- The closure `temp_i64_local`, terminate.rs 46-55. -/
def tempI64 (params : Nat) (s : Temps) : Nat × Temps :=
  match s.t64 with
  | some l => (l, s)
  | none =>
    let l := s.locals.length + params
    (l, { s with locals := s.locals ++ [.int .i64], t64 := some l })

/-- The closure `check_fuel_1`, terminate.rs 57-70. -/
def checkFuel1 {P : Type} (fuelGlobal : Nat) : List (Instr P) :=
  [ -- if fuel == 0 { trap }
    .op (.globalGet fuelGlobal),
    .op (.eqz .i32),
    .if_ 0 0,
    .op .unreachable,
    .end_,
    -- fuel -= 1
    .op (.globalGet fuelGlobal),
    .op (.const (.i32 1)),
    .op (.ibin .i32 .sub),
    .op (.globalSet fuelGlobal) ]

/-- The closure `check_fuel_n`, terminate.rs 72-85. -/
def checkFuelN {P : Type} (fuelGlobal : Nat) (l : Nat) : List (Instr P) :=
  [ -- if local >= fuel { trap }
    .op (.localGet l),
    .op (.globalGet fuelGlobal),
    .op (.irel .i32 .geU),
    .if_ 0 0,
    .op .unreachable,
    .end_,
    -- fuel -= local
    .op (.globalGet fuelGlobal),
    .op (.localGet l),
    .op (.ibin .i32 .sub),
    .op (.globalSet fuelGlobal) ]

/-- The bulk instructions with a 32-bit length, terminate.rs 143-148 (also 152-157, 194-199). -/
def charge32 {P : Type} (fuelGlobal params : Nat) (inst : Instr P) (s : Temps) : List (Instr P) × Temps :=
  let (l, s) := tempI32 params s
  ([.op (.localTee l)] ++ checkFuelN fuelGlobal l ++ [inst], s)

/-- The closure `check_fuel_32_or_64`, terminate.rs 87-108. -/
def charge3264 {P : Type} (fuelGlobal params : Nat) (inst : Instr P) (is64 : Bool) (s : Temps) :
    List (Instr P) × Temps :=
  if is64 then
    let (l64, s) := tempI64 params s
    let (l32, s) := tempI32 params s
    ([.op (.localTee l64), .op .wrap, .op (.localSet l32)] ++ checkFuelN fuelGlobal l32 ++
      [.op (.localGet l64), inst], s)
  else
    let (l, s) := tempI32 params s
    ([.op (.localTee l)] ++ checkFuelN fuelGlobal l ++ [inst], s)

/-- The body of the loop over the instructions, terminate.rs 126-233. `none` is an index out of
bounds. -/
def instrument {P : Type} (m : Module P) (fuelGlobal params : Nat) (inst : Instr P) (s : Temps) :
    Option (List (Instr P) × Temps) :=
  match inst with
  | .block .loop _ _ => some (inst :: checkFuel1 fuelGlobal, s)
  | .op (.bulk (.arrayCopy _ _)) | .op (.bulk (.arrayFill _)) | .op (.bulk (.arrayInitData _ _))
  | .op (.bulk (.arrayInitElem _ _)) | .op (.bulk (.arrayNew _)) | .op (.bulk (.arrayNewDefault _))
  | .op (.bulk (.arrayNewData _ _)) | .op (.bulk (.arrayNewElem _ _)) => some (charge32 fuelGlobal params inst s)
  | .op (.bulk (.tableInit _ _)) => some (charge32 fuelGlobal params inst s)
  | .op (.bulk (.tableFill t)) => do
    let is64 ← m.table64[t]?
    some (charge3264 fuelGlobal params inst is64 s)
  | .op (.bulk (.tableCopy dst src)) => do
    let d ← m.table64[dst]?
    let r ← m.table64[src]?
    some (charge3264 fuelGlobal params inst (d && r) s)
  | .op (.bulk (.memoryInit _ _)) => some (charge32 fuelGlobal params inst s)
  | .op (.bulk (.memoryFill i)) => do
    let is64 ← m.memory64[i]?
    some (charge3264 fuelGlobal params inst is64 s)
  | .op (.bulk (.memoryCopy dst src)) => do
    let d ← m.memory64[dst]?
    let r ← m.memory64[src]?
    some (charge3264 fuelGlobal params inst (d && r) s)
  | inst => some ([inst], s)

/-- The loop over the instructions, terminate.rs 125-234. -/
def instrumentAll {P : Type} (m : Module P) (fuelGlobal params : Nat) : List (Instr P) → Temps →
    Option (List (Instr P) × Temps)
  | [], s => some ([], s)
  | i :: is, s => do
    let (new, s) ← instrument m fuelGlobal params i s
    let (rest, s) ← instrumentAll m fuelGlobal params is s
    some (new ++ rest, s)

/-- One function, terminate.rs 32-237. `none` is the error for arbitrary bytes or an index out of
bounds. -/
def instrumentFunc {P : Type} (m : Module P) (fuelGlobal params : Nat) (code : CodeEntry P) : Option (CodeEntry P) :=
  match code.instructions with
  | .generated is => do
    let (new, s) ← instrumentAll m fuelGlobal params is ⟨code.locals, none, none⟩
    some ⟨s.locals, .generated (checkFuel1 fuelGlobal ++ new)⟩
  | .arbitrary => none

/-- The loop over the functions: `zip` of types and code, terminate.rs 32-237. Code without a type is
left as it is. -/
def instrumentFuncs {P : Type} (m : Module P) (fuelGlobal : Nat) : List (Nat × Nat) → List (CodeEntry P) →
    Option (List (CodeEntry P))
  | ty :: tys, code :: codes => do
    let new ← instrumentFunc m fuelGlobal ty.1 code
    let rest ← instrumentFuncs m fuelGlobal tys codes
    some (new :: rest)
  | _, codes => some codes

/-- `Module::ensure_termination`, terminate.rs 21-240. The result is the new module and the index of the
fuel global. -/
def ensureTermination {P : Type} (m : Module P) (defaultFuel : BitVec 32) : Option (Module P × Nat) :=
  let fuelGlobal := m.globals.length
  let m := { m with
    globals := m.globals ++ [.int .i32]
    definedGlobals := m.definedGlobals ++ [(fuelGlobal, .i32 defaultFuel)] }
  -- `self.funcs.len() - self.code.len()`
  if m.funcs.length < m.code.length then none
  else do
    let code ← instrumentFuncs m fuelGlobal (m.funcs.drop (m.funcs.length - m.code.length)) m.code
    some ({ m with code := code }, fuelGlobal)

end Verif.Smith
