import Verif.DlTable.Model
/-! What `dlopen` and `dlsym` expect in memory (crates/wit-component/dl/src/lib.rs lines 20-48). -/
namespace Verif.DlTable.Spec

/-- The bytes `x` are at address `p`; the memory is `m`, from address `base`. -/
def HasBytes (m : List UInt8) (base p : Nat) (x : List UInt8) : Prop :=
  ∃ a c, m = a ++ x ++ c ∧ p = base + a.length

/-- A number of four bytes. -/
def Word (m : List UInt8) (base p v : Nat) : Prop := ∃ b0 b1 b2 b3 : UInt8,
  HasBytes m base p [b0, b1, b2, b3] ∧
  v = b0.toNat + 256 * b1.toNat + 65536 * b2.toNat + 16777216 * b3.toNat

/-- `struct Name`. -/
def IsName (m : List UInt8) (base p : Nat) (name : Name) : Prop :=
  Word m base p name.length ∧ ∃ a, Word m base (p + 4) a ∧ HasBytes m base a name

variable (tableBase memoryBase : Nat) (init : Name → Name → Nat) (le : Name → Name → Bool) (libs : List Lib) (t : Table)

/-- The functions in the order they have in the table (linking.rs lines 961-976). -/
def functions : List (Name × Name) := (libs.filter (·.dlOpenable)).flatMap fun l =>
  (l.exports.filter (·.kind = .function)).map fun e => (l.name, e.name)

/-- `struct Symbol`: a function is its place in the table, a variable has a field with `init`. -/
def IsSymbol (lib : Name) (p : Nat) (e : Export) : Prop :=
  IsName t.buffer memoryBase p e.name ∧
  match e.kind with
  | .function => ∃ k, Word t.buffer memoryBase (p + 8) (tableBase + k) ∧
      (functions libs)[k]? = some (lib, e.name)
  | .global => Word t.buffer memoryBase (p + 8) (init lib e.name) ∧ (lib, e.name, p + 8) ∈ t.globals
  | .tag => False

/-- A sorted array of `size` bytes each, with a count and a pointer at `p`. -/
def IsArray (p size : Nat) (name : α → Name) (of_ : List α) (is : Nat → α → Prop) : Prop :=
  ∃ (xs : List α) (a : Nat), xs.Perm of_ ∧ xs.Pairwise (fun x y => le (name x) (name y) = true) ∧
    Word t.buffer memoryBase p xs.length ∧ Word t.buffer memoryBase (p + 4) a ∧
    ∀ i x, xs[i]? = some x → is (a + size * i) x

/-- `struct Library`. -/
def IsLibrary (p : Nat) (l : Lib) : Prop :=
  IsName t.buffer memoryBase p l.name ∧
  IsArray memoryBase le t (p + 8) 12 (·.name) (l.exports.filter (·.kind ≠ .tag))
    (IsSymbol tableBase memoryBase init libs t l.name)

/-- `struct Libraries`. -/
def IsLibraries : Prop :=
  IsArray memoryBase le t t.librariesAddress 16 (·.name) (libs.filter (·.dlOpenable))
    (IsLibrary tableBase memoryBase init le libs t)

/-- A total order. -/
structure Total : Prop where
  total : ∀ a b, le a b = true ∨ le b a = true
  trans : ∀ a b c, le a b = true → le b c = true → le a c = true

/-- All addresses have 32 bits. -/
def FitsIn : Prop := memoryBase + t.buffer.length < 2 ^ 32 ∧ tableBase + t.functions < 2 ^ 32

/-- The property: the table is as `dlopen` and `dlsym` expect it. -/
def Faithful : Prop := ∀ tableBase memoryBase le libs, Total le →
  FitsIn tableBase memoryBase (new tableBase memoryBase le libs) →
  IsLibraries tableBase memoryBase (fun _ _ => 0) le libs (new tableBase memoryBase le libs)

end Verif.DlTable.Spec
