import Verif.DlTable.Model
/-! `dlopen` and `dlsym`, which read the lookup table (crates/wit-component/dl/src/lib.rs).

Only the bytes of the table are there to be read; a read outside of it is `none`. The names are those
after `CStr::from_ptr`. -/
namespace Verif.DlSym
open DlTable (Name)

/-- The order of byte slices, `Ord for [u8]`: `a.cmp(b) != Greater`. -/
def lexLe : Name → Name → Bool
  | [], _ => true
  | _ :: _, [] => false
  | a :: as, b :: bs => decide (a < b) || (decide (a = b) && lexLe as bs)

/-- `cmp` of byte slices. -/
def cmp (a b : Name) : Ordering :=
  if lexLe a b then if lexLe b a then .eq else .lt else .gt

/-- `slice::from_raw_parts`; the memory is `m`, from address `base`. -/
def readBytes (m : List UInt8) (base p n : Nat) : Option (List UInt8) :=
  if base ≤ p ∧ p + n ≤ base + m.length then some ((m.drop (p - base)).take n) else none

/-- A field of four bytes. -/
def readWord (m : List UInt8) (base p : Nat) : Option Nat :=
  match readBytes m base p 4 with
  | some [b0, b1, b2, b3] =>
    some (b0.toNat + 256 * b1.toNat + 65536 * b2.toNat + 16777216 * b3.toNat)
  | _ => none

/-- `slice::from_raw_parts(x.name.data, x.name.length)` (lib.rs lines 108-111 and 145-148), where `x` is at
`p`. -/
def readName (m : List UInt8) (base p : Nat) : Option Name := do
  let n ← readWord m base p
  let a ← readWord m base (p + 4)
  readBytes m base a n

/-- The loop of `slice::binary_search_by` (library/core/src/slice/mod.rs in the Rust repository). -/
def searchLoop (f : Nat → Option Ordering) (lo size : Nat) : Option Nat :=
  if 1 < size then do
    let half := size / 2
    let mid := lo + half
    let c ← f mid
    searchLoop f (if c = .gt then lo else mid) (size - half)
  else some lo
termination_by size
decreasing_by omega

/-- `slice::binary_search_by`, without the index of the error. -/
def binarySearch (f : Nat → Option Ordering) (size : Nat) : Option (Option Nat) :=
  if size = 0 then some none
  else do
    let i ← searchLoop f 0 size
    let c ← f i
    return if c = .eq then some i else none

/-- The messages; each comes with a null pointer. -/
inductive Error where
  | flags
  | libraryNotFound
  | unsupported
  | invalidHandle
  | symbolNotFound
  deriving DecidableEq, Repr

variable (m : List UInt8) (base : Nat)
  /- the address of `LIBRARIES` -/
  (libraries : Nat)

/-- `dlopen` (lib.rs lines 93-120). -/
def dlopen (name : Name) (flags : BitVec 32) : Option (Except Error Nat) :=
  if flags &&& ~~~(1#32 ||| 2#32 ||| 256#32) ≠ 0#32 then some (.error .flags)
  else do
    let count ← readWord m base libraries
    let a ← readWord m base (libraries + 4)
    let r ← binarySearch (fun i => (readName m base (a + 16 * i)).map (cmp · name)) count
    match r with
    | some i => some (.ok (a + 16 * i))
    | none => some (.error .libraryNotFound)

/-- `!invalid_handle` (lib.rs lines 57-69). -/
def validHandle (library : Nat) : Option Bool := do
  let count ← readWord m base libraries
  let a ← readWord m base (libraries + 4)
  return (List.range count).any fun i => a + 16 * i == library

/-- `dlsym` (lib.rs lines 127-157). -/
def dlsym (library : Nat) (name : Name) : Option (Except Error Nat) :=
  if library = 4294967295 ∨ library = 0 then some (.error .unsupported)
  else do
    let valid ← validHandle m base libraries library
    if valid then
      let count ← readWord m base (library + 8)
      let a ← readWord m base (library + 12)
      let r ← binarySearch (fun i => (readName m base (a + 12 * i)).map (cmp · name)) count
      match r with
      | some i => do
        let v ← readWord m base (a + 12 * i + 8)
        some (.ok v)
      | none => some (.error .symbolNotFound)
    else some (.error .invalidHandle)

end Verif.DlSym
