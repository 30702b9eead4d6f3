import Verif.Reader.Model

/-!
# Model of LEB128 writing in wasm-encoder

`/repo/crates/wasm-encoder/src/lib.rs` lines 130-196. The byte loops live in the
external crate `leb128fmt` 0.1.0 (named in `/repo/Cargo.lock` line 1324, source not
part of the repository); they are modelled from that crate's published algorithm,
the textbook LEB128 loop. This is part of the trusted base, see DESIGN.md.
-/

namespace Verif.Leb

/-- `leb128fmt::encode_u32` / `encode_u64`: emit the low seven bits, shift right by
seven, continue while the rest is not zero. The unsigned value is a `Nat`. -/
def encodeU (v : Nat) : List UInt8 :=
  if v / 128 = 0 then [UInt8.ofNat (v % 128)]
  else UInt8.ofNat (v % 128 + 128) :: encodeU (v / 128)
termination_by v
decreasing_by omega

/-- `leb128fmt::encode_s32` / `encode_s64`: emit the low seven bits, arithmetic shift
right by seven, stop when the rest is the sign extension of the emitted group. The
signed value is an `Int`; arithmetic shift is floor division. -/
def encodeS (v : Int) : List UInt8 :=
  let b := (v % 128).toNat
  let v' := v / 128
  if (v' = 0 ∧ b < 64) ∨ (v' = -1 ∧ 64 ≤ b) then [UInt8.ofNat b]
  else UInt8.ofNat (b + 128) :: encodeS v'
termination_by v.natAbs
decreasing_by omega

/-- `impl Encode for u32` (lines 137-142). -/
def encodeU32 (v : BitVec 32) : List UInt8 := encodeU v.toNat
/-- `impl Encode for u64` (lines 151-156). -/
def encodeU64 (v : BitVec 64) : List UInt8 := encodeU v.toNat
/-- `impl Encode for i32` (lines 144-149). -/
def encodeI32 (v : BitVec 32) : List UInt8 := encodeS v.toInt
/-- `impl Encode for i64` (lines 158-163). -/
def encodeI64 (v : BitVec 64) : List UInt8 := encodeS v.toInt
/-- `encoding_size` (lines 193-196). -/
def encodingSize (n : BitVec 32) : Nat := (encodeU32 n).length

end Verif.Leb
