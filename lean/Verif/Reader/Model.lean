/-!
# Model of `wasmparser::BinaryReader` (primitive operations)

Source: `/repo/crates/wasmparser/src/binary_reader.rs`.

Simplifications, valid for all definitions in this file:
* A `&'a [u8]` is a `List UInt8`.
* `&mut self` methods return the advanced reader next to the value. When a method
  fails the reader is dropped (callers in the crate never look at it afterwards:
  errors are propagated with `?`).
* `features` (lines 33-46) is a separate parameter where it matters.
* `original_offset : u64` is a `Nat` (the constructor checks that offsets cannot
  overflow, lines 64-68).
* Error messages are kept as strings, error offsets as numbers.
-/

namespace Verif.Reader

deriving instance DecidableEq for Except

/-- `wasmparser::Error` (`/repo/crates/wasmparser/src/error.rs`, lines 1-120).
`eof offset hint` is `Error::eof(offset, needed_hint)`: message "unexpected
end-of-file" and `needed_hint: Some(hint)`; `msg` is every other error, for which
`needed_hint` is `None`. -/
inductive Err where
  | eof (offset hint : Nat)
  | msg (m : String) (offset : Nat)
  deriving DecidableEq, Repr

/-- `struct BinaryReader` (binary_reader.rs lines 27-47), without `features`. -/
structure Reader where
  buffer : List UInt8
  position : Nat
  originalOffset : Nat
  deriving DecidableEq, Repr

/-- A method `fn(&mut self) -> Result<α>`. -/
def R (α : Type) := Reader → Except Err (α × Reader)

/-- `?` and sequencing of reader calls. -/
instance : Monad R where
  pure a := fun r => .ok (a, r)
  bind f g := fun r => match f r with
    | .error e => .error e
    | .ok (a, r') => g a r'

/-- `return Err(Error::new(m, offset))` with a fixed offset. -/
def R.fail (m : String) (offset : Nat) : R α := fun _ => .error (.msg m offset)

/-- `original_position` (binary_reader.rs lines 162-164). -/
def Reader.originalPosition (r : Reader) : Nat := r.originalOffset + r.position

/-- Reads `original_position` without advancing. -/
def readPos : R Nat := fun r => .ok (r.originalPosition, r)

/-- `max_position` (lines 197-201). -/
def Reader.maxPosition (r : Reader) : Nat := r.buffer.length

/-- `remaining_buffer` (lines 188-190). -/
def Reader.rest (r : Reader) : List UInt8 := r.buffer.drop r.position

/-- `bytes_remaining` (lines 298-300). -/
def Reader.bytesRemaining (r : Reader) : Nat := r.maxPosition - r.position

/-- `eof` (lines 286-288). -/
def Reader.eof (r : Reader) : Bool := decide (r.position ≥ r.maxPosition)

/-- `eof_err` (lines 358-360). -/
def Reader.eofErr (r : Reader) (hint : Nat) : Err := .eof r.originalPosition hint

/-- `BinaryReader::new` (lines 64-76), features dropped. -/
def Reader.new (data : List UInt8) (off : Nat) : Reader := ⟨data, 0, off⟩

/-- `ensure_has_byte` (lines 203-209). -/
def ensureHasByte (r : Reader) : Except Err Unit :=
  if r.position < r.maxPosition then .ok () else .error (r.eofErr 1)

/-- `ensure_has_bytes` (lines 212-218): the offset past `len` bytes. -/
def ensureHasBytes (r : Reader) (len : Nat) : Except Err Nat :=
  let remaining := r.bytesRemaining
  if len ≤ remaining then .ok (r.position + len) else .error (r.eofErr (len - remaining))

/-- `read_u8` (lines 348-355). -/
def readU8 : R UInt8 := fun r =>
  match r.buffer[r.position]? with
  | some b => .ok (b, { r with position := r.position + 1 })
  | none => .error (r.eofErr 1)

/-- `read_bytes` (lines 307-312). The slice `&self.buffer[start..end]` is taken
with `drop`/`take`, which agree with Rust slicing when `end ≤ len`; the bounds
theorem shows that this is always the case. -/
def readBytes (size : Nat) : R (List UInt8) := fun r =>
  match ensureHasBytes r size with
  | .ok e => .ok ((r.buffer.drop r.position).take (e - r.position), { r with position := e })
  | .error e => .error e

/-- `peek` (lines 656-659); the indexing `self.buffer[self.position]` would panic
where this model returns a distinguished error. -/
def peek (r : Reader) : Except Err UInt8 :=
  match ensureHasByte r with
  | .error e => .error e
  | .ok () =>
    match r.buffer[r.position]? with
    | some b => .ok b
    | none => .error (.msg "panic: index out of bounds" 0)

/-- `peek_bytes` (lines 661-665). -/
def peekBytes (r : Reader) (len : Nat) : Except Err (List UInt8) :=
  match ensureHasBytes r len with
  | .ok e => .ok ((r.buffer.drop r.position).take (e - r.position))
  | .error e => .error e

/-- Little-endian value of a byte list, `u32::from_le_bytes`/`u64::from_le_bytes`. -/
def leValue : List UInt8 → Nat
  | [] => 0
  | b :: bs => b.toNat + 256 * leValue bs

/-- `read_u32` (lines 327-331). -/
def readU32 : R (BitVec 32) := do
  let chunk ← readBytes 4
  pure (BitVec.ofNat 32 (leValue chunk))

/-- `read_u64` (lines 336-340). -/
def readU64 : R (BitVec 64) := do
  let chunk ← readBytes 8
  pure (BitVec.ofNat 64 (leValue chunk))

/-- `read_u7` (lines 230-236). -/
def readU7 : R UInt8 := do
  let b ← readU8
  if b &&& 0x80 ≠ 0 then R.fail "invalid u7" ((← readPos) - 1)
  else pure b

theorem readU8_lt {r r' : Reader} {b : UInt8} (h : readU8 r = .ok (b, r')) :
    r'.buffer.length - r'.position < r.buffer.length - r.position := by
  unfold readU8 at h
  split at h
  · rename_i b' hb
    have := (List.getElem?_eq_some_iff.mp hb).1
    cases h
    simp only
    omega
  · cases h

/-- The loop of `read_var_u32_big` (lines 380-401) and of `read_var_u64_big`
(lines 421-442). The two functions are textually the same with `W = 32`
(`shift >= 25`, `32 - shift`) and `W = 64` (`shift >= 57`, `64 - shift`);
`shift` starts at 7 there. `name` is the type name in the error message. -/
def readVarUBig (W : Nat) (name : String) (result : BitVec W) (shift : Nat) (r : Reader) :
    Except Err (BitVec W × Reader) :=
  match h : readU8 r with
  | .error e => .error e
  | .ok (byte, r') =>
    let result := result ||| ((byte &&& 0x7F).toBitVec.setWidth W <<< shift)
    if shift ≥ W - 7 ∧ byte.toNat >>> (W - shift) ≠ 0 then
      let m := if byte &&& 0x80 ≠ 0 then
          "invalid var_" ++ name ++ ": integer representation too long"
        else "invalid var_" ++ name ++ ": integer too large"
      .error (.msg m (r'.originalPosition - 1))
    else
      let shift := shift + 7
      if byte &&& 0x80 = 0 then .ok (result, r')
      else readVarUBig W name result shift r'
termination_by r.buffer.length - r.position
decreasing_by exact readU8_lt h

/-- `read_var_u32` (lines 370-378). -/
def readVarU32 : R (BitVec 32) := fun r =>
  match readU8 r with
  | .error e => .error e
  | .ok (byte, r') =>
    if byte &&& 0x80 = 0 then .ok (byte.toBitVec.setWidth 32, r')
    else readVarUBig 32 "u32" ((byte &&& 0x7F).toBitVec.setWidth 32) 7 r'

/-- `read_var_u64` (lines 411-419). -/
def readVarU64 : R (BitVec 64) := fun r =>
  match readU8 r with
  | .error e => .error e
  | .ok (byte, r') =>
    if byte &&& 0x80 = 0 then .ok (byte.toBitVec.setWidth 64, r')
    else readVarUBig 64 "u64" ((byte &&& 0x7F).toBitVec.setWidth 64) 7 r'

/-- The loops of `read_var_i32_big` (lines 492-518), `read_var_s33` (lines
533-555) and `read_var_i64` (lines 565-588), which are textually the same up to
constants: `S` is the width of the accumulator (32, 64, 64), `W` the number in
`W - shift` (32, 33, 64), `thr` the threshold (25, 25, 57). `shift` starts at 7,
7 and 0. `split` says whether the two overflow cases have separate messages
(they do not for s33). -/
def readVarSLoop (S W thr : Nat) (name : String) (split : Bool) (result : BitVec S)
    (shift : Nat) (r : Reader) : Except Err (BitVec S × Reader) :=
  match h : readU8 r with
  | .error e => .error e
  | .ok (byte, r') =>
    let result := result ||| ((byte &&& 0x7F).toBitVec.setWidth S <<< shift)
    if shift ≥ thr then
      let continuationBit := byte &&& 0x80 ≠ 0
      let signAndUnusedBit := (byte.toBitVec <<< 1).sshiftRight (W - shift)
      if continuationBit ∨ (signAndUnusedBit ≠ 0 ∧ signAndUnusedBit ≠ -1) then
        let m := if continuationBit ∨ !split then
            "invalid var_" ++ name ++ ": integer representation too long"
          else "invalid var_" ++ name ++ ": integer too large"
        .error (.msg m (r'.originalPosition - 1))
      else .ok (result, r')
    else
      let shift := shift + 7
      if byte &&& 0x80 = 0 then
        let ashift := S - shift
        .ok ((result <<< ashift).sshiftRight ashift, r')
      else readVarSLoop S W thr name split result shift r'
termination_by r.buffer.length - r.position
decreasing_by exact readU8_lt h

/-- `read_var_i32` (lines 482-490). -/
def readVarI32 : R (BitVec 32) := fun r =>
  match readU8 r with
  | .error e => .error e
  | .ok (byte, r') =>
    if byte &&& 0x80 = 0 then
      .ok ((byte.toBitVec.setWidth 32 <<< 25).sshiftRight 25, r')
    else readVarSLoop 32 32 25 "i32" true ((byte &&& 0x7F).toBitVec.setWidth 32) 7 r'

/-- `read_var_s33` (lines 525-555), the accumulator is an `i64`. -/
def readVarS33 : R (BitVec 64) := fun r =>
  match readU8 r with
  | .error e => .error e
  | .ok (byte, r') =>
    if byte &&& 0x80 = 0 then
      .ok (((byte.toBitVec <<< 1).signExtend 64).sshiftRight 1, r')
    else readVarSLoop 64 33 25 "s33" false ((byte &&& 0x7F).toBitVec.setWidth 64) 7 r'

/-- `read_var_i64` (lines 562-588). -/
def readVarI64 : R (BitVec 64) := fun r =>
  readVarSLoop 64 64 57 "i64" true 0 0 r

/-- `skip` (lines 446-455): run `f`, return a reader over what it consumed. -/
def skip (f : R Unit) : R Reader := fun r =>
  let startOffset := r.originalPosition
  let start := r.position
  match f r with
  | .error e => .error e
  | .ok ((), r') =>
    .ok (⟨(r'.buffer.drop start).take (r'.position - start), 0, startOffset⟩, r')

/-- `read_reader` (lines 316-322). -/
def readReader : R Reader := do
  let size ← readVarU32
  skip (do let _ ← readBytes size.toNat)

/-- `MAX_WASM_STRING_SIZE` (`/repo/crates/wasmparser/src/limits.rs` line 30). -/
def maxWasmStringSize : Nat := 100000

/-- `let end = self.ensure_has_bytes(len)?; self.position = end;` (lines 470-472). -/
def advanceBy (len : Nat) : R Unit := fun r =>
  match ensureHasBytes r len with
  | .error e => .error e
  | .ok e => .ok ((), { r with position := e })

/-- `skip_string` (lines 463-474). -/
def skipString : R Unit := do
  let len ← readVarU32
  if len.toNat > maxWasmStringSize then
    R.fail "string size out of bounds" ((← readPos) - 1)
  else advanceBy len.toNat

/-- `read_size` (lines 252-259). -/
def readSize (limit : Nat) (desc : String) : R Nat := do
  let pos ← readPos
  let size ← readVarU32
  if size.toNat > limit then R.fail (desc ++ " size is out of bounds") pos
  else pure size.toNat

/-- `core::str::from_utf8(bytes).is_ok()`. -/
def validUtf8 (bytes : List UInt8) : Bool := ByteArray.validateUTF8 ⟨bytes.toArray⟩

/-- `internal_read_string` (lines 609-613); the `&str` is represented by its bytes. -/
def internalReadString (len : Nat) : R (List UInt8) := do
  let bytes ← readBytes len
  if validUtf8 bytes then pure bytes
  else R.fail "malformed UTF-8 encoding" ((← readPos) - 1)

/-- `read_string` (lines 622-631). -/
def readString : R (List UInt8) := do
  let len ← readVarU32
  if len.toNat > maxWasmStringSize then
    R.fail "string size out of bounds" ((← readPos) - 1)
  else internalReadString len.toNat

/-- `read_unlimited_string` (lines 638-641). -/
def readUnlimitedString : R (List UInt8) := do
  let len ← readVarU32
  internalReadString len.toNat

/-- `WASM_MAGIC_NUMBER` (line 23). -/
def wasmMagic : List UInt8 := [0x00, 0x61, 0x73, 0x6d]

/-- `read_header_version` (lines 713-724). -/
def readHeaderVersion : R (BitVec 32) := do
  let magic ← readBytes 4
  if magic ≠ wasmMagic then
    R.fail "magic header not detected: bad magic number" ((← readPos) - 4)
  else readU32

/-- Reading `n` items one after another with `f` (`BinaryReaderIter`,
`lines 751-780, and `collect`). -/
def readMany (f : R α) : Nat → R (List α)
  | 0 => pure []
  | n + 1 => do
    let a ← f
    let as ← readMany f n
    pure (a :: as)

/-- `read_iter` (lines 270-283) followed by collecting all the items. -/
def readIter (f : R α) (limit : Nat) (desc : String) : R (List α) := do
  let size ← readSize limit desc
  readMany f size

end Verif.Reader
