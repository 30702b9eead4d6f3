import Verif.Leb.Lemmas

/-!
# C01-C04: LEB128 reading and writing

`Reader` is the model of `BinaryReader`; `r.rest` are the bytes from the current
position to the end of the buffer. `ULeb`/`SLeb` are the grammars of the WebAssembly
specification (`Verif/Leb/Spec.lean`).
-/

namespace Verif.Leb
open Verif.Reader

/-! ## C01 -/

/-- C01 for `read_var_u32`: success exactly on encodings, with exact value and
consumption. -/
theorem c01_u32_exact (r : Reader) (v : BitVec 32) (r' : Reader) :
    readVarU32 r = .ok (v, r') ↔
    ∃ enc tail, r.rest = enc ++ tail ∧ ULeb 32 enc v.toNat ∧
      r' = { r with position := r.position + enc.length } := by
  rw [show readVarU32 r = readVarUBig 32 "u32" 0 0 r from readVarU_eq (.inl rfl) _ r]
  exact readVarUBig_iff (by decide) _ _ _ _

example : ∃ enc tail, (⟨[0x00, 0xE5, 0x8E, 0x26, 0xFF], 1, 0⟩ : Reader).rest = enc ++ tail ∧
    ULeb 32 enc (624485#32).toNat :=
  ⟨[0xE5, 0x8E, 0x26], [0xFF], rfl,
    .more (m := 4878) (by decide) (by decide) (.more (m := 38) (by decide) (by decide)
      (.last (by decide) (by decide)))⟩

/-- C01 for `read_var_u64`. -/
theorem c01_u64_exact (r : Reader) (v : BitVec 64) (r' : Reader) :
    readVarU64 r = .ok (v, r') ↔
    ∃ enc tail, r.rest = enc ++ tail ∧ ULeb 64 enc v.toNat ∧
      r' = { r with position := r.position + enc.length } := by
  rw [show readVarU64 r = readVarUBig 64 "u64" 0 0 r from readVarU_eq (.inr rfl) _ r]
  exact readVarUBig_iff (by decide) _ _ _ _

example : ∃ enc tail, (⟨[0xE5, 0x8E, 0x26, 0xFF], 0, 7⟩ : Reader).rest = enc ++ tail ∧
    ULeb 64 enc (624485#64).toNat :=
  ⟨[0xE5, 0x8E, 0x26], [0xFF], rfl,
    .more (m := 4878) (by decide) (by decide) (.more (m := 38) (by decide) (by decide)
      (.last (by decide) (by decide)))⟩

/-- C01, failures of `read_var_u32`: an end-of-input error is reported at the end of
the buffer asking for one byte, exactly when the rest of the buffer is a proper prefix
of an encoding; any other error means no continuation of the buffer starts with an
encoding. -/
theorem c01_u32_errors (r : Reader) (e : Err) (h : readVarU32 r = .error e) :
    (e = .eof (r.originalPosition + r.rest.length) 1 ∧
      ∃ more v, more ≠ [] ∧ ULeb 32 (r.rest ++ more) v) ∨
    ((∃ m off, e = .msg m off) ∧
      ∀ more enc t v, r.rest ++ more = enc ++ t → ¬ ULeb 32 enc v) := by
  rw [show readVarU32 r = readVarUBig 32 "u32" 0 0 r from readVarU_eq (.inl rfl) _ r] at h
  rcases readVarUBig_error _ _ _ _ _ (by decide) h with ⟨h1, h2, h3⟩ | ⟨m, off, h1, h2⟩
  · obtain ⟨v, hv⟩ := uleb_completable r.rest 32 h2 (by omega)
    exact .inl ⟨h1, [0], v, by simp, hv⟩
  · exact .inr ⟨⟨m, off, h1⟩, h2⟩

example : (match readVarU32 ⟨[0x80, 0x80], 0, 0⟩ with
    | .error (.eof 2 1) => true | _ => false) = true := by decide +kernel
example : (match readVarU32 ⟨[0xFF, 0xFF, 0xFF, 0xFF, 0x1F], 0, 0⟩ with
    | .error (.msg _ 4) => true | _ => false) = true := by decide +kernel

/-- C01, failures of `read_var_u64`. -/
theorem c01_u64_errors (r : Reader) (e : Err) (h : readVarU64 r = .error e) :
    (e = .eof (r.originalPosition + r.rest.length) 1 ∧
      ∃ more v, more ≠ [] ∧ ULeb 64 (r.rest ++ more) v) ∨
    ((∃ m off, e = .msg m off) ∧
      ∀ more enc t v, r.rest ++ more = enc ++ t → ¬ ULeb 64 enc v) := by
  rw [show readVarU64 r = readVarUBig 64 "u64" 0 0 r from readVarU_eq (.inr rfl) _ r] at h
  rcases readVarUBig_error _ _ _ _ _ (by decide) h with ⟨h1, h2, h3⟩ | ⟨m, off, h1, h2⟩
  · obtain ⟨v, hv⟩ := uleb_completable r.rest 64 h2 (by omega)
    exact .inl ⟨h1, [0], v, by simp, hv⟩
  · exact .inr ⟨⟨m, off, h1⟩, h2⟩

example : (match readVarU64 ⟨[0x80], 1, 0⟩ with
    | .error (.eof 1 1) => true | _ => false) = true := by decide +kernel

/-! ## C02 -/

/-- C02 for `read_var_i32`. -/
theorem c02_i32_exact (r : Reader) (v : BitVec 32) (r' : Reader) :
    readVarI32 r = .ok (v, r') ↔
    ∃ enc tail, r.rest = enc ++ tail ∧ SLeb 32 enc v.toInt ∧
      r' = { r with position := r.position + enc.length } := by
  rw [readVarI32_eq, readVarSLoop_iff sparams_i32 _ _ (by decide)]
  simp only [loopVal, Nat.lt_irrefl, false_and, if_false, Int.add_zero]
  constructor
  · rintro ⟨enc, tail, m, h1, h2, h3, h4⟩
    refine ⟨enc, tail, h1, ?_, h4⟩
    rw [h3]; simpa using h2
  · rintro ⟨enc, tail, h1, h2, h4⟩
    exact ⟨enc, tail, _, h1, h2, by simp, h4⟩

example : ∃ enc tail, (⟨[0xC0, 0xBB, 0x78, 0x00], 0, 0⟩ : Reader).rest = enc ++ tail ∧
    SLeb 32 enc (BitVec.ofInt 32 (-123456)).toInt :=
  ⟨[0xC0, 0xBB, 0x78], [0x00], rfl,
    .more' (m := -965) (by decide) (by decide) (.more' (m := -8) (by decide) (by decide)
      (.neg' (by decide) (by decide) (by decide) (by decide)) (by decide)) (by decide +kernel)⟩

/-- C02 for `read_var_i64`. -/
theorem c02_i64_exact (r : Reader) (v : BitVec 64) (r' : Reader) :
    readVarI64 r = .ok (v, r') ↔
    ∃ enc tail, r.rest = enc ++ tail ∧ SLeb 64 enc v.toInt ∧
      r' = { r with position := r.position + enc.length } := by
  rw [readVarI64, readVarSLoop_iff sparams_i64 _ _ (by decide)]
  simp only [loopVal, Nat.lt_irrefl, false_and, if_false, Int.add_zero]
  constructor
  · rintro ⟨enc, tail, m, h1, h2, h3, h4⟩
    refine ⟨enc, tail, h1, ?_, h4⟩
    rw [h3]; simpa using h2
  · rintro ⟨enc, tail, h1, h2, h4⟩
    exact ⟨enc, tail, _, h1, h2, by simp, h4⟩

example : ∃ enc tail, (⟨[0xC0, 0xBB, 0x78, 0x00], 0, 0⟩ : Reader).rest = enc ++ tail ∧
    SLeb 64 enc (BitVec.ofInt 64 (-123456)).toInt :=
  ⟨[0xC0, 0xBB, 0x78], [0x00], rfl,
    .more' (m := -965) (by decide) (by decide) (.more' (m := -8) (by decide) (by decide)
      (.neg' (by decide) (by decide) (by decide) (by decide)) (by decide)) (by decide +kernel)⟩

/-- C02, failures of `read_var_i32`. -/
theorem c02_i32_errors (r : Reader) (e : Err) (h : readVarI32 r = .error e) :
    (e = .eof (r.originalPosition + r.rest.length) 1 ∧
      ∃ more v, more ≠ [] ∧ SLeb 32 (r.rest ++ more) v) ∨
    ((∃ m off, e = .msg m off) ∧
      ∀ more enc t v, r.rest ++ more = enc ++ t → ¬ SLeb 32 enc v) := by
  rw [readVarI32_eq] at h
  rcases readVarSLoop_error sparams_i32 _ _ _ _ _ _ (by decide) (by decide) h with
    ⟨h1, h2, h3⟩ | ⟨m, off, h1, h2⟩
  · obtain ⟨v, hv⟩ := sleb_completable r.rest 32 h2 (by omega)
    exact .inl ⟨h1, [0], v, by simp, hv⟩
  · exact .inr ⟨⟨m, off, h1⟩, h2⟩

example : (match readVarI32 ⟨[0xFF, 0xFF, 0xFF, 0xFF, 0x0F], 0, 0⟩ with
    | .error (.msg _ 4) => true | _ => false) = true := by decide +kernel

/-- C02, failures of `read_var_i64`. -/
theorem c02_i64_errors (r : Reader) (e : Err) (h : readVarI64 r = .error e) :
    (e = .eof (r.originalPosition + r.rest.length) 1 ∧
      ∃ more v, more ≠ [] ∧ SLeb 64 (r.rest ++ more) v) ∨
    ((∃ m off, e = .msg m off) ∧
      ∀ more enc t v, r.rest ++ more = enc ++ t → ¬ SLeb 64 enc v) := by
  rw [readVarI64] at h
  rcases readVarSLoop_error sparams_i64 _ _ _ _ _ _ (by decide) (by decide) h with
    ⟨h1, h2, h3⟩ | ⟨m, off, h1, h2⟩
  · obtain ⟨v, hv⟩ := sleb_completable r.rest 64 h2 (by omega)
    exact .inl ⟨h1, [0], v, by simp, hv⟩
  · exact .inr ⟨⟨m, off, h1⟩, h2⟩

example : (match readVarI64 ⟨[0x80, 0x80], 0, 10⟩ with
    | .error (.eof 12 1) => true | _ => false) = true := by decide +kernel

/-! ## C03 -/

/-- The full property C03: whatever `read_var_s33` returns is the value of the
encoding it consumed. It does not hold, see `c03_s33_full_false`. -/
def S33Full : Prop := ∀ (r : Reader) (v : BitVec 64) (r' : Reader),
  readVarS33 r = .ok (v, r') ↔
    ∃ enc tail, r.rest = enc ++ tail ∧ SLeb 33 enc v.toInt ∧
      r' = { r with position := r.position + enc.length }

/-- C03 is false of the code: `ff ff ff ff 7f` is an encoding of -1, the reader returns
`2^35 - 1`. -/
theorem c03_s33_full_false : ¬ S33Full := by
  intro h
  have h1 := (h ⟨[0xFF, 0xFF, 0xFF, 0xFF, 0x7F], 0, 0⟩ (BitVec.ofNat 64 (2 ^ 35 - 1))
    ⟨[0xFF, 0xFF, 0xFF, 0xFF, 0x7F], 5, 0⟩).mp (by decide +kernel)
  obtain ⟨enc, tail, h2, h3, -⟩ := h1
  have := h3.range (by decide)
  revert this
  decide

/-- C03 as far as it holds: `read_var_s33` accepts exactly the 33-bit signed encodings
and consumes exactly them; the value is the specified one unless the encoding has five
bytes and denotes a negative number, in which case it is larger by `2^35`. -/
theorem c03_s33_exact_partial (r : Reader) (v : BitVec 64) (r' : Reader) :
    readVarS33 r = .ok (v, r') ↔
    ∃ enc tail m, r.rest = enc ++ tail ∧ SLeb 33 enc m ∧
      v.toInt = (if m < 0 ∧ enc.length = 5 then m + 2 ^ 35 else m) ∧
      r' = { r with position := r.position + enc.length } := by
  rw [readVarS33_eq, readVarSLoop_iff sparams_s33 _ _ (by decide)]
  constructor
  · rintro ⟨enc, tail, m, h1, h2, h3, h4⟩
    refine ⟨enc, tail, m, h1, h2, ?_, h4⟩
    have hl := h2.length_le
    rw [h3, loopVal]
    have e : (33 < 64 ∧ m < 0 ∧ 25 ≤ 0 + 7 * (enc.length - 1)) ↔ (m < 0 ∧ enc.length = 5) := by
      omega
    by_cases hh : m < 0 ∧ enc.length = 5
    · rw [if_pos hh, if_pos (e.mpr hh), hh.2, Nat.zero_add]; omega
    · rw [if_neg hh, if_neg (fun h => hh (e.mp h))]; omega
  · rintro ⟨enc, tail, m, h1, h2, h3, h4⟩
    refine ⟨enc, tail, m, h1, h2, ?_, h4⟩
    have hl := h2.length_le
    rw [h3, loopVal]
    have e : (33 < 64 ∧ m < 0 ∧ 25 ≤ 0 + 7 * (enc.length - 1)) ↔ (m < 0 ∧ enc.length = 5) := by
      omega
    by_cases hh : m < 0 ∧ enc.length = 5
    · rw [if_pos hh, if_pos (e.mpr hh), hh.2, Nat.zero_add]; omega
    · rw [if_neg hh, if_neg (fun h => hh (e.mp h))]; omega

example : ∃ enc tail m, (⟨[0xC0, 0xBB, 0x78, 0x00], 0, 0⟩ : Reader).rest = enc ++ tail ∧
    SLeb 33 enc m ∧
    (BitVec.ofInt 64 (-123456)).toInt = (if m < 0 ∧ enc.length = 5 then m + 2 ^ 35 else m) :=
  ⟨[0xC0, 0xBB, 0x78], [0x00], -123456, rfl,
    .more' (m := -965) (by decide) (by decide) (.more' (m := -8) (by decide) (by decide)
      (.neg' (by decide) (by decide) (by decide) (by decide)) (by decide)) (by decide +kernel), by decide⟩

/-- Callers convert the result of `read_var_s33` with `u32::try_from` (block types and
heap types). That conversion is right: it succeeds iff the encoded value is a `u32`, with
that value. -/
theorem c03_s33_as_u32 (r : Reader) (v : BitVec 64) (r' : Reader)
    (h : readVarS33 r = .ok (v, r')) :
    ∃ enc tail m, r.rest = enc ++ tail ∧ SLeb 33 enc m ∧
      ∀ n : Nat, n < 2 ^ 32 → (v.toInt = n ↔ m = n) := by
  obtain ⟨enc, tail, m, h1, h2, h3, -⟩ := (c03_s33_exact_partial r v r').mp h
  refine ⟨enc, tail, m, h1, h2, ?_⟩
  have := h2.range (by decide)
  intro n hn
  rw [h3]
  split <;> omega

example : readVarS33 ⟨[0xFF, 0xFF, 0xFF, 0xFF, 0x0F], 0, 0⟩ =
    .ok (BitVec.ofNat 64 (2 ^ 32 - 1), ⟨[0xFF, 0xFF, 0xFF, 0xFF, 0x0F], 5, 0⟩) := by decide +kernel

/-! ## C04 -/

/-- C04 `u32`: what the encoder writes is read back, leaving the trailing bytes; the
encoding is shortest among all encodings of the value and has at most 5 bytes. -/
theorem c04_u32_roundtrip (v : BitVec 32) (r : Reader) (tail : List UInt8)
    (h : r.rest = encodeU32 v ++ tail) :
    readVarU32 r = .ok (v, { r with position := r.position + (encodeU32 v).length }) :=
  (c01_u32_exact r v _).mpr ⟨_, tail, h, encodeU_spec _ 32 v.isLt, rfl⟩

example : (⟨[9, 0xE5, 0x8E, 0x26, 0xFF], 1, 0⟩ : Reader).rest = encodeU32 624485#32 ++ [0xFF] := by decide +kernel

theorem c04_u64_roundtrip (v : BitVec 64) (r : Reader) (tail : List UInt8)
    (h : r.rest = encodeU64 v ++ tail) :
    readVarU64 r = .ok (v, { r with position := r.position + (encodeU64 v).length }) :=
  (c01_u64_exact r v _).mpr ⟨_, tail, h, encodeU_spec _ 64 v.isLt, rfl⟩

example : (⟨[9, 0xE5, 0x8E, 0x26, 0xFF], 1, 0⟩ : Reader).rest = encodeU64 624485#64 ++ [0xFF] := by decide +kernel

theorem c04_i32_roundtrip (v : BitVec 32) (r : Reader) (tail : List UInt8)
    (h : r.rest = encodeI32 v ++ tail) :
    readVarI32 r = .ok (v, { r with position := r.position + (encodeI32 v).length }) :=
  (c02_i32_exact r v _).mpr ⟨_, tail, h,
    encodeS_spec _ _ rfl 32 (by decide) (bv_range v).1 (bv_range v).2, rfl⟩

example : (⟨[0xC0, 0xBB, 0x78, 0x00], 0, 0⟩ : Reader).rest
    = encodeI32 (BitVec.ofInt 32 (-123456)) ++ [0x00] := by decide +kernel

theorem c04_i64_roundtrip (v : BitVec 64) (r : Reader) (tail : List UInt8)
    (h : r.rest = encodeI64 v ++ tail) :
    readVarI64 r = .ok (v, { r with position := r.position + (encodeI64 v).length }) :=
  (c02_i64_exact r v _).mpr ⟨_, tail, h,
    encodeS_spec _ _ rfl 64 (by decide) (bv_range v).1 (bv_range v).2, rfl⟩

example : (⟨[0xC0, 0xBB, 0x78, 0x00], 0, 0⟩ : Reader).rest
    = encodeI64 (BitVec.ofInt 64 (-123456)) ++ [0x00] := by decide +kernel

/-- Type indices are written as `i64` and read as `s33`; every 33-bit signed value whose
encoding has fewer than five bytes, and every non-negative one, comes back. -/
theorem c04_s33_roundtrip (v : BitVec 64) (r : Reader) (tail : List UInt8)
    (hv : -(2 ^ 27 : Int) ≤ v.toInt ∧ v.toInt < 2 ^ 32)
    (h : r.rest = encodeI64 v ++ tail) :
    readVarS33 r = .ok (v, { r with position := r.position + (encodeI64 v).length }) := by
  have hs := encodeS_spec _ v.toInt rfl 33 (by decide) (by omega) (by omega)
  refine (c03_s33_exact_partial r v _).mpr ⟨_, tail, _, h, hs, ?_, rfl⟩
  split
  · rename_i hh
    have h28 := (encodeS_spec _ v.toInt rfl 28 (by decide) (by omega) (by omega)).length_le
    have : (encodeS v.toInt).length = 5 := hh.2
    omega
  · rfl

example : (-(2 ^ 27 : Int) ≤ (BitVec.ofNat 64 4294967295).toInt ∧
    (BitVec.ofNat 64 4294967295).toInt < 2 ^ 32) ∧
    (⟨[0xFF, 0xFF, 0xFF, 0xFF, 0x0F, 0x00], 0, 0⟩ : Reader).rest
      = encodeI64 (BitVec.ofNat 64 4294967295) ++ [0x00] := by
  decide +kernel

/-- Unsigned encodings are shortest: no encoding of the same value is shorter. -/
theorem c04_unsigned_shortest {N : Nat} {enc : List UInt8} {v : Nat} (h : ULeb N enc v) :
    (encodeU v).length ≤ enc.length := encodeU_shortest h

example : ULeb 32 [0x85, 0x80, 0x00] 5 :=
  .more (m := 0) (by decide) (by decide) (.more (m := 0) (by decide) (by decide)
    (.last (by decide) (by decide)))

/-- Signed encodings are shortest. -/
theorem c04_signed_shortest {N : Nat} {enc : List UInt8} {v : Int} (h : SLeb N enc v) :
    (encodeS v).length ≤ enc.length := encodeS_shortest h

example : SLeb 32 [0xFB, 0xFF, 0x7F] (-5) :=
  .more' (m := -1) (by decide) (by decide) (.more' (m := -1) (by decide) (by decide)
    (.neg' (by decide) (by decide) (by decide) (by decide)) (by decide)) (by decide)

/-- Sizes: at most `⌈N/7⌉` bytes, at least one. -/
theorem c04_sizes (a : BitVec 32) (b : BitVec 64) :
    (0 < (encodeU32 a).length ∧ (encodeU32 a).length ≤ 5) ∧
    (0 < (encodeI32 a).length ∧ (encodeI32 a).length ≤ 5) ∧
    (0 < (encodeU64 b).length ∧ (encodeU64 b).length ≤ 10) ∧
    (0 < (encodeI64 b).length ∧ (encodeI64 b).length ≤ 10) := by
  have h1 := encodeU_spec _ 32 a.isLt
  have h2 := encodeU_spec _ 64 b.isLt
  have h3 := encodeS_spec _ _ rfl 32 (by decide) (bv_range a).1 (bv_range a).2
  have h4 := encodeS_spec _ _ rfl 64 (by decide) (bv_range b).1 (bv_range b).2
  have l1 := h1.length_le
  have l2 := h2.length_le
  have l3 := h3.length_le
  have l4 := h4.length_le
  have n1 := List.length_pos_iff.mpr h1.ne_nil
  have n2 := List.length_pos_iff.mpr h2.ne_nil
  have n3 := List.length_pos_iff.mpr h3.ne_nil
  have n4 := List.length_pos_iff.mpr h4.ne_nil
  simp only [encodeU32, encodeI32, encodeU64, encodeI64]
  omega

example : (encodeU32 (BitVec.ofNat 32 4294967295)).length = 5 := by decide +kernel

end Verif.Leb
