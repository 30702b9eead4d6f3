import Verif.Reader.Model
/-! Helper lemmas about the reader primitives. -/

namespace Verif.Reader

/-- A reader advanced by `n` bytes. -/
def Reader.advance (r : Reader) (n : Nat) : Reader := { r with position := r.position + n }

@[simp] theorem Reader.advance_zero (r : Reader) : r.advance 0 = r := rfl
@[simp] theorem Reader.advance_advance (r : Reader) (m n : Nat) :
    (r.advance m).advance n = r.advance (m + n) := by
  simp [Reader.advance, Nat.add_assoc]

@[simp] theorem Reader.rest_advance (r : Reader) (n : Nat) : (r.advance n).rest = r.rest.drop n := by
  simp [Reader.rest, Reader.advance, List.drop_drop]

@[simp] theorem Reader.buffer_advance (r : Reader) (n : Nat) : (r.advance n).buffer = r.buffer := rfl
@[simp] theorem Reader.position_advance (r : Reader) (n : Nat) :
    (r.advance n).position = r.position + n := rfl
@[simp] theorem Reader.originalOffset_advance (r : Reader) (n : Nat) :
    (r.advance n).originalOffset = r.originalOffset := rfl
@[simp] theorem Reader.originalPosition_advance (r : Reader) (n : Nat) :
    (r.advance n).originalPosition = r.originalPosition + n := by
  simp [Reader.originalPosition, Nat.add_assoc]

theorem Reader.length_rest (r : Reader) : r.rest.length = r.buffer.length - r.position := by
  simp [Reader.rest]

theorem Reader.bytesRemaining_eq (r : Reader) : r.bytesRemaining = r.rest.length := by
  simp [Reader.bytesRemaining, Reader.maxPosition, Reader.rest]

theorem Reader.getElem?_position (r : Reader) : r.buffer[r.position]? = r.rest.head? := by
  simp [Reader.rest]

theorem readU8_eq (r : Reader) : readU8 r = match r.rest with
    | [] => .error (r.eofErr 1)
    | b :: _ => .ok (b, r.advance 1) := by
  unfold readU8
  rw [Reader.getElem?_position]
  cases r.rest <;> rfl

theorem readU8_cons {r : Reader} {b : UInt8} {bs : List UInt8} (h : r.rest = b :: bs) :
    readU8 r = .ok (b, r.advance 1) := by
  rw [readU8_eq, h]

theorem readU8_nil {r : Reader} (h : r.rest = []) : readU8 r = .error (r.eofErr 1) := by
  rw [readU8_eq, h]

theorem readU8_ok {r r' : Reader} {b : UInt8} (h : readU8 r = .ok (b, r')) :
    r' = r.advance 1 ∧ r.rest = b :: r'.rest := by
  rw [readU8_eq] at h
  split at h
  · cases h
  · rename_i b' bs hb
    cases h
    refine ⟨rfl, ?_⟩
    simp [hb]

theorem readU8_error {r : Reader} {e : Err} (h : readU8 r = .error e) :
    r.rest = [] ∧ e = .eof r.originalPosition 1 := by
  rw [readU8_eq] at h
  split at h
  · cases h; exact ⟨by assumption, rfl⟩
  · cases h

theorem ensureHasBytes_eq (r : Reader) (n : Nat) : ensureHasBytes r n =
    if n ≤ r.rest.length then .ok (r.position + n)
    else .error (.eof r.originalPosition (n - r.rest.length)) := by
  simp only [ensureHasBytes, Reader.bytesRemaining_eq, Reader.eofErr]

theorem readBytes_eq (r : Reader) (n : Nat) : readBytes n r =
    if n ≤ r.rest.length then .ok (r.rest.take n, r.advance n)
    else .error (.eof r.originalPosition (n - r.rest.length)) := by
  unfold readBytes
  rw [ensureHasBytes_eq]
  split
  · rename_i e h
    split at h
    · rename_i hn
      cases h
      rw [Reader.length_rest] at hn
      simp [Reader.rest, Reader.advance, hn]
    · cases h
  · rename_i e h
    split at h
    · cases h
    · cases h; simp [*]

theorem and80_eq_zero_iff (b : UInt8) : b &&& 0x80 = 0 ↔ b.toNat < 128 := by
  have : ∀ x : BitVec 8, (x &&& 0x80#8 = 0#8) ↔ x.toNat < 128 := by decide
  have h := this b.toBitVec
  rw [← UInt8.toBitVec_inj]
  simpa using h

theorem and7F_toNat (b : UInt8) : (b &&& 0x7F).toNat = b.toNat % 128 := by
  rw [UInt8.toNat_and]
  exact Nat.and_two_pow_sub_one_eq_mod b.toNat 7

theorem toNat_lt_256 (b : UInt8) : b.toNat < 256 := UInt8.toNat_lt b

end Verif.Reader
