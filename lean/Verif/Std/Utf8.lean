/-
UTF-8 text: `&str` as a list of characters, its bytes, and slicing at byte positions.
-/
namespace Verif.Std

/-- The contents of a `&str`. -/
abbrev Text := List Char

/-- `str::as_bytes`. -/
def utf8 (s : Text) : List UInt8 := s.flatMap String.utf8EncodeChar

/-- `str::len`. -/
def strLen (s : Text) : Nat := (utf8 s).length

/-- `&s[pos..]`: `none` (a panic) if `pos` is past the end or not a character boundary. -/
def sliceFrom : Text → Nat → Option Text
  | s, 0 => some s
  | [], _ + 1 => none
  | c :: s, n + 1 =>
    if (String.utf8EncodeChar c).length ≤ n + 1
    then sliceFrom s (n + 1 - (String.utf8EncodeChar c).length) else none

/-- `&s[..pos]`, likewise. -/
def sliceTo : Text → Nat → Option Text
  | _, 0 => some []
  | [], _ + 1 => none
  | c :: s, n + 1 =>
    if (String.utf8EncodeChar c).length ≤ n + 1
    then (sliceTo s (n + 1 - (String.utf8EncodeChar c).length)).map (c :: ·) else none

/-- `str::from_utf8`. -/
def fromUtf8 (bytes : List UInt8) : Option Text :=
  (ByteArray.utf8Decode? bytes.toByteArray).map Array.toList

@[simp] theorem utf8_nil : utf8 [] = [] := rfl
@[simp] theorem utf8_cons (c : Char) (s : Text) : utf8 (c :: s) = String.utf8EncodeChar c ++ utf8 s := by
  simp [utf8]
@[simp] theorem utf8_append (s t : Text) : utf8 (s ++ t) = utf8 s ++ utf8 t := by simp [utf8]

@[simp] theorem strLen_nil : strLen [] = 0 := rfl
theorem strLen_append (s t : Text) : strLen (s ++ t) = strLen s + strLen t := by simp [strLen]
theorem strLen_cons (c : Char) (s : Text) :
    strLen (c :: s) = (String.utf8EncodeChar c).length + strLen s := by simp [strLen]

theorem encode_pos (c : Char) : 0 < (String.utf8EncodeChar c).length := by
  have := c.utf8Size_pos
  simpa using this

theorem encode_ascii {c : Char} (h : c.toNat < 128) :
    String.utf8EncodeChar c = [UInt8.ofNat c.toNat] := by
  have h' : c.val.toNat < 128 := h
  unfold String.utf8EncodeChar
  simp only
  rw [if_pos (by omega)]
  rfl

/-- Characters beyond ASCII: a lead byte of at least `0xc0` and continuation bytes. -/
theorem encode_other {c : Char} (h : 128 ≤ c.toNat) :
    ∃ b bs, String.utf8EncodeChar c = b :: bs ∧ 0xc0 ≤ b.toNat ∧
      ∀ x ∈ bs, 0x80 ≤ x.toNat ∧ x.toNat < 0xc0 := by
  have h' : 128 ≤ c.val.toNat := h
  unfold String.utf8EncodeChar
  simp only
  rw [if_neg (by omega)]
  split
  · refine ⟨_, _, rfl, ?_, ?_⟩
    · simp only [UInt8.toNat_ofNat']; omega
    · simp only [List.mem_cons, List.not_mem_nil, or_false, forall_eq_or_imp, forall_eq,
        UInt8.toNat_ofNat']
      omega
  · split
    · refine ⟨_, _, rfl, ?_, ?_⟩
      · simp only [UInt8.toNat_ofNat']; omega
      · simp only [List.mem_cons, List.not_mem_nil, or_false, forall_eq_or_imp, forall_eq,
          UInt8.toNat_ofNat']
        omega
    · refine ⟨_, _, rfl, ?_, ?_⟩
      · simp only [UInt8.toNat_ofNat']; omega
      · simp only [List.mem_cons, List.not_mem_nil, or_false, forall_eq_or_imp, forall_eq,
          UInt8.toNat_ofNat']
        omega

theorem sliceFrom_append (p s : Text) : sliceFrom (p ++ s) (strLen p) = some s := by
  induction p with
  | nil => cases s <;> rfl
  | cons c p ih =>
    rw [strLen_cons]
    have := encode_pos c
    obtain ⟨n, hn⟩ : ∃ n, (String.utf8EncodeChar c).length + strLen p = n + 1 :=
      ⟨(String.utf8EncodeChar c).length + strLen p - 1, by omega⟩
    rw [hn]
    simp only [List.cons_append, sliceFrom]
    rw [if_pos (by omega), ← ih]
    congr 1
    omega

theorem sliceTo_append (p s : Text) : sliceTo (p ++ s) (strLen p) = some p := by
  induction p with
  | nil => cases s <;> rfl
  | cons c p ih =>
    rw [strLen_cons]
    have := encode_pos c
    obtain ⟨n, hn⟩ : ∃ n, (String.utf8EncodeChar c).length + strLen p = n + 1 :=
      ⟨(String.utf8EncodeChar c).length + strLen p - 1, by omega⟩
    rw [hn]
    simp only [List.cons_append, sliceTo]
    rw [if_pos (by omega), show n + 1 - (String.utf8EncodeChar c).length = strLen p by omega, ih]
    rfl

theorem fromUtf8_utf8 (s : Text) : fromUtf8 (utf8 s) = some s := by
  have : (utf8 s).toByteArray = s.utf8Encode := rfl
  rw [fromUtf8, this, List.utf8Decode?_utf8Encode]
  rfl

end Verif.Std
