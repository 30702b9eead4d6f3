import Verif.Reader.Stable

/-!
# C05: reader primitives are bounds-safe and depend only on bytes they have seen

`WellBehaved` is defined in `Verif/Reader/Spec.lean`.
-/

namespace Verif.Reader

/-- C05 for the fixed size primitives and `skip`/`read_reader`. -/
theorem c05_fixed :
    WellBehaved readU8 ∧ WellBehaved readU7 ∧ (∀ n, WellBehaved (readBytes n)) ∧
    WellBehaved readU32 ∧ WellBehaved readU64 ∧ WellBehaved readReader ∧
    (∀ f, WellBehaved f → WellBehaved (skip f)) :=
  ⟨.readU8, .readU7, .readBytes, .readU32, .readU64, .readReader, fun _ h => h.skip⟩

/-- C05 for the LEB128 primitives. -/
theorem c05_leb :
    WellBehaved readVarU32 ∧ WellBehaved readVarU64 ∧ WellBehaved readVarI32 ∧
    WellBehaved readVarI64 ∧ WellBehaved readVarS33 :=
  ⟨.readVarU32, .readVarU64, .readVarI32, .readVarI64, .readVarS33⟩

/-- C05 for strings, sizes, headers and item lists. -/
theorem c05_strings_lists :
    WellBehaved readString ∧ WellBehaved readUnlimitedString ∧ WellBehaved skipString ∧
    WellBehaved readHeaderVersion ∧ (∀ l d, WellBehaved (readSize l d)) ∧
    (∀ (α : Type) (f : R α) l d, WellBehaved f → WellBehaved (readIter f l d)) :=
  ⟨.readString, .readUnlimitedString, .skipString, .readHeaderVersion, .readSize,
    fun _ _ l d h => h.readIter l d⟩

/-- C05 is compositional: sequencing well behaved methods is well behaved, so every
decoder built from the primitives with `?` is. -/
theorem c05_sequencing {α β : Type} (f : R α) (g : α → R β) (hf : WellBehaved f)
    (hg : ∀ a, WellBehaved (g a)) : WellBehaved (do let a ← f; g a) := hf.bind hg

example : WellBehaved (do let n ← readVarU32; readBytes n.toNat) :=
  c05_sequencing _ _ .readVarU32 fun _ => .readBytes _

/-- The unchecked indexing in `peek` is never out of bounds. -/
theorem c05_peek_no_panic (r : Reader) : peek r = match r.rest with
    | [] => .error (.eof r.originalPosition 1)
    | b :: _ => .ok b := by
  unfold peek ensureHasByte
  simp only [Reader.maxPosition]
  by_cases h : r.position < r.buffer.length
  · have : r.rest = r.buffer[r.position] :: r.buffer.drop (r.position + 1) :=
      List.drop_eq_getElem_cons h
    rw [this]
    simp [h]
  · have : r.rest = [] := List.drop_eq_nil_of_le (by omega)
    rw [this]
    simp [h, Reader.eofErr]

/-- The slice taken by `peek_bytes` is in bounds and has the requested length. -/
theorem c05_peek_bytes (r : Reader) (n : Nat) (bs : List UInt8) (h : peekBytes r n = .ok bs) :
    bs.length = n ∧ bs <+: r.rest := by
  unfold peekBytes ensureHasBytes at h
  simp only [Reader.bytesRemaining, Reader.maxPosition] at h
  by_cases hle : n ≤ r.buffer.length - r.position
  · simp only [hle, if_true, Except.ok.injEq] at h
    subst h
    rw [show r.position + n - r.position = n by omega]
    exact ⟨by simp; omega, List.take_prefix _ _⟩
  · simp [hle] at h

example : peekBytes ⟨[1, 2, 3, 4, 5], 1, 0⟩ 3 = .ok [2, 3, 4] := by decide

/-- What `WellBehaved` gives, spelled out on one primitive: a length-prefixed slice that
does not fit yet asks for exactly the missing bytes, and reads the same once they are
there, whatever follows. -/
example : readReader ⟨[3, 7, 8], 0, 100⟩ = .error (.eof 101 1) ∧
    readReader ⟨[3, 7, 8, 9, 77, 78], 0, 100⟩
      = .ok (⟨[7, 8, 9], 0, 101⟩, ⟨[3, 7, 8, 9, 77, 78], 4, 100⟩) := by decide +kernel

end Verif.Reader
