import Verif.Types.Spec
/-! Bit-level lemmas about `PackedIndex` and `RefType`. -/
namespace Verif.Types

theorem canRepresent_iff (i : BitVec 32) :
    PackedIndex.canRepresentIndex i = true ↔ i.toNat < 2 ^ 20 := by
  unfold PackedIndex.canRepresentIndex
  rw [beq_iff_eq, ← BitVec.toNat_inj, BitVec.toNat_and]
  have : PackedIndex.indexMask.toNat = 2 ^ 20 - 1 := by decide
  rw [this, Nat.and_two_pow_sub_one_eq_mod]
  omega

theorem high_bits {i : BitVec 32} (h : i.toNat < 2 ^ 20) {k : Nat} (hk : 20 ≤ k) :
    i.getLsbD k = false := by
  rw [BitVec.getLsbD, Nat.testBit_lt_two_pow]
  exact Nat.lt_of_lt_of_le h (Nat.pow_le_pow_right (by decide) hk)

/-- The constant part of a concrete or exact reference type. -/
theorem and_const {c m : BitVec 32} {i : BitVec 32} (h : i.toNat < 2 ^ 20)
    (hm : ∀ k, k < 20 → m.getLsbD k = false) : (c ||| i) &&& m = c &&& m := by
  apply BitVec.eq_of_getLsbD_eq
  intro k hk
  by_cases h20 : k < 20
  · simp [hm k h20]
  · simp [high_bits h (Nat.le_of_not_lt h20)]

theorem and_index {c m : BitVec 32} {i : BitVec 32} (h : i.toNat < 2 ^ 20)
    (hm : ∀ k, k < 20 → m.getLsbD k = true ∧ c.getLsbD k = false) :
    (c ||| i) &&& m = (c &&& m) ||| i := by
  apply BitVec.eq_of_getLsbD_eq
  intro k hk
  by_cases h20 : k < 20
  · simp [hm k h20]
  · simp [high_bits h (Nat.le_of_not_lt h20)]

/-- The kind bits of a packed index. -/
def UnpackedIndex.kindOf : UnpackedIndex → BitVec 32
  | .module _ => PackedIndex.moduleKind
  | .recGroup _ => PackedIndex.recGroupKind
  | .id _ => PackedIndex.idKind

def UnpackedIndex.raw : UnpackedIndex → BitVec 32
  | .module i | .recGroup i | .id i => i

theorem UnpackedIndex.fits_iff (u : UnpackedIndex) : u.Fits ↔ u.raw.toNat < 2 ^ 20 := by
  cases u <;> rfl

theorem pack_eq (u : UnpackedIndex) :
    u.pack = if u.raw.toNat < 2 ^ 20 then some ⟨u.kindOf ||| u.raw⟩ else none := by
  by_cases h : u.raw.toNat < 2 ^ 20
  · have h' := (canRepresent_iff u.raw).2 h
    rw [if_pos h]
    cases u <;> exact if_pos h'
  · have h' : ¬ _ := fun x => h ((canRepresent_iff u.raw).1 x)
    rw [if_neg h]
    cases u <;> exact if_neg h'

theorem kind_cases (u : UnpackedIndex) : u.kindOf = PackedIndex.moduleKind ∨
    u.kindOf = PackedIndex.recGroupKind ∨ u.kindOf = PackedIndex.idKind := by
  cases u <;> simp [UnpackedIndex.kindOf]

theorem unpack_kind (u : UnpackedIndex) (h : u.raw.toNat < 2 ^ 20) :
    (PackedIndex.mk (u.kindOf ||| u.raw)).unpack = some u := by
  have h1 : (PackedIndex.mk (u.kindOf ||| u.raw)).kind = u.kindOf := by
    unfold PackedIndex.kind
    rw [and_const h (by decide)]
    rcases kind_cases u with e | e | e <;> rw [e] <;> decide
  have h2 : (PackedIndex.mk (u.kindOf ||| u.raw)).index = u.raw := by
    unfold PackedIndex.index
    rw [and_index h (by rcases kind_cases u with e | e | e <;> rw [e] <;> decide)]
    have : u.kindOf &&& PackedIndex.indexMask = 0 := by
      rcases kind_cases u with e | e | e <;> rw [e] <;> decide
    rw [this]; simp
  unfold PackedIndex.unpack
  rw [h1, h2]
  cases u <;> rfl

/-- Every bit of a constant that a concrete type needs. -/
theorem concrete_view (n e : Bool) (u : UnpackedIndex) (h : u.raw.toNat < 2 ^ 20) :
    let t : RefType := if e then RefType.exact n ⟨u.kindOf ||| u.raw⟩
      else RefType.concrete n ⟨u.kindOf ||| u.raw⟩
    t.isNullable = n ∧ t.heapType = some (if e then .exact u else .concrete u) ∧
      RefType.bitsOk t.bits = true := by
  intro t
  obtain ⟨c, hc, hbits⟩ : ∃ c, c = (RefType.bitIf RefType.nullableBit n |||
      (if e then RefType.exactBit else 0) ||| RefType.concreteBit ||| u.kindOf) ∧
      t.bits = c ||| u.raw := by
    refine ⟨_, rfl, ?_⟩
    cases e <;> simp only [t, RefType.exact, RefType.concrete, if_true, if_false,
      Bool.false_eq_true, BitVec.or_zero, BitVec.zero_or, BitVec.or_assoc] <;> simp
  have hN : t.isNullable = n := by
    unfold RefType.isNullable
    rw [hbits, and_const h (by decide), hc]
    rcases kind_cases u with k | k | k <;> rw [k] <;> cases e <;> cases n <;> decide
  have hC : t.isConcreteTypeRef = true := by
    unfold RefType.isConcreteTypeRef
    rw [hbits, and_const h (by decide), hc]
    rcases kind_cases u with k | k | k <;> rw [k] <;> cases e <;> cases n <;> decide
  have hE : t.isExactTypeRef = e := by
    unfold RefType.isExactTypeRef
    have : ~~~ t.bits &&& (RefType.exactBit ||| RefType.concreteBit) =
        ~~~ c &&& (RefType.exactBit ||| RefType.concreteBit) := by
      rw [hbits, BitVec.not_or, BitVec.and_assoc, BitVec.and_comm (~~~ u.raw)]
      apply BitVec.eq_of_getLsbD_eq
      intro k hk
      by_cases h20 : k < 20
      · have : (RefType.exactBit ||| RefType.concreteBit).getLsbD k = false := by
          have : ∀ k, k < 20 → (RefType.exactBit ||| RefType.concreteBit).getLsbD k = false := by
            decide
          exact this k h20
        simp only [BitVec.getLsbD_and, this, Bool.and_false, Bool.false_and]
      · simp only [BitVec.getLsbD_and, BitVec.getLsbD_not,
          high_bits h (Nat.le_of_not_lt h20), hk, decide_true, Bool.not_false, Bool.and_true]
    rw [this, hc]
    rcases kind_cases u with k | k | k <;> rw [k] <;> cases e <;> cases n <;> decide
  have hI : t.typeIndex = some ⟨u.kindOf ||| u.raw⟩ := by
    unfold RefType.typeIndex
    rw [hC, if_pos rfl, hbits, and_index h
      (by rw [hc]; rcases kind_cases u with k | k | k <;> rw [k] <;> cases e <;> cases n <;> decide)]
    have : c &&& RefType.indexMask = u.kindOf := by
      rw [hc]
      rcases kind_cases u with k | k | k <;> rw [k] <;> cases e <;> cases n <;> decide
    rw [this]
  refine ⟨hN, ?_, ?_⟩
  · unfold RefType.heapType
    rw [hC, hE, hI]
    cases e <;> simp [unpack_kind u h]
  · unfold RefType.bitsOk
    have h1 : t.bits &&& (0b1111111#32 <<< 25) = 0 := by
      rw [hbits, and_const h (by decide), hc]
      rcases kind_cases u with k | k | k <;> rw [k] <;> cases e <;> cases n <;> decide
    have h2 : (t.bits &&& RefType.concreteBit != 0) = true := hC
    rw [h1, h2]; rfl

theorem abstract_view (n s : Bool) (ty : AbsHeap) :
    let t : RefType := ⟨RefType.bitIf RefType.nullableBit n ||| RefType.bitIf RefType.sharedBit s |||
      RefType.abstypeOf ty⟩
    t.isNullable = n ∧ t.heapType = some (.abstract s ty) ∧ RefType.bitsOk t.bits = true := by
  cases n <;> cases s <;> cases ty <;> decide

/-- `RefType::new` in full. -/
theorem new_spec (n : Bool) (h : HeapType) :
    (h.Fits → ∃ t, RefType.new n h = some t ∧ t.Is n h ∧ RefType.bitsOk t.bits = true) ∧
    (¬ h.Fits → RefType.new n h = none) := by
  cases h with
  | abstract s ty =>
    refine ⟨fun _ => ⟨_, rfl, ?_⟩, fun h => absurd trivial h⟩
    have := abstract_view n s ty
    exact ⟨⟨this.1, this.2.1⟩, this.2.2⟩
  | concrete u =>
    simp only [HeapType.Fits, UnpackedIndex.fits_iff, RefType.new, pack_eq]
    refine ⟨fun h => ?_, fun h => ?_⟩
    · rw [if_pos h]
      refine ⟨_, rfl, ?_⟩
      have := concrete_view n false u h
      exact ⟨⟨this.1, this.2.1⟩, this.2.2⟩
    · rw [if_neg h]; rfl
  | exact u =>
    simp only [HeapType.Fits, UnpackedIndex.fits_iff, RefType.new, pack_eq]
    refine ⟨fun h => ?_, fun h => ?_⟩
    · rw [if_pos h]
      refine ⟨_, rfl, ?_⟩
      have := concrete_view n true u h
      exact ⟨⟨this.1, this.2.1⟩, this.2.2⟩
    · rw [if_neg h]; rfl

theorem new_is {n : Bool} {h : HeapType} {t : RefType} (e : RefType.new n h = some t) :
    t.Is n h ∧ RefType.bitsOk t.bits = true ∧ h.Fits := by
  by_cases hf : h.Fits
  · obtain ⟨t', e', h'⟩ := (new_spec n h).1 hf
    rw [e] at e'; cases e'
    exact ⟨h'.1, h'.2, hf⟩
  · rw [(new_spec n h).2 hf] at e; cases e

/-- Packed values are determined by their view: all bits are accounted for. -/
theorem RefType.Is.unique {t t' : RefType} {n h} (m : RefType.new n h = some t)
    (m' : RefType.new n h = some t') : t = t' := by
  rw [m] at m'; injection m'

theorem asNonNull_new {n h t} (e : RefType.new n h = some t) :
    RefType.new false h = some t.asNonNull := by
  have hm : ∀ x : BitVec 32, (RefType.bitIf RefType.nullableBit n ||| x) &&& ~~~RefType.nullableBit =
      x &&& ~~~RefType.nullableBit := by
    intro x
    apply BitVec.eq_of_getLsbD_eq
    intro k hk
    cases n
    · have : RefType.bitIf RefType.nullableBit false = 0 := by decide
      rw [this]; simp
    · have : RefType.bitIf RefType.nullableBit true = RefType.nullableBit := by decide
      rw [this]
      simp only [BitVec.getLsbD_and, BitVec.getLsbD_or, BitVec.getLsbD_not]
      cases RefType.nullableBit.getLsbD k <;> simp
  have h0 : RefType.bitIf RefType.nullableBit false = 0 := by decide
  have hidx : ∀ u : UnpackedIndex, u.raw.toNat < 2 ^ 20 → ∀ c : BitVec 32,
      (∀ k, k < 20 → c.getLsbD k = false) → c &&& ~~~RefType.nullableBit = c →
      (c ||| (u.kindOf ||| u.raw)) &&& ~~~RefType.nullableBit = c ||| (u.kindOf ||| u.raw) := by
    intro u hu c hc hcn
    apply BitVec.eq_of_getLsbD_eq
    intro k hk
    have hcn' := congrArg (fun x => x.getLsbD k) hcn
    have hk' : u.kindOf &&& ~~~RefType.nullableBit = u.kindOf := by
      rcases kind_cases u with e | e | e <;> rw [e] <;> decide
    have hk'' := congrArg (fun x => x.getLsbD k) hk'
    simp only [BitVec.getLsbD_and, BitVec.getLsbD_or, BitVec.getLsbD_not] at hcn' hk'' ⊢
    by_cases hn : RefType.nullableBit.getLsbD k = true
    · have : ¬ k < 20 := by
        intro hlt
        have : ∀ k, k < 20 → RefType.nullableBit.getLsbD k = false := by decide
        rw [this k hlt] at hn; cases hn
      rw [high_bits hu (Nat.le_of_not_lt this)]
      revert hcn' hk''
      cases c.getLsbD k <;> cases u.kindOf.getLsbD k <;> simp [hn]
    · simp only [Bool.not_eq_true] at hn
      simp only [hn, hk, decide_true, Bool.not_false, Bool.and_true]
  cases h with
  | abstract s ty =>
    cases e
    simp only [RefType.asNonNull, RefType.new]
    cases n <;> cases s <;> cases ty <;> decide
  | concrete u =>
    simp only [RefType.new, pack_eq] at e ⊢
    by_cases hu : u.raw.toNat < 2 ^ 20
    · rw [if_pos hu] at e ⊢
      cases e
      simp only [RefType.asNonNull, RefType.concrete, BitVec.or_assoc, hm, h0]
      rw [hidx u hu _ (by decide) (by decide)]
      simp
    · rw [if_neg hu] at e; cases e
  | exact u =>
    simp only [RefType.new, pack_eq] at e ⊢
    by_cases hu : u.raw.toNat < 2 ^ 20
    · rw [if_pos hu] at e ⊢
      cases e
      simp only [RefType.asNonNull, RefType.exact, BitVec.or_assoc, hm, h0]
      rw [← BitVec.or_assoc RefType.exactBit, hidx u hu _ (by decide) (by decide)]
      simp [BitVec.or_assoc]
    · rw [if_neg hu] at e; cases e

theorem nullable_new {n h t} (e : RefType.new n h = some t) :
    RefType.new true h = some t.nullable := by
  have h0 : RefType.bitIf RefType.nullableBit true = RefType.nullableBit := by decide
  have hm : ∀ x : BitVec 32, RefType.bitIf RefType.nullableBit n ||| x ||| RefType.nullableBit =
      RefType.nullableBit ||| x := by
    intro x
    cases n
    · have : RefType.bitIf RefType.nullableBit false = 0 := by decide
      rw [this]; simp [BitVec.or_comm]
    · rw [h0, BitVec.or_comm, ← BitVec.or_assoc, BitVec.or_self]
  cases h with
  | abstract s ty =>
    cases e
    simp only [RefType.nullable, RefType.new]
    rw [BitVec.or_assoc (RefType.bitIf RefType.nullableBit n), hm, h0, BitVec.or_assoc]
  | concrete u =>
    simp only [RefType.new, pack_eq] at e ⊢
    by_cases hu : u.raw.toNat < 2 ^ 20
    · rw [if_pos hu] at e ⊢
      cases e
      simp only [RefType.nullable, RefType.concrete]
      rw [BitVec.or_assoc (RefType.bitIf RefType.nullableBit n), hm, h0]
      simp [BitVec.or_assoc]
    · rw [if_neg hu] at e; cases e
  | exact u =>
    simp only [RefType.new, pack_eq] at e ⊢
    by_cases hu : u.raw.toNat < 2 ^ 20
    · rw [if_pos hu] at e ⊢
      cases e
      simp only [RefType.nullable, RefType.exact]
      rw [BitVec.or_assoc (RefType.bitIf RefType.nullableBit n),
        BitVec.or_assoc (RefType.bitIf RefType.nullableBit n), hm, h0]
      simp [BitVec.or_assoc]
    · rw [if_neg hu] at e; cases e

theorem isConcrete_iff {n h t} (e : RefType.new n h = some t) :
    t.isConcreteTypeRef = match h with | .abstract .. => false | _ => true := by
  have := (new_is e).1.2
  unfold RefType.heapType at this
  cases hc : t.isConcreteTypeRef
  · rw [hc] at this
    cases h with
    | abstract => rfl
    | concrete u => simp [Option.bind_eq_some_iff] at this
    | exact u => simp [Option.bind_eq_some_iff] at this
  · rw [hc] at this
    cases h with
    | abstract =>
      simp only [if_true] at this
      split at this <;> simp [Option.bind_eq_some_iff] at this
    | concrete u => rfl
    | exact u => rfl

theorem shared_new {n h t t'} (e : RefType.new n h = some t) (hs : t.shared = some t') :
    ∃ s ty, h = .abstract s ty ∧ RefType.new n (.abstract true ty) = some t' := by
  have hc := isConcrete_iff e
  cases h with
  | abstract s ty =>
    refine ⟨s, ty, rfl, ?_⟩
    cases e
    unfold RefType.shared at hs
    rw [hc] at hs
    simp only [Bool.false_eq_true, if_false, Option.some.injEq] at hs
    subst hs
    cases n <;> cases s <;> cases ty <;> decide
  | concrete u => unfold RefType.shared at hs; rw [hc] at hs; cases hs
  | exact u => unfold RefType.shared at hs; rw [hc] at hs; cases hs

theorem made_new {t : RefType} (m : t.Made) : ∃ n h, RefType.new n h = some t := by
  induction m with
  | new e => exact ⟨_, _, e⟩
  | asNonNull _ ih => obtain ⟨n, h, e⟩ := ih; exact ⟨_, _, asNonNull_new e⟩
  | nullable _ ih => obtain ⟨n, h, e⟩ := ih; exact ⟨_, _, nullable_new e⟩
  | shared _ hs ih =>
    obtain ⟨n, h, e⟩ := ih
    obtain ⟨s, ty, _, e'⟩ := shared_new e hs
    exact ⟨_, _, e'⟩
  | difference _ _ hd _ _ =>
    unfold RefType.difference at hd
    simp only [Option.bind_eq_bind, Option.bind_eq_some_iff] at hd
    obtain ⟨h, _, e⟩ := hd
    exact ⟨_, _, e⟩

end Verif.Types
