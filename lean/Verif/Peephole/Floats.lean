import Mathlib.Tactic.Linarith
import Mathlib.Tactic.NormNum
import Mathlib.Algebra.Order.Archimedean.Basic
import Verif.Float.Round
import Verif.Peephole.Spec
/-
Helper lemmas for the peephole rules: arithmetic on floats.
-/
namespace Verif.Peephole

open Spec Verif.Float Verif.Float.Spec

theorem magnitude_zero (F : Fmt) : magnitude F 0 = 0 := by
  simp [magnitude]

theorem gap_mono (F : Fmt) (b : Nat) : gap F 0 ≤ gap F b := by
  unfold gap
  apply zpow_le_zpow_right₀ (by norm_num)
  have : max (0 / 2 ^ fracBits F) 1 ≤ max (b / 2 ^ fracBits F) 1 := by
    rw [Nat.zero_div]; exact Nat.le_max_right _ _ |>.trans' (by decide)
  have : ((max (0 / 2 ^ fracBits F) 1 : Nat) : Int) ≤ ((max (b / 2 ^ fracBits F) 1 : Nat) : Int) := by exact_mod_cast this
  linarith

/-- Magnitudes are not bounded. -/
theorem le_magnitude (F : Fmt) (b : Nat) : (b : ℚ) * gap F 0 ≤ magnitude F b := by
  induction b with
  | zero => simp [magnitude_zero]
  | succ b ih =>
    rw [magnitude_succ]
    have := gap_mono F b
    push_cast
    linarith

/-- Every number can be rounded. -/
theorem rounds_exists (F : Fmt) {v : ℚ} (hv : 0 ≤ v) : ∃ b, Rounds F v b := by
  have hex : ∃ b, v < magnitude F b := by
    obtain ⟨n, hn⟩ := exists_nat_gt (v / gap F 0)
    have hg := gap_pos F 0
    refine ⟨n, lt_of_lt_of_le ?_ (le_magnitude F n)⟩
    rwa [div_lt_iff₀ hg] at hn
  classical
  have h1 := Nat.find_spec hex
  have h2 : ∀ m, m < Nat.find hex → ¬ v < magnitude F m := fun m hm => Nat.find_min hex hm
  generalize Nat.find hex = n at h1 h2
  cases n with
  | zero => rw [magnitude_zero] at h1; linarith
  | succ b =>
    have h3 : magnitude F b ≤ v := not_lt.mp (h2 b (Nat.lt_succ_self b))
    rcases lt_trichotomy (v - magnitude F b) (magnitude F (b + 1) - v) with h | h | h
    · exact ⟨b, rounds_down h3 (.inl h)⟩
    · rcases Nat.mod_two_eq_zero_or_one b with hb | hb
      · exact ⟨b, rounds_down h3 (.inr ⟨h, hb⟩)⟩
      · exact ⟨b + 1, rounds_up h1.le (.inr ⟨h, hb⟩)⟩
    · exact ⟨b + 1, rounds_up h1.le (.inl h)⟩

/-! ## Signs and magnitudes -/

theorem mag_lt (t : FTy) (a : BitVec t.bits) : mag t a < 2 ^ (t.bits - 1) := Nat.mod_lt _ (Nat.two_pow_pos _)

theorem infinity_lt (t : FTy) : infinity (fmt t) < 2 ^ (t.bits - 1) := by cases t <;> decide

theorem infinity_pos (t : FTy) : 0 < infinity (fmt t) := by cases t <;> decide

theorem infinity_lt_canonical (t : FTy) : infinity (fmt t) < canonicalMag t := by cases t <;> decide

theorem canonical_lt (t : FTy) : canonicalMag t < 2 ^ (t.bits - 1) := by cases t <;> decide

theorem ofNat_msb {n : Nat} (hn : 0 < n) (a : BitVec n) :
    BitVec.ofNat n ((if a.msb = true then 2 ^ (n - 1) else 0) + a.toNat % 2 ^ (n - 1)) = a := by
  apply BitVec.eq_of_toNat_eq
  have h := a.isLt
  have hp : 2 ^ n = 2 * 2 ^ (n - 1) := by
    rw [← Nat.pow_succ']; congr 1; omega
  rw [BitVec.toNat_ofNat, BitVec.msb_eq_decide]
  simp only [decide_eq_true_eq]
  rw [hp] at h ⊢
  split
  · next h1 =>
    have : a.toNat % 2 ^ (n - 1) = a.toNat - 2 ^ (n - 1) := by
      rw [Nat.mod_eq_sub_mod h1, Nat.mod_eq_of_lt (by omega)]
    rw [this, Nat.mod_eq_of_lt (by omega)]; omega
  · next h1 =>
    rw [Nat.mod_eq_of_lt (by omega : a.toNat < 2 ^ (n - 1)), Nat.mod_eq_of_lt (by omega)]; omega

theorem withSign_self (t : FTy) (a : BitVec t.bits) : withSign t (negative t a) (mag t a) = a := by
  cases t
  · exact ofNat_msb (by decide) a
  · exact ofNat_msb (by decide) a

theorem mag_withSign (t : FTy) (s : Bool) {m : Nat} (h : m < 2 ^ (t.bits - 1)) : mag t (withSign t s m) = m := by
  cases t <;> cases s <;>
    simp only [withSign, mag, BitVec.toNat_ofNat, signBit, fmt, Float.f32, Float.f64, FTy.bits, if_true, if_false,
      Bool.false_eq_true] at h ⊢ <;> omega

theorem negative_withSign (t : FTy) (s : Bool) {m : Nat} (h : m < 2 ^ (t.bits - 1)) :
    negative t (withSign t s m) = s := by
  cases t <;> cases s <;>
    simp only [withSign, negative, BitVec.msb_eq_decide, BitVec.toNat_ofNat, signBit, fmt, Float.f32, Float.f64, FTy.bits,
      if_true, if_false, Bool.false_eq_true, decide_eq_true_eq, decide_eq_false_iff_not] at h ⊢ <;> omega

theorem isNan_of_canonical {t : FTy} {a : BitVec t.bits} (h : isCanonical t a) : isNan t a := by
  unfold isCanonical at h
  unfold isNan
  rw [h]
  exact infinity_lt_canonical t

theorem isNan_of_arithmetic {t : FTy} {a : BitVec t.bits} (h : isArithmetic t a) : isNan t a :=
  lt_of_lt_of_le (infinity_lt_canonical t) h

theorem NanResult.nan {t : FTy} {a b r : BitVec t.bits} (h : NanResult t a b r) : isNan t r := by
  unfold NanResult at h
  split at h
  · exact isNan_of_canonical h
  · exact isNan_of_arithmetic h

theorem NanResult.comm {t : FTy} {a b r : BitVec t.bits} (h : NanResult t a b r) : NanResult t b a r := by
  unfold NanResult at h ⊢
  by_cases hc : (isNan t a → isCanonical t a) ∧ (isNan t b → isCanonical t b)
  · rw [if_pos hc] at h; rw [if_pos hc.symm]; exact h
  · rw [if_neg hc] at h; rw [if_neg (fun hx => hc hx.symm)]; exact h

theorem RoundsTo.unique {t : FTy} {s : Bool} {v : ℚ} {r r' : BitVec t.bits} (h : RoundsTo t s v r)
    (h' : RoundsTo t s v r') : r = r' := by
  obtain ⟨m, h1, rfl⟩ := h
  obtain ⟨m', h2, rfl⟩ := h'
  rw [Float.Rounds.unique h1 h2]

/-! ## Multiplication -/

/-- The product is a function, up to NaNs, and does not depend on the order. -/
theorem FMul.comm {t : FTy} {a b r r' : BitVec t.bits} (h : FMul t a b r) (h' : FMul t b a r') :
    r = r' ∨ (isNan t r ∧ isNan t r') := by
  unfold FMul at h h'
  dsimp only at h h'
  by_cases h1 : isNan t a ∨ isNan t b
  · rw [if_pos h1] at h
    rw [if_pos h1.symm] at h'
    exact .inr ⟨NanResult.nan h, NanResult.nan h'⟩
  rw [if_neg h1] at h
  rw [if_neg (fun hx => h1 hx.symm)] at h'
  have hc : (negative t b != negative t a) = (negative t a != negative t b) := by
    cases negative t a <;> cases negative t b <;> rfl
  by_cases h2 : isInf t a ∨ isInf t b
  · rw [if_pos h2] at h
    rw [if_pos h2.symm] at h'
    by_cases h3 : mag t a = 0 ∨ mag t b = 0
    · rw [if_pos h3] at h
      rw [if_pos h3.symm] at h'
      exact .inr ⟨isNan_of_canonical h, isNan_of_canonical h'⟩
    · rw [if_neg h3] at h
      rw [if_neg (fun hx => h3 hx.symm), hc] at h'
      exact .inl (h.trans h'.symm)
  · rw [if_neg h2] at h
    rw [if_neg (fun hx => h2 hx.symm), hc, mul_comm] at h'
    exact .inl (RoundsTo.unique h h')

theorem one_mag (t : FTy) : magnitude (fmt t) (mag t (fone t)) = 1 := by
  cases t
  · show magnitude Float.f32 (0x3f800000 % 2 ^ 31) = 1
    simp only [magnitude, Float.f32, fracBits, bias]
    norm_num
  · show magnitude Float.f64 (0x3ff0000000000000 % 2 ^ 63) = 1
    simp only [magnitude, Float.f64, fracBits, bias]
    norm_num

/-- Multiplication by one. -/
theorem FMul.one {t : FTy} {a r : BitVec t.bits} (h : FMul t a (fone t) r) :
    (¬ isNan t a → r = a) ∧ (isNan t a → isNan t r) := by
  unfold FMul at h
  dsimp only at h
  have n1 : ¬ isNan t (fone t) := by cases t <;> decide
  have i1 : ¬ isInf t (fone t) := by cases t <;> decide
  have m1 : mag t (fone t) ≠ 0 := by cases t <;> decide
  have s1 : negative t (fone t) = false := by cases t <;> decide
  have hs : (negative t a != negative t (fone t)) = negative t a := by
    rw [s1]; cases negative t a <;> rfl
  by_cases hn : isNan t a
  · rw [if_pos (.inl hn)] at h
    exact ⟨fun hx => absurd hn hx, fun _ => NanResult.nan h⟩
  refine ⟨fun _ => ?_, fun hx => absurd hx hn⟩
  rw [if_neg (by rintro (hx | hx) <;> contradiction), hs] at h
  by_cases hi : isInf t a
  · rw [if_pos (.inl hi), if_neg] at h
    · rw [h, ← hi, withSign_self]
    · rintro (hx | hx)
      · have := infinity_pos t; rw [← hi, hx] at this; exact absurd this (by decide)
      · exact m1 hx
  · rw [if_neg (by rintro (hx | hx) <;> contradiction), one_mag, mul_one] at h
    obtain ⟨m, h1, rfl⟩ := h
    rw [Float.Rounds.unique h1 (rounds_self _ _)]
    rw [Nat.min_eq_left (Nat.not_lt.mp hn), withSign_self]

/-- A signalling NaN is not the product of anything. -/
theorem FMul.not_signalling {t : FTy} {a b r : BitVec t.bits} (h : FMul t a b r) (hn : isNan t r) :
    isArithmetic t r := by
  have can : isCanonical t r → isArithmetic t r := fun hx => le_of_eq hx.symm
  have fin : ∀ s m, m ≤ infinity (fmt t) → r = withSign t s m → False := by
    rintro s m hm rfl
    unfold isNan at hn
    rw [mag_withSign t s (lt_of_le_of_lt hm (infinity_lt t))] at hn
    omega
  unfold FMul at h
  dsimp only at h
  split at h
  · unfold NanResult at h
    split at h
    · exact can h
    · exact h
  · split at h
    · split at h
      · exact can h
      · exact (fin _ _ (Nat.le_refl _) h).elim
    · obtain ⟨m, -, h1⟩ := h
      exact (fin _ _ (Nat.min_le_right _ _) h1).elim

/-! ## Addition -/

theorem magnitude_nonneg (F : Fmt) (b : Nat) : 0 ≤ magnitude F b := by
  rw [← magnitude_zero F]; exact magnitude_mono F (Nat.zero_le b)

theorem magnitude_eq_zero {F : Fmt} {b : Nat} (h : magnitude F b = 0) : b = 0 := by
  by_contra hb
  have := magnitude_strictMono F (Nat.pos_of_ne_zero hb)
  rw [magnitude_zero, h] at this
  exact lt_irrefl _ this

theorem eq_of_sign {t : FTy} {a b : BitVec t.bits} (hm : mag t a = mag t b) (hn : negative t a = negative t b) :
    a = b := by
  rw [← withSign_self t a, ← withSign_self t b, hm, hn]

/-- The sum is a function, up to NaNs, and does not depend on the order. -/
theorem FAdd.comm {t : FTy} {a b r r' : BitVec t.bits} (h : FAdd t a b r) (h' : FAdd t b a r') :
    r = r' ∨ (isNan t r ∧ isNan t r') := by
  unfold FAdd at h h'
  dsimp only at h h'
  by_cases h1 : isNan t a ∨ isNan t b
  · rw [if_pos h1] at h
    rw [if_pos h1.symm] at h'
    exact .inr ⟨NanResult.nan h, NanResult.nan h'⟩
  rw [if_neg h1] at h
  rw [if_neg (fun hx => h1 hx.symm)] at h'
  by_cases ha : isInf t a
  · rw [if_pos ha] at h
    by_cases hb : isInf t b
    · rw [if_pos hb] at h'
      by_cases hn : negative t a = negative t b
      · rw [if_neg (fun hx => hx.2 hn)] at h
        rw [if_neg (fun hx => hx.2 hn.symm)] at h'
        rw [h, h']
        exact .inl (eq_of_sign (Eq.trans ha (Eq.symm hb)) hn)
      · rw [if_pos ⟨hb, hn⟩] at h
        rw [if_pos ⟨ha, fun hx => hn hx.symm⟩] at h'
        exact .inr ⟨isNan_of_canonical h, isNan_of_canonical h'⟩
    · rw [if_neg (fun hx => hb hx.1)] at h
      rw [if_neg hb, if_pos ha] at h'
      exact .inl (h.trans h'.symm)
  · rw [if_neg ha] at h
    by_cases hb : isInf t b
    · rw [if_pos hb] at h h'
      rw [if_neg (fun hx => ha hx.1)] at h'
      exact .inl (h.trans h'.symm)
    · rw [if_neg hb] at h h'
      rw [if_neg ha, add_comm, Bool.and_comm] at h'
      by_cases hz : value t a + value t b = 0
      · rw [if_pos hz] at h h'
        exact .inl (h.trans h'.symm)
      · rw [if_neg hz] at h h'
        exact .inl (RoundsTo.unique h h')

/-- Addition of zero, except to negative zero. -/
theorem FAdd.zero {t : FTy} {a r : BitVec t.bits} (h : FAdd t a 0 r) :
    (¬ isNan t a → a ≠ withSign t true 0 → r = a) ∧ (isNan t a → isNan t r) := by
  unfold FAdd at h
  dsimp only at h
  have n1 : ¬ isNan t 0 := by cases t <;> decide
  have i1 : ¬ isInf t 0 := by cases t <;> decide
  have m1 : mag t 0 = 0 := by cases t <;> decide
  have s1 : negative t 0 = false := by cases t <;> decide
  have v1 : value t 0 = 0 := by
    unfold value
    rw [s1, m1, magnitude_zero]
    simp
  by_cases hn : isNan t a
  · rw [if_pos (.inl hn)] at h
    exact ⟨fun hx => absurd hn hx, fun _ => NanResult.nan h⟩
  refine ⟨fun _ hneg => ?_, fun hx => absurd hx hn⟩
  rw [if_neg (by rintro (hx | hx) <;> contradiction)] at h
  by_cases hi : isInf t a
  · rw [if_pos hi, if_neg (fun hx => i1 hx.1)] at h
    exact h
  · rw [if_neg hi, if_neg i1, v1, add_zero] at h
    have hm : 0 ≤ magnitude (fmt t) (mag t a) := magnitude_nonneg _ _
    by_cases hz : value t a = 0
    · rw [if_pos hz, s1, Bool.and_false] at h
      have hz' : mag t a = 0 := by
        unfold value at hz
        split at hz
        · exact magnitude_eq_zero (by linarith)
        · exact magnitude_eq_zero hz
      have hna : negative t a = false := by
        cases hc : negative t a with
        | false => rfl
        | true => exact absurd (by rw [← withSign_self t a, hc, hz']) hneg
      rw [h, ← withSign_self t a, hz', hna]
    · rw [if_neg hz] at h
      obtain ⟨m, h1, rfl⟩ := h
      have hpos : 0 < magnitude (fmt t) (mag t a) := by
        rcases lt_or_eq_of_le hm with hx | hx
        · exact hx
        · exfalso; apply hz; unfold value; rw [← hx]; simp
      have habs : |value t a| = magnitude (fmt t) (mag t a) := by
        unfold value
        split
        · rw [abs_neg, abs_of_nonneg hm]
        · exact abs_of_nonneg hm
      have hsgn : decide (value t a < 0) = negative t a := by
        unfold value
        cases negative t a with
        | true => simp [hpos]
        | false => simp [hm]
      rw [habs] at h1
      rw [hsgn, Float.Rounds.unique h1 (rounds_self _ _), Nat.min_eq_left (Nat.not_lt.mp hn), withSign_self]

/-- Negative zero and zero is zero. -/
theorem FAdd.negZero {t : FTy} {r : BitVec t.bits} (h : FAdd t (withSign t true 0) 0 r) : r = 0 := by
  unfold FAdd at h
  dsimp only at h
  have m0 : mag t (withSign t true 0) = 0 := mag_withSign t true (Nat.two_pow_pos _)
  have s0 : negative t (withSign t true 0) = true := negative_withSign t true (Nat.two_pow_pos _)
  have m1 : mag t 0 = 0 := by cases t <;> decide
  have s1 : negative t 0 = false := by cases t <;> decide
  have hp := infinity_pos t
  rw [if_neg, if_neg, if_neg, if_pos, s0, s1] at h
  · rw [h]; cases t <;> decide
  · unfold value; rw [s0, s1, m0, m1, magnitude_zero]; simp
  · unfold isInf; rw [m1]; omega
  · unfold isInf; rw [m0]; omega
  · unfold isNan; rw [m0, m1]; omega

/-! ## There are implementations -/

theorem canonical_exists (t : FTy) : ∃ r, isCanonical t r :=
  ⟨withSign t false (canonicalMag t), mag_withSign t false (canonical_lt t)⟩

/-- The canonical NaN that engines may always return. -/
def qnan (t : FTy) : BitVec t.bits := withSign t false (canonicalMag t)

theorem qnan_result (t : FTy) (a b : BitVec t.bits) : NanResult t a b (qnan t) := by
  have : mag t (qnan t) = canonicalMag t := mag_withSign t false (canonical_lt t)
  unfold NanResult
  split
  · exact this
  · exact le_of_eq this.symm

theorem fmul_exists (t : FTy) (a b : BitVec t.bits) : ∃ r, FMul t a b r ∧ (isNan t r → r = qnan t) := by
  have hq : mag t (qnan t) = canonicalMag t := mag_withSign t false (canonical_lt t)
  unfold FMul
  dsimp only
  split
  · exact ⟨qnan t, qnan_result t a b, fun _ => rfl⟩
  · split
    · split
      · exact ⟨qnan t, hq, fun _ => rfl⟩
      · refine ⟨_, rfl, fun hx => ?_⟩
        unfold isNan at hx
        rw [mag_withSign t _ (infinity_lt t)] at hx
        exact absurd hx (lt_irrefl _)
    · obtain ⟨m, hm⟩ := rounds_exists (fmt t) (mul_nonneg (magnitude_nonneg (fmt t) (mag t a)) (magnitude_nonneg (fmt t) (mag t b)))
      refine ⟨_, ⟨m, hm, rfl⟩, fun hx => ?_⟩
      unfold isNan at hx
      rw [mag_withSign t _ (lt_of_le_of_lt (Nat.min_le_right _ _) (infinity_lt t))] at hx
      have := Nat.min_le_right m (infinity (fmt t))
      omega

theorem fadd_exists (t : FTy) (a b : BitVec t.bits) : ∃ r, FAdd t a b r ∧ (isNan t r → r = qnan t) := by
  have hq : mag t (qnan t) = canonicalMag t := mag_withSign t false (canonical_lt t)
  have hinf : ∀ x : BitVec t.bits, isInf t x → isNan t x → x = qnan t := by
    intro x h1 h2
    unfold isInf at h1
    unfold isNan at h2
    omega
  unfold FAdd
  dsimp only
  split
  · exact ⟨qnan t, qnan_result t a b, fun _ => rfl⟩
  · split
    · next hi =>
      split
      · exact ⟨qnan t, hq, fun _ => rfl⟩
      · exact ⟨a, rfl, hinf a hi⟩
    · split
      · next hi => exact ⟨b, rfl, hinf b hi⟩
      · split
        · refine ⟨_, rfl, fun hx => ?_⟩
          unfold isNan at hx
          rw [mag_withSign t _ (Nat.two_pow_pos _)] at hx
          omega
        · obtain ⟨m, hm⟩ := rounds_exists (fmt t) (abs_nonneg (value t a + value t b))
          refine ⟨_, ⟨m, hm, rfl⟩, fun hx => ?_⟩
          unfold isNan at hx
          rw [mag_withSign t _ (lt_of_le_of_lt (Nat.min_le_right _ _) (infinity_lt t))] at hx
          have := Nat.min_le_right m (infinity (fmt t))
          omega

end Verif.Peephole
