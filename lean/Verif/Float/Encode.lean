import Verif.Float.Round
/-
The encoding step rounds correctly.
-/
namespace Verif.Float

open Spec

/-- What is assumed of the parameters of a format. -/
structure WF (F : Fmt) : Prop where
  exp : 2 ≤ F.expBits
  width : F.expBits + 2 ≤ F.width
  fits : F.expBits ≤ 30
  wide : 12 ≤ F.width
  four : F.width % 4 = 0

theorem wf_f32 : WF f32 := ⟨by decide, by decide, by decide, by decide, by decide⟩
theorem wf_f64 : WF f64 := ⟨by decide, by decide, by decide, by decide, by decide⟩

section
variable {F : Fmt}

theorem fracBits_eq (F : Fmt) : F.signifBits = fracBits F := rfl

theorem WF.width_eq (h : WF F) : F.width = fracBits F + 1 + F.expBits := by
  have := h.width; unfold fracBits; omega

theorem WF.frac_pos (h : WF F) : 0 < fracBits F := by
  have := h.width; unfold fracBits; omega

theorem WF.bias_eq (_ : WF F) : (F.bias : Int) = Spec.bias F := by
  unfold Fmt.bias Spec.bias
  have : 0 < 2 ^ (F.expBits - 1) := Nat.pow_pos (by decide)
  rw [Nat.cast_sub this]; push_cast; rfl

theorem WF.two_bias (h : WF F) : 2 * F.bias + 2 = 2 ^ F.expBits := by
  unfold Fmt.bias
  have h1 : 2 ^ F.expBits = 2 * 2 ^ (F.expBits - 1) := by
    rw [← pow_succ']; congr 1; have := h.exp; omega
  have : 0 < 2 ^ (F.expBits - 1) := Nat.pow_pos (by decide)
  omega

theorem WF.infinity_lt (h : WF F) : infinity F + 2 ^ fracBits F = 2 ^ (F.width - 1) := by
  unfold infinity
  have : 0 < 2 ^ F.expBits := Nat.pow_pos (by decide)
  have e : F.width - 1 = F.expBits + fracBits F := by have := h.width_eq; omega
  rw [e, pow_add]
  rw [Nat.sub_mul, Nat.one_mul]
  have : 2 ^ fracBits F ≤ 2 ^ F.expBits * 2 ^ fracBits F := Nat.le_mul_of_pos_left _ this
  omega

/-! ## Bits -/

theorem and_msb {D w : Nat} (hw : 0 < w) (hD : D < 2 ^ w) : D &&& 2 ^ (w - 1) ≠ 0 ↔ 2 ^ (w - 1) ≤ D := by
  have hp : 2 ^ w = 2 * 2 ^ (w - 1) := by rw [← pow_succ']; congr 1; omega
  have h0 : 0 < 2 ^ (w - 1) := Nat.pow_pos (by decide)
  constructor
  · intro h
    by_contra hlt
    apply h
    apply Nat.eq_of_testBit_eq
    intro i
    rw [Nat.testBit_and, Nat.testBit_two_pow, Nat.zero_testBit]
    by_cases hi : w - 1 = i
    · subst hi
      rw [Nat.testBit_lt_two_pow (by omega)]; rfl
    · simp [hi]
  · intro h h0
    have h3 : (D &&& 2 ^ (w - 1)).testBit (w - 1) = true := by
      rw [Nat.testBit_and, Nat.testBit_two_pow_self, Bool.and_true, Nat.testBit_eq_decide_div_mod_eq]
      have : D / 2 ^ (w - 1) = 1 := Nat.div_eq_of_lt_le (by omega) (by omega)
      rw [this]; simp
    rw [h0, Nat.zero_testBit] at h3
    cases h3

theorem not_msb (h : WF F) : F.not F.msb = 2 ^ (F.width - 1) - 1 := by
  unfold Fmt.not Fmt.msb
  have hp : 2 ^ F.width = 2 * 2 ^ (F.width - 1) := by rw [← pow_succ']; congr 1; have := h.width; omega
  omega

/-- The discarded bits tell how the remainder compares with half the gap. -/
theorem discard (h : WF F) {k r : Nat} (hk0 : 0 < k) (hk : k ≤ F.width) (hr : r < 2 ^ k) {odd extra : Prop} :
    ((r * 2 ^ (F.width - k)) &&& F.msb ≠ 0 ∧ ((r * 2 ^ (F.width - k)) &&& F.not F.msb ≠ 0 ∨ extra ∨ odd)) ↔
      (2 ^ (k - 1) ≤ r ∧ (r ≠ 2 ^ (k - 1) ∨ extra ∨ odd)) := by
  have hw : 0 < F.width := by have := h.width; omega
  have hpk : 0 < 2 ^ (F.width - k) := Nat.pow_pos (by decide)
  have e1 : 2 ^ F.width = 2 ^ k * 2 ^ (F.width - k) := by rw [← pow_add]; congr 1; omega
  have e2 : 2 ^ (F.width - 1) = 2 ^ (k - 1) * 2 ^ (F.width - k) := by rw [← pow_add]; congr 1; omega
  have hD : r * 2 ^ (F.width - k) < 2 ^ F.width := by rw [e1]; exact Nat.mul_lt_mul_of_pos_right hr hpk
  rw [not_msb h, Nat.and_two_pow_sub_one_eq_mod]
  unfold Fmt.msb
  rw [and_msb hw hD, e2, Nat.mul_le_mul_right_iff hpk, Nat.mul_mod_mul_right]
  have hk2 : 2 ^ k = 2 * 2 ^ (k - 1) := by rw [← pow_succ']; congr 1; omega
  constructor
  · rintro ⟨h1, h2⟩
    refine ⟨h1, ?_⟩
    rcases h2 with h2 | h2
    · left
      rintro rfl
      simp at h2
    · exact .inr h2
  · rintro ⟨h1, h2⟩
    refine ⟨h1, ?_⟩
    rcases h2 with h2 | h2
    · left
      have : r % 2 ^ (k - 1) = r - 2 ^ (k - 1) := by
        rw [Nat.mod_eq_sub_mod h1, Nat.mod_eq_of_lt (by omega)]
      rw [this]
      have : 0 < r - 2 ^ (k - 1) := by omega
      exact Nat.mul_ne_zero (by omega) (by omega)
    · exact .inr h2

theorem or_add {a b s : Nat} (hb : b < 2 ^ s) : a * 2 ^ s ||| b = a * 2 ^ s + b := by
  rw [Nat.mul_comm]; exact (Nat.two_pow_add_eq_or_of_lt hb a).symm

/-- The test for infinity and the sign, given the rounded bits. -/
theorem finish (h : WF F) {negative : Bool} {v : ℚ} {b : Nat} (hb : b ≤ infinity F) (hr : Rounds F v b) :
    Literal F negative v
      (if 2 ^ F.width ≤ b then .panic
       else if (if negative then b ||| F.msb else b) % 2 ^ (F.width - 1) = (2 ^ F.expBits - 1) * 2 ^ F.signifBits
         then .invalid else .bits (if negative then b ||| F.msb else b)) := by
  have h0 : 0 < 2 ^ fracBits F := Nat.pow_pos (by decide)
  have hinf := h.infinity_lt
  have hp : 2 ^ F.width = 2 * 2 ^ (F.width - 1) := by rw [← pow_succ']; congr 1; have := h.width; omega
  have hlt : b < 2 ^ (F.width - 1) := by omega
  rw [if_neg (by omega)]
  have hor : b ||| F.msb = 2 ^ (F.width - 1) + b := by
    have := or_add (a := 1) hlt
    rw [Nat.one_mul] at this
    rw [Nat.or_comm]; exact this
  have hval : (if negative = true then b ||| F.msb else b) = signBit F negative + b := by
    cases negative with
    | true => simp [hor, signBit]
    | false => simp [signBit]
  have hmod : (signBit F negative + b) % 2 ^ (F.width - 1) = b := by
    cases negative with
    | true => simp [signBit, Nat.mod_eq_of_lt hlt]
    | false => simp [signBit, Nat.mod_eq_of_lt hlt]
  rw [hval, hmod]
  refine ⟨b, hr, ?_⟩
  by_cases hbi : b = infinity F
  · rw [if_pos (by rw [hbi]; rfl), if_neg (by omega)]
  · rw [if_neg (by rw [fracBits_eq]; exact hbi), if_pos (by omega)]

theorem magnitude_split (F : Fmt) (E q : Nat) (hE : 0 < E) (h1 : 2 ^ fracBits F ≤ q) (h2 : q < 2 * 2 ^ fracBits F) :
    magnitude F (E * 2 ^ fracBits F + (q - 2 ^ fracBits F)) = q * (2 : ℚ) ^ ((E : Int) - Spec.bias F - fracBits F) ∧
    gap F (E * 2 ^ fracBits F + (q - 2 ^ fracBits F)) = (2 : ℚ) ^ ((E : Int) - Spec.bias F - fracBits F) := by
  have h0 : 0 < 2 ^ fracBits F := Nat.pow_pos (by decide)
  have hlt : q - 2 ^ fracBits F < 2 ^ fracBits F := by omega
  have hdiv : (E * 2 ^ fracBits F + (q - 2 ^ fracBits F)) / 2 ^ fracBits F = E := by
    rw [Nat.mul_comm, Nat.mul_add_div h0, Nat.div_eq_of_lt hlt, Nat.add_zero]
  have hmod : (E * 2 ^ fracBits F + (q - 2 ^ fracBits F)) % 2 ^ fracBits F = q - 2 ^ fracBits F := by
    rw [Nat.mul_comm, Nat.mul_add_mod, Nat.mod_eq_of_lt hlt]
  unfold magnitude gap
  simp only [hdiv, hmod]
  have hm : max E 1 = E := Nat.max_eq_left hE
  rw [if_neg (by omega), hm]
  refine ⟨?_, rfl⟩
  congr 2
  omega

theorem magnitude_sub (F : Fmt) (q : Nat) (h : q < 2 ^ fracBits F) :
    magnitude F q = q * (2 : ℚ) ^ (1 - Spec.bias F - fracBits F) ∧
    gap F q = (2 : ℚ) ^ (1 - Spec.bias F - fracBits F) := by
  have hdiv : q / 2 ^ fracBits F = 0 := Nat.div_eq_of_lt h
  have hmod : q % 2 ^ fracBits F = q := Nat.mod_eq_of_lt h
  unfold magnitude gap
  simp only [hdiv, hmod, if_true]
  exact ⟨trivial, rfl⟩

theorem zpow_nat_add (k : Nat) (x : Int) : (2 : ℚ) ^ k * (2 : ℚ) ^ x = (2 : ℚ) ^ ((k : Int) + x) := by
  rw [zpow_add₀ (by norm_num), zpow_natCast]

/-- The encoding rounds the value correctly. -/
theorem encode_literal (h : WF F) (negative : Bool) (e : Int) (S : Nat) (extra : Bool) (ε v : ℚ)
    (hS1 : 2 ^ (F.width - 1) ≤ S) (hS2 : S < 2 ^ F.width) (hε0 : 0 ≤ ε) (hε1 : ε < 1) (hx : extra = true ↔ ε ≠ 0)
    (hv : v = (S + ε) * (2 : ℚ) ^ (e - F.width + 1)) : Literal F negative v (F.encode negative e S extra) := by
  have hw := h.width_eq
  have hs := h.frac_pos
  have hbias := h.bias_eq
  have htb := h.two_bias
  have hinf := h.infinity_lt
  have h2 : (2 : ℚ) ≠ 0 := by norm_num
  have hb1 : 1 ≤ F.bias := by
    have : 2 ^ 2 ≤ 2 ^ F.expBits := Nat.pow_le_pow_right (by decide) h.exp
    omega
  unfold Fmt.encode
  simp only
  -- the truncated value for the exponents from `-bias + 1` on
  have norm : ∀ E : Nat, 0 < E → e = (E : Int) - F.bias →
      let q := S / 2 ^ F.expBits
      let r := S % 2 ^ F.expBits
      2 ^ fracBits F ≤ q ∧ q < 2 * 2 ^ fracBits F ∧
      Rounds F v (E * 2 ^ fracBits F + (q - 2 ^ fracBits F) +
        (if 2 ^ (F.expBits - 1) ≤ r ∧ (r ≠ 2 ^ (F.expBits - 1) ∨ ε ≠ 0 ∨ (E * 2 ^ fracBits F + (q - 2 ^ fracBits F)) % 2 = 1) then 1 else 0)) := by
    intro E hE he q r
    have hp : 0 < 2 ^ F.expBits := Nat.pow_pos (by decide)
    have e1 : 2 ^ (F.width - 1) = 2 ^ fracBits F * 2 ^ F.expBits := by rw [← pow_add]; congr 1; omega
    have e2 : 2 ^ F.width = 2 * 2 ^ fracBits F * 2 ^ F.expBits := by
      rw [← pow_succ', ← pow_add]; congr 1
    have hq1 : 2 ^ fracBits F ≤ q := by rw [e1] at hS1; exact (Nat.le_div_iff_mul_le hp).mpr hS1
    have hq2 : q < 2 * 2 ^ fracBits F := by rw [e2] at hS2; exact (Nat.div_lt_iff_lt_mul hp).mpr hS2
    refine ⟨hq1, hq2, ?_⟩
    obtain ⟨hm, hg⟩ := magnitude_split F E q hE hq1 hq2
    refine rounds_decide (u := (2 : ℚ) ^ (e - F.width + 1)) (two_zpow_pos _) (by have := h.exp; omega)
      (Nat.mod_lt _ hp) hε0 hε1 ?_ ?_
    · rw [hg, zpow_nat_add]; congr 1
      rw [he, hbias, hw]; push_cast; ring
    · rw [hm, hv]
      have : (2 : ℚ) ^ ((E : Int) - Spec.bias F - fracBits F) = 2 ^ F.expBits * (2 : ℚ) ^ (e - F.width + 1) := by
        rw [zpow_nat_add]; congr 1
        rw [he, hbias, hw]; push_cast; ring
      rw [this]
      have hdm : S = q * 2 ^ F.expBits + r := (Nat.div_add_mod' S _).symm
      have : (S : ℚ) = q * 2 ^ F.expBits + r := by exact_mod_cast hdm
      rw [this]; ring
  unfold Fmt.encodeParts
  by_cases hsub : e ≤ -(F.bias : Int)
  · simp only [hsub, if_true]
    rw [fracBits_eq]
    by_cases hneg : (fracBits F : Int) + e + F.bias < 0
    · have hne : ¬ ((fracBits F : Int) + e + F.bias = 0) := by omega
      have hor : (fracBits F : Int) + e + F.bias < 0 ∨ (F.width : Int) ≤ (fracBits F : Int) + e + F.bias := .inl hneg
      simp only [if_neg hne, if_pos hor]
      simp only [Nat.zero_and, ne_eq, not_true_eq_false, false_and, if_false, Nat.or_self, Nat.add_zero]
      refine finish h (Nat.zero_le _) ?_
      have hpos : 0 < 2 ^ fracBits F := Nat.pow_pos (by decide)
      obtain ⟨hm0, hg0⟩ := magnitude_sub F 0 hpos
      have hv0 : 0 ≤ v := by
        rw [hv]; have := two_zpow_pos (e - F.width + 1); positivity
      have hup : v < (2 : ℚ) ^ (e + 1) := by
        rw [hv]
        have hS : (S : ℚ) + ε < 2 ^ F.width := by
          have : (S : ℚ) + 1 ≤ 2 ^ F.width := by exact_mod_cast hS2
          linarith
        have h3 : ((S : ℚ) + ε) * (2 : ℚ) ^ (e - F.width + 1) < 2 ^ F.width * (2 : ℚ) ^ (e - F.width + 1) :=
          mul_lt_mul_of_pos_right hS (two_zpow_pos _)
        rw [zpow_nat_add] at h3
        have : (F.width : Int) + (e - F.width + 1) = e + 1 := by ring
        rwa [this] at h3
      have hhalf : (2 : ℚ) ^ (e + 1) * 2 ≤ (2 : ℚ) ^ (1 - Spec.bias F - fracBits F) := by
        rw [← zpow_add_one₀ h2]
        exact zpow_le_zpow_right₀ (by norm_num) (by omega)
      apply rounds_down
      · rw [hm0]; simpa using hv0
      · left
        rw [magnitude_succ, hm0, hg0]
        simp only [Nat.cast_zero, zero_mul]
        linarith
    · -- the shift is not negative
      obtain ⟨sh, hsh⟩ : ∃ sh : Nat, (fracBits F : Int) + e + F.bias = sh := ⟨_, (Int.toNat_of_nonneg (by omega)).symm⟩
      have hshle : sh ≤ fracBits F := by omega
      have hparts : (if (fracBits F : Int) + e + F.bias = 0 then ((0, 0, S) : Nat × Nat × Nat)
          else if (fracBits F : Int) + e + F.bias < 0 ∨ (F.width : Int) ≤ (fracBits F : Int) + e + F.bias then (0, 0, 0)
          else (0, S >>> (F.width - ((fracBits F : Int) + e + F.bias).toNat), F.shl S ((fracBits F : Int) + e + F.bias).toNat))
          = (0, S / 2 ^ (F.width - sh), (S % 2 ^ (F.width - sh)) * 2 ^ (F.width - (F.width - sh))) := by
        rw [hsh]
        have hww : F.width - (F.width - sh) = sh := by omega
        by_cases h0 : sh = 0
        · subst h0
          simp only [Nat.cast_zero, if_true, Nat.sub_zero, Nat.sub_self, Nat.pow_zero, Nat.mul_one]
          rw [Nat.div_eq_of_lt hS2, Nat.mod_eq_of_lt hS2]
        · rw [if_neg (by omega), if_neg (by omega)]
          simp only [Int.toNat_natCast, Nat.shiftRight_eq_div_pow, hww, Fmt.shl]
          congr 2
          have : 2 ^ F.width = 2 ^ (F.width - sh) * 2 ^ sh := by rw [← pow_add]; congr 1; omega
          rw [this, Nat.mul_mod_mul_right]
      rw [hparts]
      simp only
      have hk0 : 0 < F.width - sh := by omega
      have hp : 0 < 2 ^ (F.width - sh) := Nat.pow_pos (by decide)
      have hr : S % 2 ^ (F.width - sh) < 2 ^ (F.width - sh) := Nat.mod_lt _ hp
      have hdis := discard h hk0 (by omega : F.width - sh ≤ F.width) hr (odd := S / 2 ^ (F.width - sh) &&& 1 ≠ 0) (extra := extra = true)
      have hq : S / 2 ^ (F.width - sh) < 2 ^ fracBits F := by
        apply lt_of_lt_of_le (b := 2 ^ sh)
        · rw [Nat.div_lt_iff_lt_mul hp, ← pow_add]
          have : sh + (F.width - sh) = F.width := by omega
          rwa [this]
        · exact Nat.pow_le_pow_right (by decide) hshle
      obtain ⟨hm, hg⟩ := magnitude_sub F _ hq
      have hround := rounds_decide (F := F) (v := v) (u := (2 : ℚ) ^ (e - F.width + 1)) (b := S / 2 ^ (F.width - sh))
        (r := S % 2 ^ (F.width - sh)) (k := F.width - sh) (ε := ε) (two_zpow_pos _) hk0 hr hε0 hε1
        (by rw [hg, zpow_nat_add]; congr 1
            have : ((F.width - sh : Nat) : Int) = F.width - sh := by omega
            rw [this]; omega)
        (by rw [hm, hv]
            have : (2 : ℚ) ^ (1 - Spec.bias F - fracBits F) = 2 ^ (F.width - sh) * (2 : ℚ) ^ (e - F.width + 1) := by
              rw [zpow_nat_add]; congr 1
              have : ((F.width - sh : Nat) : Int) = F.width - sh := by omega
              rw [this]; omega
            rw [this]
            have hdm : S = S / 2 ^ (F.width - sh) * 2 ^ (F.width - sh) + S % 2 ^ (F.width - sh) := (Nat.div_add_mod' S _).symm
            have : (S : ℚ) = (S / 2 ^ (F.width - sh) : Nat) * 2 ^ (F.width - sh) + (S % 2 ^ (F.width - sh) : Nat) := by
              exact_mod_cast hdm
            rw [this]; ring)
      have hcond : ((S % 2 ^ (F.width - sh) * 2 ^ (F.width - (F.width - sh)) &&& F.msb ≠ 0) ∧
          ((S % 2 ^ (F.width - sh) * 2 ^ (F.width - (F.width - sh)) &&& F.not F.msb ≠ 0) ∨ extra = true ∨ S / 2 ^ (F.width - sh) &&& 1 ≠ 0)) ↔
          (2 ^ (F.width - sh - 1) ≤ S % 2 ^ (F.width - sh) ∧ (S % 2 ^ (F.width - sh) ≠ 2 ^ (F.width - sh - 1) ∨ ε ≠ 0 ∨ S / 2 ^ (F.width - sh) % 2 = 1)) := by
        rw [hdis, hx, Nat.and_one_is_mod]
        have : S / 2 ^ (F.width - sh) % 2 ≠ 0 ↔ S / 2 ^ (F.width - sh) % 2 = 1 := by omega
        rw [this]
      simp only [hcond, Nat.zero_or]
      refine finish h ?_ hround
      have h3 : 1 ≤ 2 ^ F.expBits - 1 := by omega
      have h4 : 2 ^ fracBits F ≤ infinity F := Nat.le_mul_of_pos_left _ h3
      split <;> omega
  · rw [if_neg hsub]
    obtain ⟨E, hE⟩ : ∃ E : Nat, e + F.bias = E := ⟨_, (Int.toNat_of_nonneg (by omega)).symm⟩
    have hE0 : 0 < E := by omega
    obtain ⟨hq1, hq2, hround⟩ := norm E hE0 (by omega)
    by_cases hov : e ≤ F.bias
    · rw [if_pos hov]
      simp only
      rw [hE, fracBits_eq]
      have hEle : E ≤ 2 ^ F.expBits - 2 := by omega
      have hw1 : F.width - fracBits F - 1 = F.expBits := by omega
      have hp : 0 < 2 ^ F.expBits := Nat.pow_pos (by decide)
      have hps : 0 < 2 ^ fracBits F := Nat.pow_pos (by decide)
      rw [hw1, Nat.shiftRight_eq_div_pow, Nat.and_two_pow_sub_one_eq_mod, Int.toNat_natCast]
      have hsig : S / 2 ^ F.expBits % 2 ^ fracBits F = S / 2 ^ F.expBits - 2 ^ fracBits F := by
        rw [Nat.mod_eq_sub_mod hq1, Nat.mod_eq_of_lt (by omega)]
      have hlt : S / 2 ^ F.expBits - 2 ^ fracBits F < 2 ^ fracBits F := by omega
      have hEs : E * 2 ^ fracBits F + 2 ^ fracBits F ≤ infinity F := by
        unfold infinity
        have : (E + 1) * 2 ^ fracBits F ≤ (2 ^ F.expBits - 1) * 2 ^ fracBits F := Nat.mul_le_mul_right _ (by omega)
        rwa [Nat.add_mul, Nat.one_mul] at this
      have hshl : F.shl E (fracBits F) = E * 2 ^ fracBits F := by
        unfold Fmt.shl
        apply Nat.mod_eq_of_lt
        have hpw : 2 ^ F.width = 2 * 2 ^ (F.width - 1) := by rw [← pow_succ']; congr 1; omega
        omega
      have hshlS : F.shl S (fracBits F + 1) = (S % 2 ^ F.expBits) * 2 ^ (F.width - F.expBits) := by
        unfold Fmt.shl
        have : 2 ^ F.width = 2 ^ F.expBits * 2 ^ (fracBits F + 1) := by rw [← pow_add]; congr 1; omega
        have e2 : F.width - F.expBits = fracBits F + 1 := by omega
        rw [this, Nat.mul_mod_mul_right, e2]
      rw [hsig, hshl, hshlS, or_add hlt]
      have hdis := discard h (by have := h.exp; omega) (by omega : F.expBits ≤ F.width) (Nat.mod_lt S hp)
        (odd := (S / 2 ^ F.expBits - 2 ^ fracBits F) &&& 1 ≠ 0) (extra := extra = true)
      have hpar : (E * 2 ^ fracBits F + (S / 2 ^ F.expBits - 2 ^ fracBits F)) % 2 = (S / 2 ^ F.expBits - 2 ^ fracBits F) % 2 := by
        have : 2 ^ fracBits F = 2 * 2 ^ (fracBits F - 1) := by rw [← pow_succ']; congr 1; omega
        conv => lhs; arg 1; arg 1; rw [this, ← Nat.mul_assoc, Nat.mul_comm E 2, Nat.mul_assoc]
        omega
      have hcond : ((S % 2 ^ F.expBits * 2 ^ (F.width - F.expBits) &&& F.msb ≠ 0) ∧
          ((S % 2 ^ F.expBits * 2 ^ (F.width - F.expBits) &&& F.not F.msb ≠ 0) ∨ extra = true ∨
            (S / 2 ^ F.expBits - 2 ^ fracBits F) &&& 1 ≠ 0)) ↔
          (2 ^ (F.expBits - 1) ≤ S % 2 ^ F.expBits ∧ (S % 2 ^ F.expBits ≠ 2 ^ (F.expBits - 1) ∨ ε ≠ 0 ∨
            (E * 2 ^ fracBits F + (S / 2 ^ F.expBits - 2 ^ fracBits F)) % 2 = 1)) := by
        rw [hdis, hx, Nat.and_one_is_mod, hpar]
        have : (S / 2 ^ F.expBits - 2 ^ fracBits F) % 2 ≠ 0 ↔ (S / 2 ^ F.expBits - 2 ^ fracBits F) % 2 = 1 := by omega
        rw [this]
      simp only [hcond]
      refine finish h ?_ hround
      split <;> omega
    · rw [if_neg hov]
      simp only [Nat.zero_and, ne_eq, not_true_eq_false, false_and, if_false, Nat.or_zero, Nat.add_zero]
      have hshl : F.shl (2 ^ F.expBits - 1) F.signifBits = infinity F := by
        unfold Fmt.shl
        apply Nat.mod_eq_of_lt
        have hpw : 2 ^ F.width = 2 * 2 ^ (F.width - 1) := by rw [← pow_succ']; congr 1; omega
        have : 0 < 2 ^ fracBits F := Nat.pow_pos (by decide)
        have : (2 ^ F.expBits - 1) * 2 ^ F.signifBits = infinity F := rfl
        omega
      rw [hshl]
      refine ⟨_, hround, ?_⟩
      have hge : infinity F ≤ E * 2 ^ fracBits F := by
        unfold infinity
        exact Nat.mul_le_mul_right _ (by omega)
      rw [if_neg (c := _ < infinity F) (by omega)]
      have hps : 0 < 2 ^ fracBits F := Nat.pow_pos (by decide)
      have hpw : 2 ^ F.width = 2 * 2 ^ (F.width - 1) := by rw [← pow_succ']; congr 1; omega
      have hlt : infinity F < 2 ^ (F.width - 1) := by omega
      rw [if_neg (by omega)]
      have hor : infinity F ||| F.msb = 2 ^ (F.width - 1) + infinity F := by
        have := or_add (a := 1) hlt
        rw [Nat.one_mul] at this
        rw [Nat.or_comm]; exact this
      have hmod : (if negative = true then infinity F ||| F.msb else infinity F) % 2 ^ (F.width - 1) = infinity F := by
        cases negative with
        | true => rw [if_pos rfl, hor]; simp [Nat.mod_eq_of_lt hlt]
        | false => simp [Nat.mod_eq_of_lt hlt]
      rw [hmod]
      have : (2 ^ F.expBits - 1) * 2 ^ F.signifBits = infinity F := rfl
      rw [this, if_pos rfl]

/-- Exponents above the bias overflow. -/
theorem encode_overflow (h : WF F) (negative : Bool) (e : Int) (S : Nat) (extra : Bool) (he : (F.bias : Int) < e) :
    F.encode negative e S extra = .invalid := by
  have hinf := h.infinity_lt
  have hps : 0 < 2 ^ fracBits F := Nat.pow_pos (by decide)
  have hpw : 2 ^ F.width = 2 * 2 ^ (F.width - 1) := by rw [← pow_succ']; congr 1; have := h.wide; omega
  have hlt : infinity F < 2 ^ (F.width - 1) := by omega
  have hshl : F.shl (2 ^ F.expBits - 1) F.signifBits = infinity F := by
    unfold Fmt.shl
    apply Nat.mod_eq_of_lt
    have : (2 ^ F.expBits - 1) * 2 ^ F.signifBits = infinity F := rfl
    omega
  have hor : infinity F ||| F.msb = 2 ^ (F.width - 1) + infinity F := by
    have := or_add (a := 1) hlt
    rw [Nat.one_mul] at this
    rw [Nat.or_comm]; exact this
  have hmod : (if negative = true then infinity F ||| F.msb else infinity F) % 2 ^ (F.width - 1) = infinity F := by
    cases negative with
    | true => rw [if_pos rfl, hor]; simp [Nat.mod_eq_of_lt hlt]
    | false => simp [Nat.mod_eq_of_lt hlt]
  have hi : (2 ^ F.expBits - 1) * 2 ^ F.signifBits = infinity F := rfl
  unfold Fmt.encode Fmt.encodeParts
  rw [if_neg (c := e ≤ -(F.bias : Int)) (by omega), if_neg (c := e ≤ (F.bias : Int)) (by omega)]
  simp only [Nat.zero_and, ne_eq, not_true_eq_false, false_and, if_false, Nat.or_zero, Nat.add_zero]
  rw [hshl, if_neg (by omega), hmod, hi, if_pos rfl]

end

end Verif.Float
