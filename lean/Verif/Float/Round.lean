import Mathlib.Tactic.Linarith
import Mathlib.Tactic.Positivity
import Mathlib.Tactic.Ring
import Mathlib.Tactic.NormNum
import Mathlib.Tactic.FieldSimp
import Verif.Float.Spec
/-
Rounding.
-/
namespace Verif.Float

open Spec

theorem two_zpow_pos (k : Int) : (0 : ℚ) < 2 ^ k := zpow_pos (by norm_num) k

/-- The gap after the number `b`. -/
def gap (F : Fmt) (b : Nat) : ℚ :=
  (2 : ℚ) ^ ((max (b / 2 ^ fracBits F) 1 : Nat) - bias F - fracBits F : Int)

theorem magnitude_succ (F : Fmt) (b : Nat) : magnitude F (b + 1) = magnitude F b + gap F b := by
  have hp : 0 < 2 ^ fracBits F := Nat.pow_pos (by decide)
  unfold magnitude gap
  generalize hs : fracBits F = s at *
  by_cases hc : b % 2 ^ s + 1 < 2 ^ s
  · have hdiv : (b + 1) / 2 ^ s = b / 2 ^ s := by
      have h1 := Nat.div_add_mod b (2 ^ s)
      apply Nat.div_eq_of_lt_le
      · rw [Nat.mul_comm]; omega
      · rw [Nat.mul_comm, Nat.mul_succ]; omega
    have hmod : (b + 1) % 2 ^ s = b % 2 ^ s + 1 := by
      have h1 := Nat.div_add_mod b (2 ^ s)
      have h2 := Nat.div_add_mod (b + 1) (2 ^ s)
      rw [hdiv] at h2; omega
    simp only [hdiv, hmod]
    by_cases he : b / 2 ^ s = 0
    · have hm : max 0 1 = 1 := by decide
      simp only [he, if_true, hm]
      push_cast
      ring
    · have hm : max (b / 2 ^ s) 1 = b / 2 ^ s := Nat.max_eq_left (Nat.pos_of_ne_zero he)
      simp only [he, if_false, hm]
      push_cast
      ring
  · have hlast : b % 2 ^ s = 2 ^ s - 1 := by
      have := Nat.mod_lt b hp; omega
    have hdiv : (b + 1) / 2 ^ s = b / 2 ^ s + 1 := by
      have h1 := Nat.div_add_mod b (2 ^ s)
      apply Nat.div_eq_of_lt_le
      · rw [Nat.mul_comm, Nat.mul_succ]; omega
      · rw [Nat.mul_comm, Nat.mul_succ, Nat.mul_succ]; omega
    have hmod : (b + 1) % 2 ^ s = 0 := by
      have h1 := Nat.div_add_mod b (2 ^ s)
      have h2 := Nat.div_add_mod (b + 1) (2 ^ s)
      rw [hdiv, Nat.mul_succ] at h2; omega
    have hcast : ((2 ^ s - 1 : Nat) : ℚ) = 2 ^ s - 1 := by
      rw [Nat.cast_sub hp]; push_cast; ring
    simp only [hdiv, hmod, hlast, Nat.succ_ne_zero, if_false]
    by_cases he : b / 2 ^ s = 0
    · simp only [he, if_true, hcast]
      push_cast
      have : max (0 : ℤ) 1 = 1 := by decide
      simp only [zero_add, this]
      ring
    · have hm : max (b / 2 ^ s) 1 = b / 2 ^ s := Nat.max_eq_left (Nat.pos_of_ne_zero he)
      simp only [he, if_false, hm]
      have e : ((b / 2 ^ s + 1 : Nat) : Int) - bias F - s = ((b / 2 ^ s : Nat) : Int) - bias F - s + 1 := by
        push_cast; ring
      rw [e, zpow_add₀ (by norm_num : (2 : ℚ) ≠ 0)]
      rw [Nat.cast_add (2 ^ s) (2 ^ s - 1), hcast]
      push_cast
      ring

theorem gap_pos (F : Fmt) (b : Nat) : 0 < gap F b := two_zpow_pos _

theorem magnitude_strictMono (F : Fmt) {a b : Nat} (h : a < b) : magnitude F a < magnitude F b := by
  induction b with
  | zero => omega
  | succ b ih =>
    have := gap_pos F b
    rw [magnitude_succ]
    rcases Nat.lt_succ_iff_lt_or_eq.mp h with h | rfl
    · linarith [ih h]
    · linarith

theorem magnitude_mono (F : Fmt) {a b : Nat} (h : a ≤ b) : magnitude F a ≤ magnitude F b := by
  rcases Nat.lt_or_eq_of_le h with h | rfl
  · exact (magnitude_strictMono F h).le
  · exact le_refl _

/-- Rounding is a function. -/
theorem Rounds.unique {F : Fmt} {v : ℚ} {a b : Nat} (ha : Rounds F v a) (hb : Rounds F v b) : a = b := by
  by_contra hne
  have heq : |v - magnitude F a| = |v - magnitude F b| := le_antisymm (ha.nearest b) (hb.nearest a)
  have h1 := ha.even b (Ne.symm hne) heq.symm
  have h2 := hb.even a hne heq
  -- two even numbers are not neighbours
  have key : ∀ x y : Nat, x < y → x % 2 = 0 → y % 2 = 0 → Rounds F v x → Rounds F v y →
      |v - magnitude F x| = |v - magnitude F y| → False := by
    intro x y hxy hx hy rx ry he
    have hlt : x + 1 < y := by omega
    have m1 := magnitude_strictMono F (Nat.lt_succ_self x)
    have m2 := magnitude_strictMono F hlt
    have n1 := rx.nearest (x + 1)
    have n2 := ry.nearest (x + 1)
    generalize magnitude F x = A at *
    generalize magnitude F (x + 1) = B at *
    generalize magnitude F y = C at *
    rcases abs_cases (v - A) with ⟨p1, p2⟩ | ⟨p1, p2⟩ <;> rcases abs_cases (v - B) with ⟨q1, q2⟩ | ⟨q1, q2⟩ <;>
      rcases abs_cases (v - C) with ⟨r1, r2⟩ | ⟨r1, r2⟩ <;> rw [p1] at n1 he <;> rw [q1] at n1 n2 <;>
      rw [r1] at n2 he <;> linarith
  rcases Nat.lt_or_gt_of_ne hne with h | h
  · exact key a b h h1 h2 ha hb heq
  · exact key b a h h2 h1 hb ha heq.symm

/-- Rounding down. -/
theorem rounds_down {F : Fmt} {v : ℚ} {b : Nat} (h1 : magnitude F b ≤ v)
    (h2 : v - magnitude F b < magnitude F (b + 1) - v ∨
      (v - magnitude F b = magnitude F (b + 1) - v ∧ b % 2 = 0)) : Rounds F v b := by
  have habs : |v - magnitude F b| = v - magnitude F b := abs_of_nonneg (by linarith)
  have hle : v - magnitude F b ≤ magnitude F (b + 1) - v := by rcases h2 with h | ⟨h, -⟩ <;> linarith
  constructor
  · intro b'
    rw [habs]
    rcases Nat.lt_or_ge b b' with h | h
    · have := magnitude_mono F (show b + 1 ≤ b' from h)
      have := neg_abs_le (v - magnitude F b')
      linarith
    · have := magnitude_mono F h
      have := le_abs_self (v - magnitude F b')
      linarith
  · intro b' hne heq
    rw [habs] at heq
    rcases h2 with h2 | ⟨-, h2⟩
    · exfalso
      rcases Nat.lt_or_gt_of_ne hne with h | h
      · have := magnitude_strictMono F h
        have := le_abs_self (v - magnitude F b')
        linarith
      · have := magnitude_mono F (show b + 1 ≤ b' from h)
        have := neg_abs_le (v - magnitude F b')
        linarith
    · exact h2

/-- Rounding up. -/
theorem rounds_up {F : Fmt} {v : ℚ} {b : Nat} (h1 : v ≤ magnitude F (b + 1))
    (h2 : magnitude F (b + 1) - v < v - magnitude F b ∨
      (v - magnitude F b = magnitude F (b + 1) - v ∧ b % 2 = 1)) : Rounds F v (b + 1) := by
  have habs : |v - magnitude F (b + 1)| = magnitude F (b + 1) - v := by
    rw [abs_of_nonpos (by linarith)]; ring
  have hle : magnitude F (b + 1) - v ≤ v - magnitude F b := by rcases h2 with h | ⟨h, -⟩ <;> linarith
  constructor
  · intro b'
    rw [habs]
    rcases Nat.lt_or_ge b b' with h | h
    · have := magnitude_mono F (show b + 1 ≤ b' from h)
      have := neg_abs_le (v - magnitude F b')
      linarith
    · have := magnitude_mono F h
      have := le_abs_self (v - magnitude F b')
      linarith
  · intro b' hne heq
    rw [habs] at heq
    rcases h2 with h2 | ⟨-, h2⟩
    · exfalso
      rcases Nat.lt_or_gt_of_ne hne with h | h
      · have := magnitude_mono F (show b' ≤ b by omega)
        have := le_abs_self (v - magnitude F b')
        linarith
      · have := magnitude_strictMono F h
        have := neg_abs_le (v - magnitude F b')
        linarith
    · omega

/-- The decision the code makes, from the remainder and whether anything was dropped. -/
theorem rounds_decide {F : Fmt} {v u : ℚ} {b r k : Nat} {ε : ℚ} (hu : 0 < u) (hk : 0 < k) (hr : r < 2 ^ k)
    (hε0 : 0 ≤ ε) (hε1 : ε < 1) (hgap : gap F b = 2 ^ k * u) (hv : v = magnitude F b + (r + ε) * u) :
    Rounds F v (b + (if 2 ^ (k - 1) ≤ r ∧ (r ≠ 2 ^ (k - 1) ∨ ε ≠ 0 ∨ b % 2 = 1) then 1 else 0)) := by
  have hm := magnitude_succ F b
  rw [hgap] at hm
  have hpow : (2 : ℚ) ^ k = 2 * 2 ^ (k - 1) := by
    rw [← pow_succ']; congr 1; omega
  rw [hpow] at hm
  have hpowN : 2 ^ k = 2 * 2 ^ (k - 1) := by
    rw [← pow_succ']; congr 1; omega
  rw [hpowN] at hr
  have hcast : ((2 ^ (k - 1) : Nat) : ℚ) = 2 ^ (k - 1) := by push_cast; rfl
  generalize hH : (2 : ℚ) ^ (k - 1) = H at *
  generalize hN : 2 ^ (k - 1) = N at *
  subst hcast
  split
  · next h =>
    obtain ⟨hle, hor⟩ := h
    apply rounds_up
    · rw [hm, hv]
      have : (r : ℚ) + 1 ≤ 2 * N := by exact_mod_cast hr
      have : (r + ε) * u ≤ (2 * N) * u := by
        apply mul_le_mul_of_nonneg_right _ hu.le; linarith
      linarith
    · rcases hor with hne | hne | hodd
      · left
        have : (N : ℚ) + 1 ≤ r := by exact_mod_cast (show N + 1 ≤ r by omega)
        have : (N + 1) * u ≤ (r + ε) * u := mul_le_mul_of_nonneg_right (by linarith) hu.le
        rw [hm, hv]
        linarith
      · left
        have hpos : 0 < ε := lt_of_le_of_ne hε0 (Ne.symm hne)
        have : (N : ℚ) ≤ r := by exact_mod_cast hle
        have : (N : ℚ) * u < (r + ε) * u := mul_lt_mul_of_pos_right (by linarith) hu
        rw [hm, hv]
        linarith
      · by_cases heq : r = N ∧ ε = 0
        · right
          obtain ⟨rfl, rfl⟩ := heq
          refine ⟨?_, hodd⟩
          rw [hm, hv]; ring
        · left
          have : (N : ℚ) < r + ε := by
            have h1 : (N : ℚ) ≤ r := by exact_mod_cast hle
            by_cases hrn : r = N
            · have : ε ≠ 0 := fun h => heq ⟨hrn, h⟩
              have hpos : 0 < ε := lt_of_le_of_ne hε0 (Ne.symm this)
              linarith
            · have : (N : ℚ) + 1 ≤ r := by exact_mod_cast (show N + 1 ≤ r by omega)
              linarith
          have : (N : ℚ) * u < (r + ε) * u := mul_lt_mul_of_pos_right this hu
          rw [hm, hv]
          linarith
  · next h =>
    rw [Nat.add_zero]
    apply rounds_down
    · rw [hv]
      have : 0 ≤ ((r : ℚ) + ε) * u := by positivity
      linarith
    · by_cases hle : N ≤ r
      · have hx : ¬ (r ≠ N ∨ ε ≠ 0 ∨ b % 2 = 1) := fun hx => h ⟨hle, hx⟩
        simp only [not_or, not_not] at hx
        obtain ⟨rfl, rfl, he⟩ := hx
        right
        refine ⟨?_, by omega⟩
        rw [hm, hv]; ring
      · left
        have : (r : ℚ) + 1 ≤ N := by exact_mod_cast (show r + 1 ≤ N by omega)
        have : (r + ε) * u < N * u := mul_lt_mul_of_pos_right (by linarith) hu
        rw [hm, hv]
        linarith

/-- A number rounds to itself. -/
theorem rounds_self (F : Fmt) (b : Nat) : Rounds F (magnitude F b) b := by
  apply rounds_down (le_refl _)
  left
  have := magnitude_strictMono F (Nat.lt_succ_self b)
  simp only [Nat.succ_eq_add_one] at this
  linarith

end Verif.Float
