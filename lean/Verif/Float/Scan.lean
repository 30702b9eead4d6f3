import Verif.Float.Encode
import Verif.Wat.Ints
/-
The loop over the digits of a hexadecimal literal.
-/
namespace Verif.Float

open Verif.Std Verif.Wat Spec

/-- The value of digits the first of which is worth `2 ^ p`. -/
def worth (p : Int) : List Nat → ℚ
  | [] => 0
  | d :: ds => d * (2 : ℚ) ^ p + worth (p - 4) ds

theorem worth_cons (p : Int) (d : Nat) (ds : List Nat) :
    worth p (d :: ds) = d * (2 : ℚ) ^ p + worth (p - 4) ds := rfl

theorem zpow_four (p : Int) : (2 : ℚ) ^ p * 16 = (2 : ℚ) ^ (p + 4) := by
  rw [zpow_add₀ (by norm_num)]; norm_num

theorem worth_nonneg (p : Int) (ds : List Nat) : 0 ≤ worth p ds := by
  induction ds generalizing p with
  | nil => exact le_refl _
  | cons d ds ih =>
    have := two_zpow_pos p
    have := ih (p - 4)
    unfold worth; positivity

theorem worth_lt {p : Int} {ds : List Nat} (h : ∀ d ∈ ds, d < 16) : worth p ds < (2 : ℚ) ^ (p + 4) := by
  induction ds generalizing p with
  | nil => exact two_zpow_pos _
  | cons d ds ih =>
    have h1 := ih (p := p - 4) (fun x hx => h x (List.mem_cons_of_mem _ hx))
    have e : p - 4 + 4 = p := by ring
    rw [e] at h1
    have hd : (d : ℚ) + 1 ≤ 16 := by exact_mod_cast h d List.mem_cons_self
    have hp := two_zpow_pos p
    rw [← zpow_four]
    unfold worth
    nlinarith

theorem worth_eq_zero {p : Int} {ds : List Nat} : worth p ds = 0 ↔ ∀ d ∈ ds, d = 0 := by
  induction ds generalizing p with
  | nil => simp [worth]
  | cons d ds ih =>
    have hp := two_zpow_pos p
    have hn := worth_nonneg (p - 4) ds
    have hd : (0 : ℚ) ≤ d * (2 : ℚ) ^ p := by positivity
    unfold worth
    rw [add_eq_zero_iff_of_nonneg hd hn, ih, mul_eq_zero]
    simp only [Nat.cast_eq_zero, ne_of_gt hp, or_false, List.mem_cons, forall_eq_or_imp]

theorem worth_foldl (ds : List Nat) (n : Nat) (p : Int) :
    (ds.foldl (fun n d => n * 16 + d) n : Nat) * (2 : ℚ) ^ (p + 4 - 4 * ds.length) = n * (2 : ℚ) ^ (p + 4) + worth p ds := by
  induction ds generalizing n p with
  | nil => simp [worth]
  | cons d ds ih =>
    rw [List.foldl_cons]
    have := ih (n * 16 + d) (p - 4)
    have e1 : p - 4 + 4 - 4 * (ds.length : Int) = p + 4 - 4 * ((d :: ds).length : Int) := by
      rw [List.length_cons]; push_cast; ring
    have e2 : p - 4 + 4 = p := by ring
    rw [e1] at this
    rw [this, e2, worth_cons]
    push_cast
    rw [← zpow_four p]
    ring

theorem worth_ofDigits (ds : List Nat) (p : Int) :
    (ofDigits 16 ds : ℚ) * (2 : ℚ) ^ (p + 4 - 4 * ds.length) = worth p ds := by
  have := worth_foldl ds 0 p
  simpa [ofDigits] using this

/-- How many digits belong to the integral part. -/
def intCount (l : List (Nat × Bool)) : Nat := l.countP (fun p => !p.2)

section
variable {F : Fmt}

theorem inI32_some {x : Int} (h1 : -(2 ^ 31) ≤ x) (h2 : x < 2 ^ 31) : Fmt.inI32 x = some x := if_pos ⟨h1, h2⟩

theorem step_exp (e : Int) (f : Bool) (he : -(2 ^ 31) ≤ e) (h2 : e + 4 < 2 ^ 31 ∨ f = true) :
    (if f = true then some e else Fmt.inI32 (e + 4)) = some (e + if f = true then 0 else 4) := by
  cases f with
  | true => simp
  | false =>
    rcases h2 with h2 | h2
    · simp only [Bool.false_eq_true, if_false]
      exact inI32_some (by omega) h2
    · cases h2

theorem intCount_cons (d : Nat) (f : Bool) (l : List (Nat × Bool)) :
    (4 : Int) * intCount ((d, f) :: l) = (if f = true then 0 else 4) + 4 * intCount l := by
  unfold intCount
  rw [List.countP_cons]
  cases f <;> simp <;> ring

theorem intCount_cons_exp {e : Int} {d : Nat} {f : Bool} {l : List (Nat × Bool)}
    (h : e + 4 * intCount ((d, f) :: l) < 2 ^ 31) : (e + 4 < 2 ^ 31 ∨ f = true) ∧
      (e + if f = true then 0 else 4) + 4 * intCount l < 2 ^ 31 := by
  rw [intCount_cons] at h
  cases f with
  | true => refine ⟨.inr rfl, ?_⟩; simp at h ⊢; omega
  | false =>
    simp only [Bool.false_eq_true, if_false] at h ⊢
    exact ⟨.inl (by omega), by omega⟩

/-- Digits below the integer type only tell whether something is left. -/
theorem scan_low (l : List (Nat × Bool)) (e : Int) (pos : Int) (S : Nat) (x : Bool) (hpos : pos ≤ -4)
    (he : -(2 ^ 31) ≤ e) (he2 : e + 4 * intCount l < 2 ^ 31) :
    F.scanLoop ⟨e, pos, S, x⟩ l = some ⟨e + 4 * intCount l, pos, S, x || l.any (fun p => decide (p.1 ≠ 0))⟩ := by
  induction l generalizing e x with
  | nil => simp [Fmt.scanLoop, intCount]
  | cons p l ih =>
    obtain ⟨d, f⟩ := p
    obtain ⟨h1, h2⟩ := intCount_cons_exp he2
    have hstep : F.scanStep ⟨e, pos, S, x⟩ d f = some ⟨e + (if f = true then 0 else 4), pos, S, x || decide (d ≠ 0)⟩ := by
      unfold Fmt.scanStep
      simp only [step_exp e f he h1]
      rw [if_neg (c := -4 < pos) (by omega), if_neg (by omega), if_neg (by omega)]
    rw [Fmt.scanLoop, hstep]
    simp only
    rw [ih _ _ (by split <;> omega) h2, intCount_cons]
    congr 2
    · ring
    · rw [List.any_cons, Bool.or_assoc]

theorem or_add_dvd {S d p : Nat} (hS : 2 ^ (p + 4) ∣ S) (hd : d < 16) : S ||| d * 2 ^ p = S + d * 2 ^ p := by
  obtain ⟨a, rfl⟩ := hS
  rw [Nat.mul_comm]
  apply or_add
  rw [pow_add]
  have : 0 < 2 ^ p := Nat.pow_pos (by decide)
  nlinarith

theorem straddle_mask (h : WF F) {d sh : Nat} (hd : d < 16) (h5 : 5 ≤ sh) (h7 : sh ≤ 7) :
    d >>> sh = 0 ∧ d &&& F.not (F.not 0 >>> sh) = 0 := by
  have hw := h.wide
  constructor
  · rw [Nat.shiftRight_eq_div_pow]
    apply Nat.div_eq_of_lt
    have : 2 ^ 5 ≤ 2 ^ sh := Nat.pow_le_pow_right (by decide) h5
    omega
  · have e : F.not (F.not 0 >>> sh) = (2 ^ sh - 1) * 2 ^ (F.width - sh) := by
      unfold Fmt.not
      rw [Nat.shiftRight_eq_div_pow, Nat.sub_zero]
      have hm : 2 ^ F.width = 2 ^ sh * 2 ^ (F.width - sh) := by rw [← pow_add]; congr 1; omega
      have h1 : 0 < 2 ^ sh := Nat.pow_pos (by decide)
      have h2 : 0 < 2 ^ (F.width - sh) := Nat.pow_pos (by decide)
      have hdiv : (2 ^ F.width - 1) / 2 ^ sh = 2 ^ (F.width - sh) - 1 := by
        rw [hm]
        apply Nat.div_eq_of_lt_le
        · have : (2 ^ (F.width - sh) - 1) * 2 ^ sh + 2 ^ sh = 2 ^ sh * 2 ^ (F.width - sh) := by
            rw [Nat.sub_mul, Nat.one_mul, Nat.mul_comm]
            have : 2 ^ sh ≤ 2 ^ sh * 2 ^ (F.width - sh) := Nat.le_mul_of_pos_right _ h2
            omega
          omega
        · have : 2 ^ (F.width - sh) - 1 + 1 = 2 ^ (F.width - sh) := by omega
          rw [this, Nat.mul_comm]
          have : 0 < 2 ^ (F.width - sh) * 2 ^ sh := Nat.mul_pos h2 h1
          omega
      rw [hdiv, hm, Nat.sub_mul, Nat.one_mul]
      have : 2 ^ (F.width - sh) ≤ 2 ^ sh * 2 ^ (F.width - sh) := Nat.le_mul_of_pos_left _ h1
      omega
    rw [e]
    have h16 : 2 ^ 4 ≤ 2 ^ (F.width - sh) := Nat.pow_le_pow_right (by decide) (by omega)
    apply Nat.eq_of_testBit_eq
    intro i
    rw [Nat.testBit_and, Nat.zero_testBit, Nat.testBit_mul_two_pow]
    by_cases hi : F.width - sh ≤ i
    · rw [Nat.testBit_lt_two_pow (x := d)]
      · rfl
      · have : 2 ^ (F.width - sh) ≤ 2 ^ i := Nat.pow_le_pow_right (by decide) hi
        omega
    · simp [hi]

theorem any_worth {p : Int} {l : List (Nat × Bool)} :
    l.any (fun q => decide (q.1 ≠ 0)) = true ↔ worth p (l.map Prod.fst) ≠ 0 := by
  rw [ne_eq, worth_eq_zero]
  simp [List.any_eq_true]

/-- The loop computes the digits' worth, without the digit that straddles the end of the type. -/
theorem scan_high (h : WF F) (lz : Nat) (hlz : lz < 4) (m : Nat) (l : List (Nat × Bool)) (e : Int) (S : Nat)
    (hm : 4 * m + lz ≤ F.width) (hS : 2 ^ (4 * m + lz) ∣ S) (hS2 : S < 2 ^ F.width) (hl : ∀ p ∈ l, p.1 < 16)
    (he : -(2 ^ 31) ≤ e) (he2 : e + 4 * intCount l < 2 ^ 31) :
    ∃ pos S' x, ∃ ε : ℚ, F.scanLoop ⟨e, (4 * m + lz : Nat), S, false⟩ l = some ⟨e + 4 * intCount l, pos, S', x⟩ ∧
      S ≤ S' ∧ S' < 2 ^ F.width ∧ 0 ≤ ε ∧ ε < 1 ∧ (x = true ↔ ε ≠ 0) ∧
      (S' : ℚ) + ε = S + worth ((4 * m + lz : Nat) - 4) (if 0 < lz then (l.map Prod.fst).set m 0 else l.map Prod.fst) := by
  induction l generalizing m e S with
  | nil =>
    refine ⟨(4 * m + lz : Nat), S, false, 0, by simp [Fmt.scanLoop, intCount], le_refl _, hS2, le_refl _, by norm_num, by simp, ?_⟩
    simp [worth]
  | cons p l ih =>
    obtain ⟨d, f⟩ := p
    obtain ⟨h1, h2⟩ := intCount_cons_exp he2
    have hd : d < 16 := hl (d, f) List.mem_cons_self
    have hl' : ∀ p ∈ l, p.1 < 16 := fun p hp => hl p (List.mem_cons_of_mem _ hp)
    have he' : -(2 ^ 31) ≤ e + (if f = true then 0 else 4) := by split <;> omega
    cases m with
    | succ m =>
      have hshl : F.shl d (4 * m + lz) = d * 2 ^ (4 * m + lz) := by
        unfold Fmt.shl
        apply Nat.mod_eq_of_lt
        have : 2 ^ (4 * m + lz + 4) ≤ 2 ^ F.width := Nat.pow_le_pow_right (by decide) (by omega)
        rw [pow_add] at this
        have : 0 < 2 ^ (4 * m + lz) := Nat.pow_pos (by decide)
        nlinarith
      have hS' : 2 ^ (4 * m + lz + 4) ∣ S := by
        have : 4 * m + lz + 4 = 4 * (m + 1) + lz := by ring
        rwa [this]
      have hstep : F.scanStep ⟨e, (4 * (m + 1) + lz : Nat), S, false⟩ d f =
          some ⟨e + (if f = true then 0 else 4), (4 * m + lz : Nat), S + d * 2 ^ (4 * m + lz), false⟩ := by
        unfold Fmt.scanStep
        simp only [step_exp e f he h1]
        rw [if_pos (c := -4 < ((4 * (m + 1) + lz : Nat) : Int)) (by omega)]
        have : ((4 * (m + 1) + lz : Nat) : Int) - 4 = (4 * m + lz : Nat) := by omega
        rw [this, if_pos (by omega), Int.toNat_natCast, hshl, or_add_dvd hS' hd]
      have hlt : S + d * 2 ^ (4 * m + lz) < 2 ^ F.width := by
        obtain ⟨a, ha⟩ := hS'
        have hp : 2 ^ F.width = 2 ^ (4 * m + lz + 4) * 2 ^ (F.width - (4 * m + lz + 4)) := by
          rw [← pow_add]; congr 1; omega
        have hpos : 0 < 2 ^ (4 * m + lz + 4) := Nat.pow_pos (by decide)
        have ha2 : a < 2 ^ (F.width - (4 * m + lz + 4)) := by
          rw [ha, hp] at hS2
          exact Nat.lt_of_mul_lt_mul_left hS2
        have h3 : 2 ^ (4 * m + lz + 4) * (a + 1) ≤ 2 ^ F.width := by
          rw [hp]; exact Nat.mul_le_mul_left _ ha2
        rw [Nat.mul_add, ← ha, Nat.mul_one] at h3
        have h4 : d * 2 ^ (4 * m + lz) < 2 ^ (4 * m + lz + 4) := by
          rw [pow_add 2 (4 * m + lz) 4, Nat.mul_comm]
          have hp0 : 0 < 2 ^ (4 * m + lz) := Nat.pow_pos (by decide)
          exact Nat.mul_lt_mul_of_pos_left (by simpa using hd) hp0
        omega
      have hdvd : 2 ^ (4 * m + lz) ∣ S + d * 2 ^ (4 * m + lz) := by
        apply Nat.dvd_add
        · exact Nat.dvd_trans (Nat.pow_dvd_pow 2 (by omega)) hS'
        · exact Nat.dvd_mul_left _ _
      obtain ⟨pos, S', x, ε, r1, r2, r3, r4, r5, r6, r7⟩ :=
        ih m _ (S + d * 2 ^ (4 * m + lz)) (by omega) hdvd hlt hl' he' h2
      refine ⟨pos, S', x, ε, ?_, by omega, r3, r4, r5, r6, ?_⟩
      · rw [Fmt.scanLoop, hstep]
        simp only
        rw [r1, intCount_cons]
        congr 2; ring
      · rw [r7]
        have e1 : ((4 * (m + 1) + lz : Nat) : Int) - 4 = (4 * m + lz : Nat) := by omega
        have e2 : (if 0 < lz then (List.map Prod.fst ((d, f) :: l)).set (m + 1) 0 else List.map Prod.fst ((d, f) :: l)) =
            d :: (if 0 < lz then (l.map Prod.fst).set m 0 else l.map Prod.fst) := by
          split <;> rfl
        rw [e1, e2, worth_cons]
        push_cast
        rw [← zpow_natCast]
        push_cast
        ring
    | zero =>
      simp only [Nat.mul_zero, Nat.zero_add] at *
      by_cases h0 : lz = 0
      · subst h0
        have hstep : F.scanStep ⟨e, (0 : Nat), S, false⟩ d f =
            some ⟨e + (if f = true then 0 else 4), -4, S, decide (d ≠ 0)⟩ := by
          unfold Fmt.scanStep
          simp only [step_exp e f he h1]
          rfl
        refine ⟨-4, S, decide (d ≠ 0) || l.any (fun p => decide (p.1 ≠ 0)), worth (-4) (((d, f) :: l).map Prod.fst), ?_,
          le_refl _, hS2, worth_nonneg _ _, ?_, ?_, ?_⟩
        · rw [Fmt.scanLoop, hstep]
          simp only
          rw [scan_low l _ (-4) S _ (by omega) he' h2, intCount_cons]
          congr 2; ring
        · have := worth_lt (p := -4) (ds := ((d, f) :: l).map Prod.fst) (by
            intro d hd
            obtain ⟨p, hp, rfl⟩ := List.mem_map.mp hd
            exact hl p hp)
          simpa using this
        · have := any_worth (p := -4) (l := (d, f) :: l)
          rw [List.any_cons] at this
          exact this
        · simp
      · have hstep : F.scanStep ⟨e, (lz : Nat), S, false⟩ d f =
            some ⟨e + (if f = true then 0 else 4), (lz : Int) - 4, S, false⟩ := by
          have hsh : (4 - ((lz : Int) - 4)).toNat = 8 - lz := by omega
          obtain ⟨m1, m2⟩ := straddle_mask h hd (sh := 8 - lz) (by omega) (by omega)
          unfold Fmt.scanStep
          simp only [step_exp e f he h1]
          rw [if_pos (c := -4 < ((lz : Nat) : Int)) (by omega), if_neg (by omega), if_pos (by omega), hsh, m1, m2]
          simp
        have hset : (if 0 < lz then (List.map Prod.fst ((d, f) :: l)).set 0 0 else List.map Prod.fst ((d, f) :: l)) =
            0 :: l.map Prod.fst := by
          rw [if_pos (by omega)]; rfl
        rw [hset]
        cases l with
        | nil =>
          refine ⟨(lz : Int) - 4, S, false, 0, ?_, le_refl _, hS2, le_refl _, by norm_num, by simp, ?_⟩
          · rw [Fmt.scanLoop, hstep]
            simp only [Fmt.scanLoop]
            rw [intCount_cons]
            congr 2
            simp [intCount]
          · simp [worth]
        | cons p l =>
          obtain ⟨d2, f2⟩ := p
          obtain ⟨h3, h4⟩ := intCount_cons_exp h2
          have hstep2 : F.scanStep ⟨e + (if f = true then 0 else 4), (lz : Int) - 4, S, false⟩ d2 f2 =
              some ⟨e + (if f = true then 0 else 4) + (if f2 = true then 0 else 4), (lz : Int) - 8, S, decide (d2 ≠ 0)⟩ := by
            unfold Fmt.scanStep
            simp only [step_exp _ f2 he' h3]
            rw [if_pos (c := -4 < (lz : Int) - 4) (by omega), if_neg (by omega), if_neg (by omega)]
            have : (lz : Int) - 4 - 4 = lz - 8 := by ring
            rw [this]
            simp
          refine ⟨(lz : Int) - 8, S, decide (d2 ≠ 0) || l.any (fun p => decide (p.1 ≠ 0)),
            worth ((lz : Int) - 8) (((d2, f2) :: l).map Prod.fst), ?_, le_refl _, hS2, worth_nonneg _ _, ?_, ?_, ?_⟩
          · rw [Fmt.scanLoop, hstep]
            simp only
            rw [Fmt.scanLoop, hstep2]
            simp only
            rw [scan_low l _ _ S _ (by omega) (by split <;> omega) h4, intCount_cons, intCount_cons]
            congr 2; ring
          · have := worth_lt (p := (lz : Int) - 8) (ds := ((d2, f2) :: l).map Prod.fst) (by
              intro d hd
              obtain ⟨p, hp, rfl⟩ := List.mem_map.mp hd
              exact hl' p hp)
            refine lt_of_lt_of_le this ?_
            have : (2 : ℚ) ^ ((lz : Int) - 8 + 4) ≤ (2 : ℚ) ^ (0 : Int) :=
              zpow_le_zpow_right₀ (by norm_num) (by omega)
            simpa using this
          · have := any_worth (p := (lz : Int) - 8) (l := (d2, f2) :: l)
            rw [List.any_cons] at this
            exact this
          · have e1 : (lz : Int) - 4 - 4 = lz - 8 := by ring
            rw [worth, e1]
            simp

end

end Verif.Float
