import Verif.Wat.Numbers
/-
Integer tokens: the value of the literal.
-/
namespace Verif.Wat

open Verif.Std Spec

/-! ## The digits of numbers -/

theorem digits_toDigits {base : Nat} (h1 : 1 < base) (hb : base ≤ 16) (n : Nat) :
    Digits base true (Nat.toDigits base n) n := by
  induction n using Nat.strongRecOn with
  | ind n ih =>
    rw [Nat.toDigits_eq_if h1]
    split
    · next h => exact .one (toDigit_digitChar hb h)
    · next h =>
      have hlt : n / base < n := Nat.div_lt_self (by omega) h1
      have hm : n % base < base := Nat.mod_lt _ (by omega)
      have := Digits.more (ih _ hlt) (u := []) (by simp) (by simp) (toDigit_digitChar hb hm)
      rw [List.append_nil] at this
      rwa [Nat.mul_comm, Nat.div_add_mod] at this

theorem digits_two {strict : Bool} {t : Text} {n : Nat} (h : Digits 16 strict t n) (b : UInt8) :
    Digits 16 strict (t ++ hex2 b) (n * 256 + b.toNat) := by
  have hb := b.toNat_lt
  have h1 : b.toNat / 16 < 16 := by omega
  have h2 : b.toNat % 16 < 16 := by omega
  have s1 := Digits.more h (u := []) (by simp) (by simp) (toDigit_digitChar (Nat.le_refl 16) h1)
  have s2 := Digits.more s1 (u := []) (by simp) (by simp) (toDigit_digitChar (Nat.le_refl 16) h2)
  have e : (n * 16 + b.toNat / 16) * 16 + b.toNat % 16 = n * 256 + b.toNat := by omega
  rw [e] at s2
  simpa [hex2] using s2

theorem digits_hex2 (b : UInt8) : Digits 16 true (hex2 b) b.toNat := by
  have hb := b.toNat_lt
  have h1 : b.toNat / 16 < 16 := by omega
  have h2 : b.toNat % 16 < 16 := by omega
  have s1 := Digits.one (strict := true) (toDigit_digitChar (Nat.le_refl 16) h1)
  have s2 := Digits.more s1 (u := []) (by simp) (by simp) (toDigit_digitChar (Nat.le_refl 16) h2)
  have e : b.toNat / 16 * 16 + b.toNat % 16 = b.toNat := by omega
  rw [e] at s2
  simpa [hex2] using s2

/-! ## The text of the value -/

theorem x_not_digit (base : Nat) (hb : base ≤ 16) : toDigit base 'x' = none := by
  have : digitVal 'x' = some 33 := by decide
  rw [toDigit, this]
  simp only [Option.filter_some, decide_eq_true_eq]
  rw [if_neg (by omega)]

theorem digits_no_x {base : Nat} (hb : base ≤ 16) {strict : Bool} {t : Text} {n : Nat}
    (h : Digits base strict t n) : 'x' ∉ t := by
  induction h with
  | one h =>
    rw [List.mem_singleton]
    rintro rfl
    rw [x_not_digit base hb] at h; cases h
  | more h1 hu hs hc ih =>
    simp only [List.mem_append, List.mem_singleton, not_or]
    refine ⟨⟨ih, fun h => absurd (hu _ h) (by decide)⟩, ?_⟩
    rintro rfl
    rw [x_not_digit base hb] at hc; cases hc

theorem dropHexPrefix_digits : ∀ {t : Text}, 'x' ∉ t → dropHexPrefix t = t
  | [], _ => rfl
  | [_], _ => rfl
  | a :: b :: s, h => by
    simp only [List.mem_cons, not_or] at h
    rw [dropHexPrefix, if_neg (by rintro ⟨-, rfl⟩; exact h.2.1 rfl)]
    rw [dropHexPrefix_digits (t := b :: s) (by simp only [List.mem_cons, not_or]; exact h.2)]

theorem noUnderscores {t : Text} (h : hasUnderscore t = false) : dropUnderscores t = t := by
  rw [dropUnderscores, List.filter_eq_self]
  intro c hc
  simp only [bne_iff_ne, ne_eq]
  rintro rfl
  rw [hasUnderscore, List.contains_eq_mem, decide_eq_false_iff_not] at h
  exact h hc

/-- The sign that is left in the text of the value. -/
def minusOf (sg : Option Sign) : Text := if sg = some .minus then ['-'] else []

theorem no_x_filter {t : Text} (h : 'x' ∉ t) : 'x' ∉ dropUnderscores t :=
  fun hx => h (List.mem_filter.mp hx).1

theorem dropU_minus (sg : Option Sign) : dropUnderscores (minusOf sg) = minusOf sg := by
  unfold minusOf; split <;> rfl

theorem integerVal_eq {sg : Option Sign} {s : Text} {hex : Bool} {base : Nat} {p t : Text} {n : Nat}
    (hs : Sgn sg s) (hb : Base hex base p) (ht : Digits base true t n) :
    integerVal (s ++ p ++ t) ⟨sg, hasUnderscore t, hex⟩ = some (minusOf sg ++ dropUnderscores t) := by
  have hbase : base ≤ 16 := by cases hb <;> decide
  have hx := digits_no_x hbase ht
  have hx' := no_x_filter hx
  have hdp : dropUnderscores p = p := by cases hb <;> rfl
  have h2 : (if hasUnderscore t = true then dropUnderscores (minusOf sg ++ p ++ t) else minusOf sg ++ p ++ t)
      = minusOf sg ++ p ++ dropUnderscores t := by
    split
    · rw [dropUnderscores_append, dropUnderscores_append, hdp, dropU_minus]
    · next h => rw [noUnderscores (by simpa using h)]
  have h3 : integerVal (s ++ p ++ t) ⟨sg, hasUnderscore t, hex⟩ = some
      (let val := if hasUnderscore t = true then dropUnderscores (minusOf sg ++ p ++ t) else minusOf sg ++ p ++ t
       if hex = true then dropHexPrefix val else val) := by
    cases hs <;> simp [integerVal, minusOf, stripPrefix]
  refine h3.trans ?_
  simp only [Option.some.injEq]
  rw [h2]
  cases hb with
  | dec => simp
  | hex =>
    simp only [if_true]
    have hrest := dropHexPrefix_digits hx'
    unfold minusOf
    split
    · simp only [List.cons_append, List.nil_append]
      rw [dropHexPrefix, if_neg (by decide), dropHexPrefix, if_pos ⟨rfl, rfl⟩, hrest]
    · simp only [List.cons_append, List.nil_append]
      rw [dropHexPrefix, if_pos ⟨rfl, rfl⟩, hrest]

/-- Reading the text of the value. -/
theorem fromStrRadix_eq (signed : Bool) (bits : Nat) {sg : Option Sign} {base : Nat} {t : Text} {n : Nat}
    (hb : base ≤ 16) (ht : Digits base true t n) :
    fromStrRadix signed bits base (minusOf sg ++ dropUnderscores t) =
      let i : Int := if sg = some .minus then -(n : Int) else n
      let lo : Int := if signed then -((2 ^ (bits - 1) : Nat) : Int) else 0
      let hi : Int := if signed then ((2 ^ (bits - 1) : Nat) : Int) else ((2 ^ bits : Nat) : Int)
      if sg = some .minus ∧ signed = false then none
      else if lo ≤ i ∧ i < hi then some i else none := by
  obtain ⟨c, d, t', rfl, hd⟩ := digits_head ht
  have hread := digits_read ht
  have hne : dropUnderscores (c :: t') = c :: dropUnderscores t' := by
    have := dropUnderscores_digit hd
    rw [← List.singleton_append, dropUnderscores_append, this]; rfl
  have hns : c ≠ '+' ∧ c ≠ '-' := digits_no_sign ht [] c (by simp)
  unfold fromStrRadix
  by_cases hm : sg = some .minus
  · have : minusOf sg = ['-'] := by rw [minusOf, if_pos hm]
    rw [this, hne]
    have e : splitSign (['-'] ++ c :: dropUnderscores t') = (some .minus, c :: dropUnderscores t') := rfl
    rw [e]
    simp only [hm, true_and]
    cases signed with
    | false => simp
    | true =>
      rw [if_neg (by simp)]
      rw [← hne, hread]
      simp
  · have : minusOf sg = [] := by rw [minusOf, if_neg hm]
    rw [this, hne, List.nil_append]
    have e : splitSign (c :: dropUnderscores t') = (none, c :: dropUnderscores t') :=
      splitSign_ok (t := c :: dropUnderscores t') Sgn.none (by
        intro x hx
        simp only [List.head?_cons, Option.mem_def, Option.some.injEq] at hx
        subst hx; exact hns)
    rw [e]
    simp only
    rw [if_neg (by simp), ← hne, hread]
    simp only [hm, if_false, false_and]
    rw [if_neg (c := (none : Option Sign) = some Sign.minus) (by simp)]

/-- The value of an integer token as an integer type. -/
theorem parseInteger_eq (signed : Bool) (bits : Nat) (hbits : 0 < bits) {sg : Option Sign} {s : Text} {hex : Bool}
    {base : Nat} {p t : Text} {n : Nat} (hs : Sgn sg s) (hb : Base hex base p) (ht : Digits base true t n) :
    parseInteger signed bits (s ++ p ++ t) ⟨sg, hasUnderscore t, hex⟩ =
      let v : Int := if sg = some .minus then -(n : Int) else n
      if signed then
        if -((2 ^ (bits - 1) : Nat) : Int) ≤ v ∧ v < ((2 ^ bits : Nat) : Int) then some (v.bmod (2 ^ bits)) else none
      else
        if sg = some .minus then none else if v < ((2 ^ bits : Nat) : Int) then some v else none := by
  have hbase : base ≤ 16 := by cases hb <;> decide
  have hbs : (if hex = true then 16 else 10) = base := by cases hb <;> rfl
  unfold parseInteger
  rw [integerVal_eq hs hb ht]
  simp only [hbs]
  rw [fromStrRadix_eq signed bits hbase ht, fromStrRadix_eq false bits hbase ht]
  have hpow : (2 : Nat) ^ bits = 2 * 2 ^ (bits - 1) := by
    rw [← Nat.pow_succ']; congr 1; omega
  have hpp : 0 < 2 ^ (bits - 1) := Nat.pow_pos (by decide)
  cases signed with
  | false =>
    simp only [Bool.false_eq_true, if_false, and_true]
    by_cases hm : sg = some .minus
    · simp [hm]
    · simp only [hm, if_false]
      by_cases hlt : (n : Int) < ((2 ^ bits : Nat) : Int)
      · rw [if_pos ⟨by omega, hlt⟩, if_pos hlt]
      · rw [if_neg (by omega), if_neg hlt]
  | true =>
    simp only [if_true, Bool.true_eq_false, and_false, if_false, Bool.false_eq_true]
    obtain ⟨H, hH⟩ : ∃ H : Nat, H = 2 ^ (bits - 1) := ⟨_, rfl⟩
    obtain ⟨B, hB⟩ : ∃ B : Nat, B = 2 ^ bits := ⟨_, rfl⟩
    rw [← hH, ← hB] at hpow
    rw [← hH] at hpp
    rw [← hH, ← hB]
    by_cases hm : sg = some .minus
    · simp only [hm, if_true, true_and]
      by_cases hlo : -(H : Int) ≤ -(n : Int)
      · rw [if_pos ⟨hlo, by omega⟩, if_pos ⟨hlo, by omega⟩]
        simp only [Option.some.injEq]
        rw [Int.bmod_eq_of_le] <;> omega
      · rw [if_neg (by omega), if_neg (by omega)]
    · simp only [hm, if_false, false_and]
      by_cases h1 : (n : Int) < H
      · rw [if_pos ⟨by omega, h1⟩, if_pos (show -(H : Int) ≤ (n : Int) ∧ (n : Int) < (B : Int) by omega)]
        simp only [Option.some.injEq]
        rw [Int.bmod_eq_of_le] <;> omega
      · rw [if_neg (by omega)]
        by_cases h2 : (n : Int) < (B : Int)
        · rw [if_pos ⟨by omega, h2⟩, if_pos ⟨by omega, h2⟩]
        · rw [if_neg (by omega), if_neg (by omega)]

end Verif.Wat
