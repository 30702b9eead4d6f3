import Verif.Float.Token
import Verif.Wat.Names
/-
What `print_float!` writes.
-/
namespace Verif.Float

open Verif.Std Verif.Wat Verif.Wat.Spec Spec

section
variable {F : Fmt}

/-! ## The digits of the fraction -/

theorem worth_shift (l : List Nat) (p : Int) : worth (p - 4) l * 16 = worth p l := by
  induction l generalizing p with
  | nil => simp [worth]
  | cons d l ih =>
    rw [worth_cons, worth_cons, add_mul, ih, mul_assoc, zpow_four]
    congr 3; ring

/-- The digits as numbers. -/
theorem fraction_spec (hF : WF F) : ∀ (fuel j fr : Nat), fr < 2 ^ F.width → 4 * j ≤ F.width → j ≤ fuel → 2 ^ (F.width - 4 * j) ∣ fr →
    ∃ ds : List Nat, F.fractionDigits fuel fr = ds.map Nat.digitChar ∧ (∀ d ∈ ds, d < 16) ∧ ds.length ≤ j ∧
      worth (-4) ds = (fr : ℚ) / 2 ^ F.width := by
  intro fuel
  induction fuel with
  | zero =>
    intro j fr hlt hj hfuel hd
    have : j = 0 := by omega
    subst this
    have h0 : fr = 0 := Nat.eq_zero_of_dvd_of_lt hd (by simpa using hlt)
    subst h0
    exact ⟨[], rfl, by simp, by simp, by simp [worth]⟩
  | succ fuel ih =>
    intro j fr hlt hj hfuel hd
    by_cases h0 : fr = 0
    · subst h0
      exact ⟨[], by simp [Fmt.fractionDigits], by simp, by simp, by simp [worth]⟩
    · have hw := hF.wide
      cases j with
      | zero => exact absurd (Nat.eq_zero_of_dvd_of_lt hd (by simpa using hlt)) h0
      | succ j =>
        have hp4 : 2 ^ F.width = 2 ^ (F.width - 4) * 16 := by
          rw [show (16 : Nat) = 2 ^ 4 from rfl, ← pow_add]; congr 1; omega
        have hpp : 0 < 2 ^ (F.width - 4) := Nat.pow_pos (by decide)
        have hdig : fr / 2 ^ (F.width - 4) < 16 := by
          rw [Nat.div_lt_iff_lt_mul hpp, Nat.mul_comm, ← hp4]; exact hlt
        have hshl : F.shl fr 4 = (fr % 2 ^ (F.width - 4)) * 16 := by
          unfold Fmt.shl
          rw [hp4]
          exact Nat.mul_mod_mul_right _ _ _
        have hlt' : fr % 2 ^ (F.width - 4) * 16 < 2 ^ F.width := by
          rw [hp4]; exact Nat.mul_lt_mul_of_pos_right (Nat.mod_lt _ hpp) (by decide)
        have hdvd : 2 ^ (F.width - 4 * j) ∣ fr % 2 ^ (F.width - 4) * 16 := by
          have e : 2 ^ (F.width - 4 * j) = 2 ^ (F.width - 4 * (j + 1)) * 16 := by
            rw [show (16 : Nat) = 2 ^ 4 from rfl, ← pow_add]; congr 1; omega
          rw [e]
          apply Nat.mul_dvd_mul_right
          rw [Nat.dvd_mod_iff (Nat.pow_dvd_pow 2 (by omega))]
          exact hd
        obtain ⟨ds, h1, h2, h3, h4⟩ := ih j (fr % 2 ^ (F.width - 4) * 16) hlt' (by omega) (by omega) hdvd
        refine ⟨fr / 2 ^ (F.width - 4) :: ds, ?_, ?_, by simp; omega, ?_⟩
        · rw [Fmt.fractionDigits, if_neg h0, hshl, h1, Nat.shiftRight_eq_div_pow]
          rfl
        · intro d hd
          rcases List.mem_cons.mp hd with rfl | hd
          · exact hdig
          · exact h2 d hd
        · rw [worth_cons]
          have hs := worth_shift ds (-4)
          rw [h4] at hs
          have hdm : (fr : ℚ) = (fr / 2 ^ (F.width - 4) : Nat) * 2 ^ (F.width - 4) + (fr % 2 ^ (F.width - 4) : Nat) := by
            exact_mod_cast (Nat.div_add_mod' fr _).symm
          have hp : (2 : ℚ) ^ F.width = 2 ^ (F.width - 4) * 16 := by exact_mod_cast hp4
          have hp0 : (2 : ℚ) ^ (F.width - 4) ≠ 0 := by positivity
          rw [hp] at hs ⊢
          generalize hQ : (fr / 2 ^ (F.width - 4) : Nat) = Q at *
          generalize hR : (fr % 2 ^ (F.width - 4) : Nat) = R at *
          rw [hdm]
          have h5 : worth (-4 - 4) ds = (R : ℚ) / (2 ^ (F.width - 4) * 16) := by
            generalize worth (-4 - 4) ds = W at hs ⊢
            push_cast at hs
            field_simp at hs ⊢
            linarith
          rw [h5]
          have h6 : (2 : ℚ) ^ (-4 : Int) = 1 / 16 := by norm_num
          rw [h6]
          field_simp

/-! ## The exponent -/

theorem toSigned_eq {x y : Int} (h : ∃ k : Int, x = y + k * 2 ^ F.width) (hw : 0 < F.width) (h1 : -(2 ^ (F.width - 1)) ≤ y)
    (h2 : y < 2 ^ (F.width - 1)) : F.toSigned x = y := by
  obtain ⟨k, rfl⟩ := h
  unfold Fmt.toSigned
  have hp : ((2 ^ F.width : Nat) : Int) = 2 * 2 ^ (F.width - 1) := by
    rw [← pow_succ']; push_cast; congr 1; omega
  have e : y + k * 2 ^ F.width = y + k * ((2 ^ F.width : Nat) : Int) := by push_cast; rfl
  rw [e, Int.add_mul_bmod_self_right]
  apply Int.bmod_eq_of_le <;> rw [hp] <;> omega

/-- The exponent that is printed. -/
theorem exponent_spec (hF : WF F) {m : Nat} (hm : m < infinity F) :
    let bias : Int := 2 ^ (F.expBits - 1) - 1
    let e := F.toSigned (F.toSigned (F.shl m 1) / 2 ^ (F.width - 1 - F.expBits + 1) - bias)
    F.toSigned (e * 2 ^ (F.width - F.expBits)) / 2 ^ (F.width - F.expBits) = ((m / 2 ^ fracBits F : Nat) : Int) - Spec.bias F := by
  intro bias e
  have hw := hF.width_eq
  have hinf := hF.infinity_lt
  have hps : 0 < 2 ^ fracBits F := Nat.pow_pos (by decide)
  have hpw : 2 ^ F.width = 2 * 2 ^ (F.width - 1) := by rw [← pow_succ']; congr 1; omega
  have hshl : F.shl m 1 = 2 * m := by
    unfold Fmt.shl
    rw [Nat.mod_eq_of_lt (by omega)]; omega
  have hb : bias = Spec.bias F := rfl
  have hbb : Spec.bias F = F.bias := hF.bias_eq.symm
  have htb := hF.two_bias
  have hE1 : F.width - 1 - F.expBits + 1 = fracBits F + 1 := rfl
  have hE2 : F.width - F.expBits = fracBits F + 1 := by omega
  obtain ⟨E, hE⟩ : ∃ E, E = m / 2 ^ fracBits F := ⟨_, rfl⟩
  have hElt : E < 2 ^ F.expBits - 1 := by
    rw [hE, Nat.div_lt_iff_lt_mul hps]; exact hm
  -- the first shift to the right
  have hdiv : F.toSigned ((F.shl m 1 : Nat) : Int) / 2 ^ (fracBits F + 1) = E ∨
      F.toSigned ((F.shl m 1 : Nat) : Int) / 2 ^ (fracBits F + 1) = (E : Int) - 2 ^ F.expBits := by
    have hdm := Nat.div_add_mod' m (2 ^ fracBits F)
    rw [← hE] at hdm
    have hmod : m % 2 ^ fracBits F < 2 ^ fracBits F := Nat.mod_lt _ hps
    have hp0 : (0 : Int) < 2 ^ (fracBits F + 1) := by positivity
    have key : ∀ q : Int, ((2 * m : Nat) : Int) + q * 2 ^ F.width = (2 * (m % 2 ^ fracBits F : Nat)) + (E + q * 2 ^ F.expBits) * 2 ^ (fracBits F + 1) := by
      intro q
      have h1 : ((2 * m : Nat) : Int) = 2 * (m % 2 ^ fracBits F : Nat) + E * 2 ^ (fracBits F + 1) := by
        conv => lhs; rw [← hdm]
        push_cast
        rw [pow_succ]; ring
      rw [h1, hw]
      have : (2 : Int) ^ (fracBits F + 1 + F.expBits) = 2 ^ F.expBits * 2 ^ (fracBits F + 1) := by rw [pow_add, mul_comm]
      rw [this]; ring
    have hsmall : (2 * ((m % 2 ^ fracBits F : Nat) : Int)) / 2 ^ (fracBits F + 1) = 0 := by
      apply Int.ediv_eq_zero_of_lt (by omega)
      rw [pow_succ]
      have : ((2 ^ fracBits F : Nat) : Int) = 2 ^ fracBits F := by push_cast; rfl
      omega
    rw [hshl]
    have hcast : ((2 ^ (F.width - 1) : Nat) : Int) = 2 ^ (F.width - 1) := by push_cast; rfl
    have hcast2 : ((2 ^ F.width : Nat) : Int) = 2 ^ F.width := by push_cast; rfl
    by_cases hlt : 2 * m < 2 ^ (F.width - 1)
    · left
      rw [toSigned_eq (y := ((2 * m : Nat) : Int)) ⟨0, by ring⟩ (by omega) (by omega) (by omega)]
      have := key 0
      simp only [zero_mul, add_zero] at this
      rw [this, Int.add_mul_ediv_right _ _ (by omega), hsmall]; ring
    · right
      rw [toSigned_eq (y := ((2 * m : Nat) : Int) + (-1) * 2 ^ F.width) ⟨1, by ring⟩ (by omega) (by omega) (by omega)]
      rw [key (-1), Int.add_mul_ediv_right _ _ (by omega), hsmall]; ring
  have hbig : (2 : Int) ^ F.expBits ≤ 2 ^ (F.width - 2) := pow_le_pow_right₀ (by decide) (by have := hF.width; omega)
  have hbig2 : (2 : Int) ^ (F.width - 1) = 2 * 2 ^ (F.width - 2) := by rw [← pow_succ']; congr 1; have := hF.wide; omega
  have hbig3 : (2 : Int) ^ F.width = 2 * 2 ^ (F.width - 1) := by rw [← pow_succ']; congr 1; omega
  have hpe : ((2 ^ F.expBits : Nat) : Int) = 2 ^ F.expBits := by push_cast; rfl
  have hEi : (E : Int) + 2 ≤ 2 ^ F.expBits := by rw [← hpe]; omega
  have hbi : 2 * Spec.bias F + 2 = 2 ^ F.expBits := by rw [hbb, ← hpe, ← htb]; push_cast; ring
  have hE0 : (0 : Int) ≤ E := by omega
  have hbig4 : (0 : Int) < 2 ^ F.expBits := by positivity
  have hbpos : 0 ≤ Spec.bias F := by rw [hbb]; omega
  have he : ∃ k : Int, e = ((E : Int) - Spec.bias F) + k * 2 ^ F.expBits := by
    have he' : e = F.toSigned (F.toSigned (F.shl m 1) / 2 ^ (fracBits F + 1) - Spec.bias F) := rfl
    rcases hdiv with h | h
    · refine ⟨0, ?_⟩
      rw [he', h, toSigned_eq (y := (E : Int) - Spec.bias F) ⟨0, by ring⟩ (by omega) (by linarith) (by linarith)]
      ring
    · refine ⟨-1, ?_⟩
      rw [he', h, toSigned_eq (y := (E : Int) - 2 ^ F.expBits - Spec.bias F) ⟨0, by ring⟩ (by omega) (by linarith) (by linarith)]
      ring
  obtain ⟨k, hk⟩ := he
  have hee : F.width - F.expBits = fracBits F + 1 := hE2
  have hsplit : (2 : Int) ^ F.width = 2 ^ F.expBits * 2 ^ (fracBits F + 1) := by
    rw [← pow_add]; congr 1; omega
  have hsplit1 : (2 : Int) ^ (F.width - 1) = 2 ^ (F.expBits - 1) * 2 ^ (fracBits F + 1) := by
    rw [← pow_add]; congr 1; have := hF.exp; omega
  have hhalf : (2 : Int) ^ (F.expBits - 1) = Spec.bias F + 1 := by unfold Spec.bias; ring
  have hq0 : (0 : Int) < 2 ^ (fracBits F + 1) := by positivity
  rw [hee]
  rw [toSigned_eq (y := ((E : Int) - Spec.bias F) * 2 ^ (fracBits F + 1)) ⟨k, by rw [hk, hsplit]; ring⟩ (by omega)]
  · rw [Int.mul_ediv_cancel _ (by omega), hE]
  · rw [hsplit1, hhalf]
    have : -(Spec.bias F + 1) ≤ (E : Int) - Spec.bias F := by omega
    nlinarith
  · rw [hsplit1, hhalf]
    have : (E : Int) - Spec.bias F < Spec.bias F + 1 := by omega
    nlinarith

/-! ## The text -/

/-- The text without the sign. -/
def body (F : Fmt) (m : Nat) : Text :=
  let exponent := F.toSigned (F.toSigned (F.shl m 1) / 2 ^ (F.width - 1 - F.expBits + 1) - (2 ^ (F.expBits - 1) - 1))
  let exponent := F.toSigned (exponent * 2 ^ (F.width - F.expBits)) / 2 ^ (F.width - F.expBits)
  let fraction := m &&& (2 ^ fracBits F - 1)
  if m = infinity F then ['i', 'n', 'f']
  else if infinity F < m then
    if fraction = 2 ^ (fracBits F - 1) then ['n', 'a', 'n']
    else ['n', 'a', 'n', ':', '0', 'x'] ++ Nat.toDigits 16 fraction
  else if m = 0 then ['0', 'x', '0', 'p', '+', '0']
  else if 0 < fraction then
    let fraction := F.shl fraction (F.width - fracBits F)
    let leading := F.leadingZeros fraction
    let p : Nat × Int :=
      if exponent = -2 ^ (F.expBits - 1) + 1 then
        (if leading < F.width - 1 then F.shl fraction (leading + 1) else 0, exponent - leading)
      else (fraction, exponent)
    ['0', 'x', '1', '.'] ++ F.fractionDigits F.width p.1 ++ 'p' :: Fmt.printSigned p.2
  else ['0', 'x', '1', 'p'] ++ Fmt.printSigned exponent

theorem xor_top {k m : Nat} (hm : m < 2 ^ k) : (2 ^ k + m) ^^^ 2 ^ k = m := by
  have : 2 ^ k + m = 2 ^ k ||| m := by
    have := or_add (a := 1) hm
    rw [Nat.one_mul] at this
    exact this.symm
  rw [this]
  apply Nat.eq_of_testBit_eq
  intro i
  rw [Nat.testBit_xor, Nat.testBit_or, Nat.testBit_two_pow]
  by_cases hi : k = i
  · subst hi; rw [Nat.testBit_lt_two_pow hm]; simp
  · simp [hi]

theorem ite_append {α : Type} (c : Prop) [Decidable c] (a x y : List α) :
    (if c then a ++ x else a ++ y) = a ++ (if c then x else y) := by split <;> rfl

theorem printFloat_eq (hF : WF F) (neg : Bool) {m : Nat} (hm : m < 2 ^ (F.width - 1)) :
    F.printFloat (signBit F neg + m) = (if neg = true then ['-'] else []) ++ body F m := by
  have h0 : 0 < 2 ^ (F.width - 1) := Nat.pow_pos (by decide)
  have key : ∀ (s : Text) (b : Nat), b = signBit F neg + m →
      (if b >>> (F.width - 1) ≠ 0 then ['-'] else []) = s →
      (if b >>> (F.width - 1) ≠ 0 then b ^^^ 2 ^ (F.width - 1) else b) = m →
      F.printFloat b = s ++ body F m := by
    intro s b _ h1 h2
    unfold Fmt.printFloat
    simp only [h1, h2]
    unfold body
    simp only [← ite_append, List.append_assoc]
    rfl
  apply key _ _ rfl
  · cases neg with
    | true =>
      rw [Nat.shiftRight_eq_div_pow, signBit, if_pos rfl, Nat.add_div_left _ h0, Nat.div_eq_of_lt hm]; rfl
    | false =>
      simp only [signBit, Bool.false_eq_true, if_false, Nat.zero_add]
      rw [Nat.shiftRight_eq_div_pow, Nat.div_eq_of_lt hm]; rfl
  · cases neg with
    | true =>
      simp only [signBit, if_true]
      rw [if_pos, xor_top hm]
      rw [Nat.shiftRight_eq_div_pow, Nat.add_div_left _ h0, Nat.div_eq_of_lt hm]; decide
    | false =>
      simp only [signBit, Bool.false_eq_true, if_false, Nat.zero_add]
      rw [if_neg]
      rw [Nat.shiftRight_eq_div_pow, Nat.div_eq_of_lt hm]; decide

theorem printSigned_exp (x : Int) : ExpVal true ('p' :: Fmt.printSigned x) x := by
  have hd := digits_toDigits (base := 10) (by decide) (by decide) x.natAbs
  unfold Fmt.printSigned
  split
  · have := ExpVal.some (hex := true) (e := 'p') (.inl rfl) Sgn.minus hd
    have e : (if (some Sign.minus : Option Sign) = some .minus then -(x.natAbs : Int) else x.natAbs) = x := by
      rw [if_pos rfl]; omega
    rw [e] at this
    exact this
  · have := ExpVal.some (hex := true) (e := 'p') (.inl rfl) Sgn.plus hd
    have e : (if (some Sign.plus : Option Sign) = some .minus then -(x.natAbs : Int) else x.natAbs) = x := by
      rw [if_neg (by decide)]; omega
    rw [e] at this
    exact this

theorem digitChar_digits {ds : List Nat} (h : ∀ d ∈ ds, d < 16) (hne : ds ≠ []) :
    (∃ n, Digits 16 true (ds.map Nat.digitChar) n) ∧ digitsOf 16 (ds.map Nat.digitChar) = ds := by
  constructor
  · have key : ∀ l : List Nat, (∀ d ∈ l, d < 16) → ∀ (t : Text) (n : Nat), Digits 16 true t n →
        ∃ n', Digits 16 true (t ++ l.map Nat.digitChar) n' := by
      intro l
      induction l with
      | nil => intro _ t n ht; exact ⟨n, by simpa using ht⟩
      | cons d l ih =>
        intro hl t n ht
        have hd : toDigit 16 d.digitChar = some d := toDigit_digitChar (by decide) (hl d List.mem_cons_self)
        have h1 := Digits.more ht (u := []) (by simp) (by simp) hd
        rw [List.append_nil] at h1
        obtain ⟨n', h2⟩ := ih (fun x hx => hl x (List.mem_cons_of_mem _ hx)) _ _ h1
        exact ⟨n', by simpa using h2⟩
    cases ds with
    | nil => exact absurd rfl hne
    | cons d l =>
      have hd : toDigit 16 d.digitChar = some d := toDigit_digitChar (by decide) (h d List.mem_cons_self)
      exact key l (fun x hx => h x (List.mem_cons_of_mem _ hx)) [d.digitChar] d (.one hd)
  · unfold digitsOf
    clear hne
    induction ds with
    | nil => rfl
    | cons d l ih =>
      have hd : toDigit 16 d.digitChar = some d := toDigit_digitChar (by decide) (h d List.mem_cons_self)
      rw [List.map_cons, List.filterMap_cons, hd]
      simp only
      rw [ih (fun x hx => h x (List.mem_cons_of_mem _ hx))]

/-- The literal `0x1.…p…`. -/
theorem hexLit_one (neg : Bool) {ds : List Nat} (h : ∀ d ∈ ds, d < 16) (x : Int) :
    ∃ k, HexLit k ((if neg = true then ['-'] else []) ++ (['0', 'x', '1', '.'] ++ ds.map Nat.digitChar ++ 'p' :: Fmt.printSigned x))
      neg (1 :: ds) ds.length x := by
  obtain ⟨sg, hs, hn⟩ : ∃ sg, Sgn sg (if neg = true then ['-'] else []) ∧ neg = decide (sg = some .minus) := by
    cases neg with
    | true => exact ⟨_, .minus, rfl⟩
    | false => exact ⟨_, .none, rfl⟩
  have h1 : Digits 16 true ['1'] 1 := .one (by decide)
  have hd1 : digitsOf 16 ['1'] = [1] := by decide
  have hfd : FracDigits 16 ('.' :: ds.map Nat.digitChar) ds := by
    cases ds with
    | nil => exact .dot
    | cons d l =>
      obtain ⟨⟨n, h2⟩, h3⟩ := digitChar_digits h (by simp)
      have := FracDigits.digits h2
      rwa [h3] at this
  have := HexLit.float hs h1 hfd (printSigned_exp x) (by simp)
  rw [hd1, ← hn] at this
  refine ⟨.float (.normal (hasUnderscore (['1'] ++ '.' :: ds.map Nat.digitChar ++ 'p' :: Fmt.printSigned x)) true), ?_⟩
  have e : (if neg = true then ['-'] else []) ++ (['0', 'x', '1', '.'] ++ ds.map Nat.digitChar ++ 'p' :: Fmt.printSigned x) =
      (if neg = true then ['-'] else []) ++ ['0', 'x'] ++ (['1'] ++ '.' :: ds.map Nat.digitChar ++ 'p' :: Fmt.printSigned x) := by
    simp
  rw [e]
  exact this

theorem hexLit_int (neg : Bool) {c : Char} {d : Nat} (h : toDigit 16 c = some d) (x : Int) :
    ∃ k, HexLit k ((if neg = true then ['-'] else []) ++ (['0', 'x', c] ++ 'p' :: Fmt.printSigned x)) neg [d] 0 x := by
  obtain ⟨sg, hs, hn⟩ : ∃ sg, Sgn sg (if neg = true then ['-'] else []) ∧ neg = decide (sg = some .minus) := by
    cases neg with
    | true => exact ⟨_, .minus, rfl⟩
    | false => exact ⟨_, .none, rfl⟩
  have h1 : Digits 16 true [c] d := .one h
  have hd1 : digitsOf 16 [c] = [d] := by simp [digitsOf, h]
  have := HexLit.float hs h1 FracDigits.none (printSigned_exp x) (by simp)
  rw [hd1, ← hn] at this
  refine ⟨.float (.normal (hasUnderscore ([c] ++ [] ++ 'p' :: Fmt.printSigned x)) true), ?_⟩
  have e : (if neg = true then ['-'] else []) ++ (['0', 'x', c] ++ 'p' :: Fmt.printSigned x) =
      (if neg = true then ['-'] else []) ++ ['0', 'x'] ++ ([c] ++ [] ++ 'p' :: Fmt.printSigned x) := by
    simp
  rw [e]
  exact this

theorem hexValue_one (ds : List Nat) (x : Int) :
    hexValue (1 :: ds) ds.length x = (1 + worth (-4) ds) * (2 : ℚ) ^ x := by
  have := worth_ofDigits (1 :: ds) 0
  rw [worth_cons] at this
  unfold hexValue
  have e : x - 4 * (ds.length : Int) = (0 + 4 - 4 * ((1 :: ds).length : Int)) + x := by
    rw [List.length_cons]; push_cast; ring
  rw [e, zpow_add₀ (by norm_num), ← mul_assoc, this]
  simp

theorem shl_top {f : Nat} (hF : WF F) (hf : f < 2 ^ fracBits F) :
    F.shl f (F.width - fracBits F) = f * 2 ^ (F.width - fracBits F) ∧ f * 2 ^ (F.width - fracBits F) < 2 ^ F.width := by
  have hw := hF.width_eq
  have e : 2 ^ F.width = 2 ^ fracBits F * 2 ^ (F.width - fracBits F) := by rw [← pow_add]; congr 1; omega
  have hlt : f * 2 ^ (F.width - fracBits F) < 2 ^ F.width := by
    rw [e]; exact Nat.mul_lt_mul_of_pos_right hf (Nat.pow_pos (by decide))
  exact ⟨Nat.mod_eq_of_lt hlt, hlt⟩

/-- Finite numbers are printed as a literal with their value. -/
theorem body_finite (hF : WF F) (h3 : 3 ≤ F.expBits) (neg : Bool) {m : Nat} (hm : m < infinity F) :
    ∃ k ds nf x, HexLit k ((if neg = true then ['-'] else []) ++ body F m) neg ds nf x ∧ hexValue ds nf x = magnitude F m ∧
      ds.length ≤ F.width / 4 ∧ (x.natAbs : Int) ≤ F.bias + F.width ∧ (body F m).length ≤ 5 + F.width + (Fmt.printSigned x).length := by
  have hw := hF.width_eq
  have hs := hF.frac_pos
  have hbias := hF.bias_eq
  have htb := hF.two_bias
  have hps : 0 < 2 ^ fracBits F := Nat.pow_pos (by decide)
  have hexp := exponent_spec hF hm
  simp only at hexp
  unfold body
  simp only [hexp]
  rw [if_neg (c := m = infinity F) (by omega), if_neg (c := infinity F < m) (by omega)]
  have hE : m / 2 ^ fracBits F < 2 ^ F.expBits - 1 := by
    rw [Nat.div_lt_iff_lt_mul hps]; exact hm
  by_cases h0 : m = 0
  · rw [if_pos h0]
    obtain ⟨k, hk⟩ := hexLit_int neg (c := '0') (d := 0) (by decide) 0
    refine ⟨k, _, _, _, hk, ?_, by have := hF.wide; simp; omega, by simp; omega, ?_⟩
    · subst h0
      have := (magnitude_sub F 0 hps).1
      rw [this]; simp [hexValue, ofDigits]
    · simp only [List.length_cons, List.length_nil]; have := hF.wide; omega
  · rw [if_neg h0, Nat.and_two_pow_sub_one_eq_mod]
    obtain ⟨f, hf⟩ : ∃ f, f = m % 2 ^ fracBits F := ⟨_, rfl⟩
    obtain ⟨E, hEd⟩ : ∃ E, E = m / 2 ^ fracBits F := ⟨_, rfl⟩
    have hflt : f < 2 ^ fracBits F := by rw [hf]; exact Nat.mod_lt _ hps
    have hmag : magnitude F m = if E = 0 then f * (2 : ℚ) ^ (1 - Spec.bias F - fracBits F)
        else (2 ^ fracBits F + f : Nat) * (2 : ℚ) ^ ((E : Int) - Spec.bias F - fracBits F) := by
      unfold magnitude; rw [hf, hEd]
    rw [← hf, ← hEd]
    rw [← hEd] at hE
    obtain ⟨hsh1, hsh2⟩ := shl_top hF hflt
    rw [hsh1]
    have hminExp : -(2 : Int) ^ (F.expBits - 1) + 1 = -Spec.bias F := by unfold Spec.bias; ring
    rw [hminExp]
    have hcond : ((E : Int) - Spec.bias F = -Spec.bias F) ↔ E = 0 := by omega
    have hpw : (2 : ℚ) ^ F.width = 2 ^ fracBits F * 2 ^ (F.width - fracBits F) := by rw [← pow_add]; congr 1; omega
    have hq1 : (2 : ℚ) ^ fracBits F ≠ 0 := by positivity
    have hq2 : (2 : ℚ) ^ (F.width - fracBits F) ≠ 0 := by positivity
    -- the number of digits
    obtain ⟨j, hj1, hj2⟩ : ∃ j, fracBits F ≤ 4 * j ∧ j + 1 ≤ F.width / 4 := ⟨F.width / 4 - 1, by have := hF.four; omega, by have := hF.wide; omega⟩
    have hj4 : 4 * j ≤ F.width := by omega
    by_cases hf0 : 0 < f
    · rw [if_pos hf0]
      by_cases hE0 : E = 0
      · -- subnormal numbers
        rw [if_pos (hcond.mpr hE0)]
        simp only
        have hfr0 : f * 2 ^ (F.width - fracBits F) ≠ 0 := Nat.mul_ne_zero (by omega) (by positivity)
        obtain ⟨L, hL⟩ : ∃ L, L = Nat.log2 (f * 2 ^ (F.width - fracBits F)) := ⟨_, rfl⟩
        have hL1 : 2 ^ L ≤ f * 2 ^ (F.width - fracBits F) := by rw [hL]; exact Nat.log2_self_le hfr0
        have hL2 : f * 2 ^ (F.width - fracBits F) < 2 ^ (L + 1) := by rw [hL]; exact Nat.lt_log2_self
        have hLw : L < F.width := by
          rw [hL, Nat.log2_lt hfr0]; exact hsh2
        have hLlow : F.width - fracBits F ≤ L := by
          rw [hL, Nat.le_log2 hfr0]
          exact Nat.le_mul_of_pos_left _ hf0
        have hlead : F.leadingZeros (f * 2 ^ (F.width - fracBits F)) = F.width - 1 - L := by
          unfold Fmt.leadingZeros; rw [if_neg hfr0, hL]
        rw [hlead, if_pos (c := F.width - 1 - L < F.width - 1) (by omega)]
        have hsh : F.width - 1 - L + 1 = F.width - L := by omega
        rw [hsh]
        obtain ⟨fr, hfr⟩ : ∃ fr, fr = F.shl (f * 2 ^ (F.width - fracBits F)) (F.width - L) := ⟨_, rfl⟩
        have hmul : f * 2 ^ (F.width - fracBits F) * 2 ^ (F.width - L) = 2 ^ F.width + fr := by
          have e1 : 2 ^ F.width = 2 ^ L * 2 ^ (F.width - L) := by rw [← pow_add]; congr 1; omega
          have e2 : 2 * 2 ^ F.width = 2 ^ (L + 1) * 2 ^ (F.width - L) := by
            rw [e1, pow_succ]; ring
          have hpp : 0 < 2 ^ (F.width - L) := Nat.pow_pos (by decide)
          have b1 : 2 ^ F.width ≤ f * 2 ^ (F.width - fracBits F) * 2 ^ (F.width - L) := by
            rw [e1]; exact Nat.mul_le_mul_right _ hL1
          have b2 : f * 2 ^ (F.width - fracBits F) * 2 ^ (F.width - L) < 2 * 2 ^ F.width := by
            rw [e2]; exact Nat.mul_lt_mul_of_pos_right hL2 hpp
          rw [hfr, Fmt.shl, Nat.mod_eq_sub_mod b1, Nat.mod_eq_of_lt (by omega)]
          omega
        have hfrlt : fr < 2 ^ F.width := by rw [hfr]; exact Nat.mod_lt _ (Nat.pow_pos (by decide))
        have hdvd : 2 ^ (F.width - 4 * j) ∣ fr := by
          rw [hfr, Fmt.shl, Nat.dvd_mod_iff (Nat.pow_dvd_pow 2 (by omega))]
          apply Nat.dvd_trans (Nat.pow_dvd_pow 2 (by omega : F.width - 4 * j ≤ F.width - fracBits F))
          rw [Nat.mul_assoc, Nat.mul_left_comm]
          exact Nat.dvd_mul_right _ _
        obtain ⟨ds, d1, d2, d3, d4⟩ := fraction_spec hF F.width j fr hfrlt hj4 (by omega) hdvd
        rw [← hfr, d1]
        obtain ⟨k, hk⟩ := hexLit_one neg d2 ((E : Int) - Spec.bias F - (F.width - 1 - L : Nat))
        refine ⟨k, _, _, _, hk, ?_, by simp; omega, by omega, ?_⟩
        · rw [hexValue_one, d4, hmag, if_pos hE0, hE0]
          have hmulq : (f : ℚ) * 2 ^ (F.width - fracBits F) * 2 ^ (F.width - L) = 2 ^ F.width + fr := by exact_mod_cast hmul
          have hq3 : (2 : ℚ) ^ F.width ≠ 0 := by positivity
          have e1 : (1 : ℚ) + fr / 2 ^ F.width = (f : ℚ) * 2 ^ (F.width - fracBits F) * 2 ^ (F.width - L) / 2 ^ F.width := by
            rw [hmulq]; field_simp
          rw [e1, div_eq_mul_inv]
          have z1 : (2 : ℚ) ^ (F.width - fracBits F) = (2 : ℚ) ^ (((F.width - fracBits F : Nat)) : Int) := by rw [zpow_natCast]
          have z2 : (2 : ℚ) ^ (F.width - L) = (2 : ℚ) ^ (((F.width - L : Nat)) : Int) := by rw [zpow_natCast]
          have z3 : ((2 : ℚ) ^ F.width)⁻¹ = (2 : ℚ) ^ (-(F.width : Int)) := by rw [zpow_neg, zpow_natCast]
          rw [z1, z2, z3, mul_assoc, mul_assoc, mul_assoc, ← zpow_add₀ (by norm_num), ← zpow_add₀ (by norm_num), ← zpow_add₀ (by norm_num)]
          congr 2
          omega
        · simp only [List.length_append, List.length_cons, List.length_map, List.length_nil]; omega
      · rw [if_neg (fun h => hE0 (hcond.mp h))]
        simp only
        have hdvd : 2 ^ (F.width - 4 * j) ∣ f * 2 ^ (F.width - fracBits F) :=
          Nat.dvd_trans (Nat.pow_dvd_pow 2 (by omega)) (Nat.dvd_mul_left _ _)
        obtain ⟨ds, d1, d2, d3, d4⟩ := fraction_spec hF F.width j _ hsh2 hj4 (by omega) hdvd
        rw [d1]
        obtain ⟨k, hk⟩ := hexLit_one neg d2 ((E : Int) - Spec.bias F)
        refine ⟨k, _, _, _, hk, ?_, by simp; omega, by omega, ?_⟩
        · rw [hexValue_one, d4, hmag, if_neg hE0, zpow_sub₀ (by norm_num) ((E : Int) - Spec.bias F) (fracBits F), zpow_natCast]
          push_cast
          rw [hpw]
          field_simp
        · simp only [List.length_append, List.length_cons, List.length_map, List.length_nil]; omega
    · rw [if_neg hf0]
      have hf00 : f = 0 := by omega
      have hE0 : E ≠ 0 := by
        intro h
        have := Nat.div_add_mod' m (2 ^ fracBits F)
        rw [← hEd, ← hf, h, hf00] at this
        omega
      obtain ⟨k, hk⟩ := hexLit_int neg (c := '1') (d := 1) (by decide) ((E : Int) - Spec.bias F)
      refine ⟨k, _, _, _, hk, ?_, by have := hF.wide; simp; omega, by omega, ?_⟩
      · rw [hmag, if_neg hE0, hf00, zpow_sub₀ (by norm_num) ((E : Int) - Spec.bias F) (fracBits F), zpow_natCast]
        unfold hexValue
        push_cast
        field_simp
        simp [ofDigits]
        ring
      · simp only [List.length_append, List.length_cons, List.length_nil]; omega

end

end Verif.Float
