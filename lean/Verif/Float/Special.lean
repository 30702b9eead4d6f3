import Verif.Float.Print
/-
Infinities, NaNs, and putting the parts together.
-/
namespace Verif.Float

open Verif.Std Verif.Wat Verif.Wat.Spec Spec

theorem hexLit_numTok {k : TokenKind} {src : Text} {neg : Bool} {ds : List Nat} {nf : Nat} {x : Int}
    (h : HexLit k src neg ds nf x) : NumTok k src := by
  cases h with
  | int hs ht => exact .int hs .hex ht
  | float hs ht hf he hne =>
    refine .float hs .hex ht ?_ ?_ hne
    · cases hf with
      | none => exact .none
      | dot => exact .dot
      | digits h => exact .digits h
    · cases he with
      | none => exact .none
      | some h1 h2 h3 => exact .some h1 h2 h3

theorem strLen_ascii {t : Text} (h : ∀ c ∈ t, c.toNat < 128) : strLen t = t.length := by
  induction t with
  | nil => rfl
  | cons c t ih =>
    rw [strLen_cons, ih (fun x hx => h x (List.mem_cons_of_mem _ hx)), List.length_cons, Nat.add_comm]
    congr 1
    have h1 := h c List.mem_cons_self
    have h2 : c.val.toNat ≤ 127 := by
      have : c.toNat = c.val.toNat := rfl
      omega
    rw [String.length_utf8EncodeChar]
    rw [Char.utf8Size_eq_one_iff]
    exact h2

theorem toDigits_length {b : Nat} (hb : 1 < b) (n : Nat) : (Nat.toDigits b n).length ≤ n + 1 := by
  induction n using Nat.strongRecOn with
  | ind n ih =>
    rw [Nat.toDigits_eq_if hb]
    split
    · simp
    · have hlt : n / b < n := Nat.div_lt_self (by omega) hb
      have := ih _ hlt
      rw [List.length_append, List.length_singleton]
      omega

theorem printSigned_length (x : Int) : (Fmt.printSigned x).length ≤ x.natAbs + 2 := by
  have := toDigits_length (b := 10) (by decide) x.natAbs
  unfold Fmt.printSigned
  split <;> (rw [List.length_cons]; omega)

/-- A number token whose text is short is read as one token. -/
theorem number_token {k : TokenKind} {t : Text} (h : NumTok k t) (hl : t.length < 2 ^ 32) (allow : Bool) (pre rest : Text)
    (hr : EndsWord rest) : OneToken allow pre t rest k := by
  have ha := idChars_lt (numTok_idchars h)
  exact oneToken_word (.number h) ha (numTok_kind h) allow pre rest hr (by rw [strLen_ascii ha]; exact hl)

section
variable {F : Fmt}

theorem sgn_text (neg : Bool) : ∃ sg, Sgn sg (if neg = true then ['-'] else []) ∧ neg = decide (sg = some .minus) := by
  cases neg with
  | true => exact ⟨_, .minus, rfl⟩
  | false => exact ⟨_, .none, rfl⟩

theorem shl_parts (hF : WF F) (neg : Bool) :
    F.shl (if neg = true then 1 else 0) (F.width - 1) = signBit F neg ∧ F.shl (2 ^ F.expBits - 1) F.signifBits = infinity F := by
  have hinf := hF.infinity_lt
  have h0 : 0 < 2 ^ fracBits F := Nat.pow_pos (by decide)
  have hpw : 2 ^ F.width = 2 * 2 ^ (F.width - 1) := by rw [← pow_succ']; congr 1; have := hF.wide; omega
  constructor
  · cases neg with
    | true =>
      simp only [Fmt.shl, signBit, if_true, Nat.one_mul]
      exact Nat.mod_eq_of_lt (by omega)
    | false => simp [Fmt.shl, signBit]
  · have hi : (2 ^ F.expBits - 1) * 2 ^ F.signifBits = infinity F := rfl
    rw [Fmt.shl, hi]
    exact Nat.mod_eq_of_lt (by omega)

theorem sign_or (hF : WF F) (neg : Bool) {m : Nat} (hm : m < 2 ^ (F.width - 1)) : signBit F neg ||| m = signBit F neg + m := by
  cases neg with
  | true =>
    have := or_add (a := 1) hm
    rw [Nat.one_mul] at this
    exact this
  | false => simp [signBit]

/-- Every bit pattern is printed as one token that is read back. -/
theorem print_parse (hF : WF F) (h3 : 3 ≤ F.expBits) (hb : F.expBits ≤ 16) (hw : F.width ≤ 64) (dec : Text → Option Nat)
    {bits : Nat} (hbits : bits < 2 ^ F.width) :
    ∃ k, NumTok k (F.printFloat bits) ∧ (F.printFloat bits).length < 2 ^ 26 ∧ F.parseToken dec k (F.printFloat bits) = some (.bits bits) := by
  have hpw : 2 ^ F.width = 2 * 2 ^ (F.width - 1) := by rw [← pow_succ']; congr 1; have := hF.wide; omega
  have hinf := hF.infinity_lt
  have hps : 0 < 2 ^ fracBits F := Nat.pow_pos (by decide)
  have hwe := hF.width_eq
  have hfp := hF.frac_pos
  obtain ⟨neg, m, hm, rfl⟩ : ∃ neg m, m < 2 ^ (F.width - 1) ∧ bits = signBit F neg + m := by
    by_cases h : bits < 2 ^ (F.width - 1)
    · exact ⟨false, bits, h, by simp [signBit]⟩
    · exact ⟨true, bits - 2 ^ (F.width - 1), by omega, by simp [signBit]; omega⟩
  rw [printFloat_eq hF neg hm]
  obtain ⟨sg, hs, hn⟩ := sgn_text neg
  have hslen : (if neg = true then ['-'] else ([] : Text)).length ≤ 1 := by split <;> simp
  obtain ⟨hp1, hp2⟩ := shl_parts hF neg
  rcases Nat.lt_trichotomy m (infinity F) with hlt | heq | hgt
  · obtain ⟨k, ds, nf, x, hk, hv, hl, hx, hlen⟩ := body_finite hF h3 neg hlt
    have hbb : F.bias < 2 ^ 16 := by
      have h1 := hF.two_bias
      have h2 : 2 ^ F.expBits ≤ 2 ^ 16 := Nat.pow_le_pow_right (by decide) hb
      omega
    have hpl := printSigned_length x
    have hl26 : ((if neg = true then ['-'] else []) ++ body F m).length < 2 ^ 26 := by
      rw [List.length_append]; omega
    obtain ⟨r, hr1, hr2⟩ := parseToken_hex hF dec hk hl26 (by omega)
    refine ⟨k, hexLit_numTok hk, hl26, ?_⟩
    have hdrop : dropStraddling F ds = ds := by
      unfold dropStraddling
      simp only
      split
      · apply List.set_eq_of_length_le
        have : (significant ds).length ≤ ds.length := (List.dropWhile_suffix _).length_le
        omega
      · rfl
    rw [hdrop, hv] at hr2
    obtain ⟨b, hb1, hb2⟩ := hr2
    have : b = m := Rounds.unique hb1 (rounds_self F m)
    subst this
    rw [if_pos hlt] at hb2
    rw [hr1, hb2]
  · have hbody : body F m = ['i', 'n', 'f'] := by unfold body; simp only; rw [if_pos heq]
    rw [hbody]
    refine ⟨_, .inf hs, by rw [List.length_append]; simp; omega, ?_⟩
    rw [← hn]
    unfold Fmt.parseToken tokenFloat
    simp only [Option.map_some, Fmt.parseVal]
    rw [hp1, hp2, sign_or hF neg (by omega), heq]
  · obtain ⟨p, hp⟩ : ∃ p, p = m &&& (2 ^ fracBits F - 1) := ⟨_, rfl⟩
    have hpm : p = m % 2 ^ fracBits F := by rw [hp, Nat.and_two_pow_sub_one_eq_mod]
    have hplt : p < 2 ^ fracBits F := by rw [hpm]; exact Nat.mod_lt _ hps
    have hmp : m = infinity F + p := by
      have h1 := Nat.div_add_mod' m (2 ^ fracBits F)
      have h2 : m / 2 ^ fracBits F = 2 ^ F.expBits - 1 := by
        apply Nat.div_eq_of_lt_le
        · exact Nat.le_of_lt hgt
        · rw [Nat.add_mul, Nat.one_mul]
          have : (2 ^ F.expBits - 1) * 2 ^ fracBits F = infinity F := rfl
          omega
      rw [h2, ← hpm] at h1
      exact h1.symm
    have hp0 : p ≠ 0 := by omega
    have hmask : p &&& F.not (2 ^ F.signifBits - 1) = 0 := by
      have e : F.not (2 ^ F.signifBits - 1) = (2 ^ (F.width - fracBits F) - 1) * 2 ^ fracBits F := by
        unfold Fmt.not
        rw [fracBits_eq, Nat.sub_mul, ← pow_add, Nat.one_mul]
        have : F.width - fracBits F + fracBits F = F.width := by omega
        rw [this]; omega
      rw [e]
      apply Nat.eq_of_testBit_eq
      intro i
      rw [Nat.testBit_and, Nat.zero_testBit, Nat.testBit_mul_two_pow]
      by_cases hi : fracBits F ≤ i
      · rw [Nat.testBit_lt_two_pow (x := p)]
        · rfl
        · have : 2 ^ fracBits F ≤ 2 ^ i := Nat.pow_le_pow_right (by decide) hi
          omega
      · simp [hi]
    have hor : signBit F neg ||| infinity F ||| p = signBit F neg + m := by
      rw [Nat.or_assoc]
      have : infinity F ||| p = infinity F + p := or_add hplt
      rw [this, sign_or hF neg (by omega), hmp]
    by_cases hcan : p = 2 ^ (fracBits F - 1)
    · have hbody : body F m = ['n', 'a', 'n'] := by
        unfold body; simp only; rw [if_neg (by omega), if_pos hgt, ← hp, if_pos hcan]
      rw [hbody]
      refine ⟨_, .nan hs, by rw [List.length_append]; simp; omega, ?_⟩
      rw [← hn]
      unfold Fmt.parseToken tokenFloat
      simp only [Option.map_some, Fmt.parseVal]
      rw [fracBits_eq, ← hcan, ← fracBits_eq, hmask, hp1, hp2, hor]
      simp [hp0]
    · have hbody : body F m = ['n', 'a', 'n', ':', '0', 'x'] ++ Nat.toDigits 16 p := by
        unfold body; simp only; rw [if_neg (by omega), if_pos hgt, ← hp, if_neg hcan]
      have hd := digits_toDigits (base := 16) (by decide) (by decide) p
      rw [hbody]
      have hus : hasUnderscore (Nat.toDigits 16 p) = false := by
        rw [hasUnderscore, List.contains_eq_mem, decide_eq_false_iff_not]
        intro hm
        obtain ⟨d, hd, he⟩ := toDigits_char (base := 16) (by decide) (by decide) p hm
        have : ∀ d : Fin 16, d.val.digitChar ≠ '_' := by decide
        exact this ⟨d, hd⟩ he.symm
      have htok := NumTok.nanVal hs hd
      rw [← hn, hus, List.append_assoc] at htok
      have hlen16 : (Nat.toDigits 16 p).length ≤ F.width := by
        have key : ∀ (k n : Nat), n < 2 ^ (4 * k) → (Nat.toDigits 16 n).length ≤ max k 1 := by
          intro k
          induction k with
          | zero => intro n hn; have : n = 0 := by simpa using hn
                    subst this; decide
          | succ k ih =>
            intro n hn
            rw [Nat.toDigits_eq_if (by decide)]
            split
            · simp
            · have hlt : n / 16 < 2 ^ (4 * k) := by
                rw [Nat.div_lt_iff_lt_mul (by decide)]
                calc n < 2 ^ (4 * (k + 1)) := hn
                  _ = 2 ^ (4 * k) * 16 := by rw [show (16 : Nat) = 2 ^ 4 from rfl, ← pow_add]; congr 1
              have := ih _ hlt
              rw [List.length_append, List.length_singleton]
              by_cases hk0 : k = 0
              · subst hk0
                exfalso
                simp at hlt
                omega
              · omega
        have := key F.width p (lt_of_lt_of_le hplt (Nat.pow_le_pow_right (by decide) (by omega)))
        have := hF.wide
        omega
      refine ⟨_, htok, by simp only [List.length_append, List.length_cons, List.length_nil]; omega, ?_⟩
      have hread : fromStrRadix false F.width 16 (Nat.toDigits 16 p) = some (p : Int) := by
        have h1 := fromStrRadix_eq false F.width (sg := none) (by decide) hd
        have h2 : minusOf none ++ dropUnderscores (Nat.toDigits 16 p) = Nat.toDigits 16 p := by
          rw [noUnderscores hus]; rfl
        rw [h2] at h1
        rw [h1]
        simp only [Bool.false_eq_true, if_false, reduceCtorEq, false_and]
        rw [if_pos]
        refine ⟨by omega, ?_⟩
        have : 2 ^ fracBits F ≤ 2 ^ F.width := Nat.pow_le_pow_right (by decide) (by omega)
        exact_mod_cast lt_of_lt_of_le hplt this
      have hsrc : (if ((if neg = true then ['-'] else []) ++ (['n', 'a', 'n', ':', '0', 'x'] ++ Nat.toDigits 16 p)).head? = some 'n'
          then (if neg = true then ['-'] else []) ++ (['n', 'a', 'n', ':', '0', 'x'] ++ Nat.toDigits 16 p)
          else ((if neg = true then ['-'] else []) ++ (['n', 'a', 'n', ':', '0', 'x'] ++ Nat.toDigits 16 p)).tail) =
          ['n', 'a', 'n', ':', '0', 'x'] ++ Nat.toDigits 16 p := by
        cases neg <;> rfl
      unfold Fmt.parseToken tokenFloat
      simp only
      rw [hsrc, stripPrefix_append]
      simp only [Bool.false_eq_true, if_false, Option.map_some, Fmt.parseVal, hread, Int.toNat_natCast]
      rw [hmask, hp1, hp2, hor]
      simp [hp0]

end

end Verif.Float
