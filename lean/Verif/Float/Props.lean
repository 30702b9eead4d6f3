import Verif.Float.Special
/-
The properties of floating point literals.
-/
namespace Verif.Float.Props

open Verif.Std Verif.Wat Verif.Wat.Spec Spec

/-- **C28.** Every `f32` bit pattern, printed, is read as one token, and as that bit pattern. -/
theorem c28_f32 (dec : Text → Option Nat) (bits : Nat) (h : bits < 2 ^ 32) :
    ∃ k, f32.parseToken dec k (f32.printFloat bits) = some (.bits bits) ∧
      ∀ allow pre rest, EndsWord rest → OneToken allow pre (f32.printFloat bits) rest k := by
  obtain ⟨k, h1, h2, h3⟩ := print_parse wf_f32 (by decide) (by decide) (by decide) dec (F := f32) h
  exact ⟨k, h3, fun allow pre rest hr => number_token h1 (by omega) allow pre rest hr⟩

/-- **C28.** The same for `f64`. -/
theorem c28_f64 (dec : Text → Option Nat) (bits : Nat) (h : bits < 2 ^ 64) :
    ∃ k, f64.parseToken dec k (f64.printFloat bits) = some (.bits bits) ∧
      ∀ allow pre rest, EndsWord rest → OneToken allow pre (f64.printFloat bits) rest k := by
  obtain ⟨k, h1, h2, h3⟩ := print_parse wf_f64 (by decide) (by decide) (by decide) dec (F := f64) h
  exact ⟨k, h3, fun allow pre rest hr => number_token h1 (by omega) allow pre rest hr⟩

/-- Zeros, the least number, a subnormal and a normal number, infinity and NaNs. -/
example : f32.printFloat 0x80000000 = "-0x0p+0".toList ∧ f32.printFloat 1 = "0x1.p-149".toList ∧
    f32.printFloat 0x00700001 = "0x1.c00004p-127".toList ∧ f32.printFloat 0xc0490fdb = "-0x1.921fb6p+1".toList ∧
    f32.printFloat 0x7f800000 = "inf".toList ∧ f32.printFloat 0xffc00000 = "-nan".toList ∧
    f32.printFloat 0x7f800001 = "nan:0x1".toList := by decide

example : f32.parseToken (fun _ => none) (.float (.normal false true)) "0x1.c00004p-127".toList = some (.bits 0x00700001) := by decide

/-- **C46, what is read.** A hexadecimal literal is the number it stands for, rounded to nearest with
ties to even and rejected if that overflows, except that the digit with index `width / 4` after the first
significant one is taken for zero if that one is below 8 (`dropStraddling`). -/
theorem c46_hex (F : Fmt) (hF : F = f32 ∨ F = f64) (dec : Text → Option Nat) (k : TokenKind) (src : Text) (neg : Bool)
    (ds : List Nat) (fracDigits : Nat) (x : Int) (h : HexLit k src neg ds fracDigits x) (hlen : src.length < 2 ^ 26)
    (hx : -(2 ^ 30) ≤ x) :
    ∃ r, F.parseToken dec k src = some r ∧ Literal F neg (hexValue (dropStraddling F ds) fracDigits x) r := by
  have hwf : WF F := by rcases hF with rfl | rfl; exacts [wf_f32, wf_f64]
  exact parseToken_hex hwf dec h hlen hx

/-- **C46, partial.** A hexadecimal literal with at most 8 (`f32`) or 16 (`f64`) significant digits is the
number it stands for, rounded to nearest with ties to even; it is rejected if that overflows. Missing:
more digits (`c46_false`) and exponents below -2^30 (`c46_exponent_false`). -/
theorem c46_partial (F : Fmt) (hF : F = f32 ∨ F = f64) (dec : Text → Option Nat) (k : TokenKind) (src : Text) (neg : Bool)
    (ds : List Nat) (fracDigits : Nat) (x : Int) (h : HexLit k src neg ds fracDigits x) (hlen : src.length < 2 ^ 26)
    (hx : -(2 ^ 30) ≤ x) (hds : (significant ds).length ≤ F.width / 4) :
    ∃ r, F.parseToken dec k src = some r ∧ Literal F neg (hexValue ds fracDigits x) r := by
  obtain ⟨r, h1, h2⟩ := c46_hex F hF dec k src neg ds fracDigits x h hlen hx
  refine ⟨r, h1, ?_⟩
  have hdrop : dropStraddling F ds = ds := by
    unfold dropStraddling
    simp only
    split
    · apply List.set_eq_of_length_le
      have : (significant ds).length ≤ ds.length := (List.dropWhile_suffix _).length_le
      omega
    · rfl
  rwa [hdrop] at h2

/-- What a literal is rounded to is unique. -/
theorem c46_unique (F : Fmt) (neg : Bool) (v : ℚ) (r r' : FRes) (h : Literal F neg v r) (h' : Literal F neg v r') : r = r' := by
  obtain ⟨b, h1, rfl⟩ := h
  obtain ⟨b', h2, rfl⟩ := h'
  rw [Rounds.unique h1 h2]

/-- The value halfway between two numbers is rounded to the even one. -/
example : HexLit (.float (.normal false true)) "-0x1.000003p0".toList true [1, 0, 0, 0, 0, 0, 3] 6 0 ∧
    f32.parseToken (fun _ => none) (.float (.normal false true)) "-0x1.000003p0".toList = some (.bits 0xbf800002) := by
  refine ⟨?_, by decide⟩
  obtain ⟨⟨n, hd⟩, _⟩ := digitChar_digits (ds := [0, 0, 0, 0, 0, 3]) (by decide) (by decide)
  exact HexLit.float Sgn.minus (.one (c := '1') (d := 1) (by decide)) (.digits hd)
    (.some (e := 'p') (.inl rfl) Sgn.none (.one (c := '0') (d := 0) (by decide))) (by decide)

theorem witness : HexLit (.float (.normal false true)) "0x1.00000101".toList false [1, 0, 0, 0, 0, 0, 1, 0, 1] 8 0 := by
  obtain ⟨⟨n, hd⟩, _⟩ := digitChar_digits (ds := [0, 0, 0, 0, 0, 1, 0, 1]) (by decide) (by decide)
  exact HexLit.float Sgn.none (.one (c := '1') (d := 1) (by decide)) (.digits hd) .none (by decide)

/-- **C46 is false.** `0x1.00000101` as an `f32` is above the middle between one and the next number, but is
read as one. -/
theorem c46_false : ¬ ∀ (F : Fmt) (_ : F = f32 ∨ F = f64) (dec : Text → Option Nat) (k : TokenKind) (src : Text) (neg : Bool)
    (ds : List Nat) (fracDigits : Nat) (x : Int) (_ : HexLit k src neg ds fracDigits x) (_ : src.length < 2 ^ 26)
    (_ : -(2 ^ 30) ≤ x),
    ∃ r, F.parseToken dec k src = some r ∧ Literal F neg (hexValue ds fracDigits x) r := by
  intro h
  obtain ⟨r, h1, b, h2, h3⟩ := h f32 (.inl rfl) (fun _ => none) _ _ _ _ _ _ witness (by decide) (by decide)
  have hr : f32.parseToken (fun _ => none) (.float (.normal false true)) "0x1.00000101".toList = some (.bits 0x3f800000) := by decide
  rw [hr] at h1
  cases h1
  have hgap : gap f32 0x3f800000 = 2 ^ 8 * (1 / 2 ^ 31) := by
    norm_num [gap, fracBits, Spec.bias, f32]
  have hval : hexValue [1, 0, 0, 0, 0, 0, 1, 0, 1] 8 0 = magnitude f32 0x3f800000 + ((128 : Nat) + 1 / 2) * (1 / 2 ^ 31) := by
    norm_num [hexValue, ofDigits, magnitude, fracBits, Spec.bias, f32]
  have hround := rounds_decide (F := f32) (b := 0x3f800000) (k := 8) (r := 128) (u := 1 / 2 ^ 31) (ε := 1 / 2)
    (by norm_num) (by decide) (by decide) (by norm_num) (by norm_num) hgap hval
  rw [if_pos ⟨by decide, .inr (.inl (by norm_num))⟩] at hround
  have hb := Rounds.unique h2 hround
  subst hb
  revert h3
  decide

/-- **C46 is false** for exponents that do not fit in 32 bits: `0x1p-9999999999` is rejected, though what it
stands for is rounded to zero. -/
theorem c46_exponent_false : ∃ k src x, HexLit k src false [1] 0 x ∧
    f32.parseToken (fun _ => none) k src = some .invalid ∧ Literal f32 false (hexValue [1] 0 x) (.bits 0) := by
  refine ⟨.float (.normal false true), "0x1p-9999999999".toList, -9999999999, ?_, by decide, 0, ?_, by decide⟩
  · have hd := digits_toDigits (base := 10) (by decide) (by decide) 9999999999
    exact HexLit.float Sgn.none (.one (c := '1') (d := 1) (by decide)) .none (.some (e := 'p') (.inl rfl) Sgn.minus hd) (by decide)
  · have hm0 : magnitude f32 0 = 0 := by norm_num [magnitude]
    have hm1 : magnitude f32 1 = (2 : ℚ) ^ (-149 : Int) := by norm_num [magnitude, fracBits, Spec.bias, f32]
    have hv : hexValue [1] 0 (-9999999999) = (2 : ℚ) ^ (-9999999999 : Int) := by
      simp [hexValue, ofDigits]
    have hpos : (0 : ℚ) < (2 : ℚ) ^ (-9999999999 : Int) := two_zpow_pos _
    have hle : (2 : ℚ) ^ (-9999999999 : Int) ≤ (2 : ℚ) ^ (-151 : Int) := zpow_le_zpow_right₀ (by norm_num) (by norm_num)
    have he : (2 : ℚ) ^ (-149 : Int) = (2 : ℚ) ^ (-151 : Int) * 4 := by norm_num
    have hp2 : (0 : ℚ) < (2 : ℚ) ^ (-151 : Int) := two_zpow_pos _
    rw [hv]
    generalize (2 : ℚ) ^ (-9999999999 : Int) = v at *
    apply rounds_down
    · rw [hm0]; exact le_of_lt hpos
    · left
      rw [hm0, hm1, he]
      linarith

end Verif.Float.Props
