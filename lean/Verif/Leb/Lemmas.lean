import Verif.Reader.Lemmas
import Verif.Leb.Spec
import Verif.Leb.Model
/-! Helper lemmas for the LEB128 readers. -/

namespace Verif.Leb
open Verif.Reader

theorem ULeb.ne_nil {N bs v} (h : ULeb N bs v) : bs ≠ [] := by cases h <;> simp

theorem ULeb.lt {N bs v} (h : ULeb N bs v) : v < 2 ^ N := by
  induction h with
  | last _ h => exact h
  | @more N b bs m h1 h2 _ ih =>
    have hb := toNat_lt_256 b
    have : 2 ^ N = 2 ^ 7 * 2 ^ (N - 7) := by rw [← Nat.pow_add]; congr 1; omega
    omega

/-- Adding a 7-bit group with `|=`/`<<`. -/
theorem or_shift_toNat {W : Nat} (res : BitVec W) (b : UInt8) (shift : Nat)
    (hres : res.toNat < 2 ^ shift) (hW : 8 ≤ W)
    (hfit : 2 ^ shift * (b.toNat % 128) < 2 ^ W) :
    (res ||| ((b &&& 0x7F).toBitVec.setWidth W <<< shift)).toNat
      = res.toNat + 2 ^ shift * (b.toNat % 128) := by
  have hb := toNat_lt_256 b
  have hw : 2 ^ 8 ≤ 2 ^ W := Nat.pow_le_pow_right (by decide) hW
  rw [BitVec.toNat_or, BitVec.toNat_shiftLeft, BitVec.toNat_setWidth]
  have h1 : (b &&& 0x7F).toBitVec.toNat = b.toNat % 128 := and7F_toNat b
  rw [h1, Nat.mod_eq_of_lt (a := b.toNat % 128) (by omega), Nat.shiftLeft_eq,
    Nat.mul_comm, Nat.mod_eq_of_lt hfit, Nat.or_comm, Nat.mul_comm, ← Nat.shiftLeft_eq,
    ← Nat.shiftLeft_add_eq_or_of_lt hres, Nat.shiftLeft_eq]
  rw [Nat.mul_comm, Nat.add_comm]

theorem shiftRight_ne_zero_iff (x k : Nat) : x >>> k ≠ 0 ↔ 2 ^ k ≤ x := by
  rw [Nat.shiftRight_eq_div_pow]
  rw [Ne, Nat.div_eq_zero_iff]
  have : 0 < 2 ^ k := Nat.two_pow_pos k
  omega

theorem acc_step (a s m b : Nat) : a + 2 ^ s * (b - 128) + 2 ^ (s + 7) * m
    = a + 2 ^ s * (2 ^ 7 * m + (b - 2 ^ 7)) := by
  rw [Nat.mul_add, Nat.pow_add, Nat.mul_assoc, Nat.add_assoc, Nat.add_comm (2 ^ s * (b - 128))]

/-- Soundness of the unsigned loop. -/
theorem readVarUBig_sound {W : Nat} (hW : 8 ≤ W) (nm : String) (res : BitVec W) (shift : Nat)
    (r r' : Reader) (v : BitVec W) (hs : shift < W) (hres : res.toNat < 2 ^ shift)
    (h : readVarUBig W nm res shift r = .ok (v, r')) :
    ∃ enc m tail, r.rest = enc ++ tail ∧ ULeb (W - shift) enc m ∧
      v.toNat = res.toNat + 2 ^ shift * m ∧ r' = r.advance enc.length := by
  rw [readVarUBig] at h
  split at h
  · cases h
  · rename_i byte r1 h1
    obtain ⟨hr1, hrest⟩ := readU8_ok h1
    have hb := toNat_lt_256 byte
    have hpos : 0 < 2 ^ shift := Nat.two_pow_pos _
    have hpow : 2 ^ W = 2 ^ shift * 2 ^ (W - shift) := by
      rw [← Nat.pow_add]; congr 1; omega
    simp only at h
    split at h
    · cases h
    · rename_i hover
      rw [shiftRight_ne_zero_iff] at hover
      have hlt : byte.toNat % 128 < 2 ^ (W - shift) := by
        by_cases hsh : shift ≥ W - 7
        · have : byte.toNat < 2 ^ (W - shift) := by
            have := not_and.mp hover hsh; omega
          omega
        · have : 2 ^ 7 ≤ 2 ^ (W - shift) := Nat.pow_le_pow_right (by decide) (by omega)
          omega
      have hfit : 2 ^ shift * (byte.toNat % 128) < 2 ^ W := by
        rw [hpow]; exact Nat.mul_lt_mul_of_pos_left hlt hpos
      have hor := or_shift_toNat res byte shift hres hW hfit
      split at h
      · rename_i hz
        rw [and80_eq_zero_iff] at hz
        cases h
        refine ⟨[byte], byte.toNat, r'.rest, by simpa using hrest, ?_, ?_, by simpa using hr1⟩
        · refine ULeb.last hz ?_
          rw [Nat.mod_eq_of_lt hz] at hlt; exact hlt
        · rw [hor, Nat.mod_eq_of_lt hz]
      · rename_i hz
        rw [and80_eq_zero_iff] at hz
        have hsh : ¬ shift ≥ W - 7 := by
          intro hsh
          have h2 := not_and.mp hover hsh
          have : 2 ^ (W - shift) ≤ 2 ^ 7 := Nat.pow_le_pow_right (by decide) (by omega)
          omega
        have hres' : (res ||| ((byte &&& 0x7F).toBitVec.setWidth W <<< shift)).toNat
            < 2 ^ (shift + 7) := by
          rw [hor, Nat.pow_add]
          have : byte.toNat % 128 ≤ 127 := by omega
          have : 2 ^ shift * (byte.toNat % 128) ≤ 2 ^ shift * 127 := Nat.mul_le_mul_left _ this
          omega
        have hdec : r1.buffer.length - r1.position < r.buffer.length - r.position := readU8_lt h1
        obtain ⟨enc, m, tail, e1, e2, e3, e4⟩ :=
          readVarUBig_sound hW nm _ (shift + 7) r1 r' v (by omega) hres' h
        refine ⟨byte :: enc, 2 ^ 7 * m + (byte.toNat - 2 ^ 7), tail, ?_, ?_, ?_, ?_⟩
        · rw [hrest, e1]; rfl
        · refine ULeb.more (by omega) (by omega) ?_
          rw [Nat.sub_sub]; exact e2
        · rw [e3, hor, show byte.toNat % 128 = byte.toNat - 128 by omega, acc_step]
        · rw [e4, hr1]; simp [Nat.add_comm]
termination_by r.buffer.length - r.position

/-- Completeness of the unsigned loop. -/
theorem readVarUBig_complete {W : Nat} (hW : 8 ≤ W) (nm : String) {N : Nat} {enc : List UInt8}
    {m : Nat} (hl : ULeb N enc m) : ∀ (res : BitVec W) (shift : Nat) (r : Reader)
    (tail : List UInt8), shift < W → N = W - shift → res.toNat < 2 ^ shift →
    r.rest = enc ++ tail →
    ∃ v : BitVec W, readVarUBig W nm res shift r = .ok (v, r.advance enc.length) ∧
      v.toNat = res.toNat + 2 ^ shift * m := by
  induction hl with
  | @last N b h1 h2 =>
    intro res shift r tail hs hN hres hrest
    have hrd : readU8 r = .ok (b, r.advance 1) := readU8_cons hrest
    have hpow : 2 ^ W = 2 ^ shift * 2 ^ (W - shift) := by
      rw [← Nat.pow_add]; congr 1; omega
    have hfit : 2 ^ shift * (b.toNat % 128) < 2 ^ W := by
      rw [hpow, ← hN]
      exact Nat.mul_lt_mul_of_pos_left (by omega) (Nat.two_pow_pos _)
    have hor := or_shift_toNat res b shift hres hW hfit
    refine ⟨res ||| ((b &&& 0x7F).toBitVec.setWidth W <<< shift), ?_, ?_⟩
    · rw [readVarUBig]
      split
      · rename_i heq; rw [hrd] at heq; cases heq
      · rename_i b' r1 heq
        rw [hrd] at heq; cases heq
        have hno : ¬ (shift ≥ W - 7 ∧ b.toNat >>> (W - shift) ≠ 0) := by
          rw [shiftRight_ne_zero_iff, ← hN]; omega
        have hz : b &&& 0x80 = 0 := (and80_eq_zero_iff b).mpr h1
        simp only [hno, hz, if_false, if_true]
        rfl
    · rw [hor, Nat.mod_eq_of_lt h1]
  | @more N b bs m h1 h2 h3 ih =>
    intro res shift r tail hs hN hres hrest
    have hrd : readU8 r = .ok (b, r.advance 1) := readU8_cons hrest
    have hb := toNat_lt_256 b
    have hpow : 2 ^ W = 2 ^ shift * 2 ^ (W - shift) := by
      rw [← Nat.pow_add]; congr 1; omega
    have h7 : 2 ^ 7 ≤ 2 ^ N := Nat.pow_le_pow_right (by decide) (by omega)
    have hfit : 2 ^ shift * (b.toNat % 128) < 2 ^ W := by
      rw [hpow, ← hN]
      exact Nat.mul_lt_mul_of_pos_left (by omega) (Nat.two_pow_pos _)
    have hor := or_shift_toNat res b shift hres hW hfit
    have hres' : (res ||| ((b &&& 0x7F).toBitVec.setWidth W <<< shift)).toNat
        < 2 ^ (shift + 7) := by
      rw [hor, Nat.pow_add]
      have : b.toNat % 128 ≤ 127 := by omega
      have : 2 ^ shift * (b.toNat % 128) ≤ 2 ^ shift * 127 := Nat.mul_le_mul_left _ this
      omega
    obtain ⟨v, hv1, hv2⟩ := ih _ (shift + 7) (r.advance 1) tail (by omega) (by omega) hres'
      (by simp [hrest])
    refine ⟨v, ?_, ?_⟩
    · rw [readVarUBig]
      split
      · rename_i heq; rw [hrd] at heq; cases heq
      · rename_i b' r1 heq
        rw [hrd] at heq; cases heq
        have hno : ¬ (shift ≥ W - 7 ∧ b.toNat >>> (W - shift) ≠ 0) := by
          intro hh; omega
        have hz : ¬ (b &&& 0x80 = 0) := by rw [and80_eq_zero_iff]; omega
        simp only [hno, hz, if_false]
        rw [hv1]
        simp [Nat.add_comm]
    · rw [hv2, hor, show b.toNat % 128 = b.toNat - 128 by omega, acc_step]

/-! ### Signed -/

theorem SLeb.range {N bs v} (h : SLeb N bs v) (hN : 0 < N) :
    -(2 ^ (N - 1) : Int) ≤ v ∧ v < 2 ^ (N - 1) := by
  induction h with
  | @pos N b h1 h2 => 
    have : ((b.toNat : Nat) : Int) < ((2 ^ (N - 1) : Nat) : Int) := by exact_mod_cast h2
    rw [Int.natCast_pow] at this
    have h0 : (0 : Int) ≤ 2 ^ (N - 1) := Int.pow_nonneg (by decide)
    constructor
    · omega
    · exact this
  | @neg N b h1 h2 h3 =>
    have : ((2 ^ 7 : Nat) : Int) ≤ ((b.toNat + 2 ^ (N - 1) : Nat) : Int) := by exact_mod_cast h3
    rw [Int.natCast_add, Int.natCast_pow, Int.natCast_pow] at this
    have h0 : (0 : Int) ≤ 2 ^ (N - 1) := Int.pow_nonneg (by decide)
    simp only [Int.cast_ofNat_Int] at this
    omega
  | @more N b bs m h1 h2 _ ih =>
    have hb := toNat_lt_256 b
    have hp : (2 : Int) ^ (N - 1) = 2 ^ 7 * 2 ^ (N - 7 - 1) := by
      rw [← Int.pow_add]; congr 1; omega
    have := ih (by omega)
    rw [hp]
    omega

/-- Adding a 7-bit group with `|=`/`<<`, without overflow assumption. -/
theorem or_shift_toNat_mod {W : Nat} (res : BitVec W) (b : UInt8) (shift : Nat)
    (hres : res.toNat < 2 ^ shift) (hW : 8 ≤ W) :
    (res ||| ((b &&& 0x7F).toBitVec.setWidth W <<< shift)).toNat
      = (res.toNat + 2 ^ shift * (b.toNat % 128)) % 2 ^ W := by
  have hb := toNat_lt_256 b
  have hw : 2 ^ 8 ≤ 2 ^ W := Nat.pow_le_pow_right (by decide) hW
  rw [BitVec.toNat_or, BitVec.toNat_shiftLeft, BitVec.toNat_setWidth]
  have h1 : (b &&& 0x7F).toBitVec.toNat = b.toNat % 128 := and7F_toNat b
  rw [h1, Nat.mod_eq_of_lt (a := b.toNat % 128) (by omega)]
  rw [← Nat.mod_eq_of_lt res.isLt, ← Nat.or_mod_two_pow, Nat.or_comm,
    ← Nat.shiftLeft_add_eq_or_of_lt hres,
    Nat.shiftLeft_eq, Nat.mod_eq_of_lt res.isLt, Nat.add_comm, Nat.mul_comm]

theorem signext_toInt {S : Nat} (x : BitVec S) (k : Nat) :
    ((x <<< k).sshiftRight k).toInt = Int.bmod x.toNat (2 ^ (S - k)) := by
  have h : (x <<< k).sshiftRight k = (x.setWidth (S - k)).signExtend S := by
    apply BitVec.eq_of_getLsbD_eq
    intro i hi
    simp only [BitVec.getLsbD_sshiftRight, BitVec.getLsbD_signExtend, BitVec.getLsbD_shiftLeft,
      BitVec.msb_eq_getLsbD_last, BitVec.getLsbD_setWidth]
    by_cases h1 : k + i < S
    · simp [h1, hi, show i < S - k by omega, show ¬ S ≤ i by omega]
    · by_cases h2 : k < S
      · simp [h1, hi, show ¬ i < S - k by omega, show S - k - 1 < S - k by omega,
          show ¬ (S - 1 < k) by omega, show S - 1 - k = S - k - 1 by omega,
          show ¬ S ≤ i by omega, show S - 1 < S by omega]
      · simp [h1, hi, show ¬ i < S - k by omega, show S - k = 0 by omega,
          show (S - 1 < k) by omega]
  rw [h, BitVec.toInt_signExtend_of_le (by omega), BitVec.toInt_setWidth]

theorem final_check' : ∀ n : Fin 7, ∀ (x : BitVec 8), x.toNat < 128 →
    ((((x <<< 1).sshiftRight (n.val + 1) = 0#8) ↔ x.toNat < 2 ^ n.val) ∧
     (((x <<< 1).sshiftRight (n.val + 1) = -1#8) ↔ 2 ^ 7 ≤ x.toNat + 2 ^ n.val)) := by
  set_option maxRecDepth 100000 in decide

theorem final_check (N : Nat) (h1 : 1 ≤ N) (h7 : N ≤ 7) (x : BitVec 8) (hx : x.toNat < 128) :
    (((x <<< 1).sshiftRight N = 0#8) ↔ x.toNat < 2 ^ (N - 1)) ∧
     (((x <<< 1).sshiftRight N = -1#8) ↔ 2 ^ 7 ≤ x.toNat + 2 ^ (N - 1)) := by
  have := final_check' ⟨N - 1, by omega⟩ x hx
  simpa [show N - 1 + 1 = N by omega] using this

/-- What the signed loop returns for a group list denoting `m`: the specified value, except that
when the accumulator is wider than the format (s33) a negative value whose encoding has the
maximal length is not sign extended. -/
def loopVal (S W thr shift : Nat) (res : Nat) (len : Nat) (m : Int) : Int :=
  res + 2 ^ shift * m +
    if W < S ∧ m < 0 ∧ thr ≤ shift + 7 * (len - 1) then 2 ^ (shift + 7 * len) else 0

theorem pow2_le_int {a b : Nat} (h : a ≤ b) : (2 : Int) ^ a ≤ 2 ^ b := by
  have : ((2 ^ a : Nat) : Int) ≤ ((2 ^ b : Nat) : Int) := by
    exact_mod_cast Nat.pow_le_pow_right (by decide) h
  rwa [Int.natCast_pow, Int.natCast_pow] at this

theorem bmod_eq {x y : Int} {n : Nat} (hn : 0 < n) (h : ∃ k : Int, x = y + 2 ^ n * k)
    (h1 : -(2 ^ (n - 1) : Int) ≤ y) (h2 : y < 2 ^ (n - 1)) : Int.bmod x (2 ^ n) = y := by
  obtain ⟨k, rfl⟩ := h
  have hp : ((2 ^ n : Nat) : Int) = 2 * 2 ^ (n - 1) := by
    rw [Int.natCast_pow, ← Int.pow_succ']; congr 1; omega
  have hc : ((2 ^ n : Nat) : Int) = 2 ^ n := by rw [Int.natCast_pow]; rfl
  rw [← hc, Int.add_mul_bmod_self_left]
  have h0 : (0 : Int) < 2 ^ (n - 1) := Int.pow_pos (by decide)
  apply Int.bmod_eq_of_le <;> omega

/-- One byte is the last byte of an encoding, below the final byte position. -/
theorem ext_step {S : Nat} (hS : 8 ≤ S) (res : BitVec S) (b : UInt8) (shift : Nat)
    (hres : res.toNat < 2 ^ shift) (hsh : shift + 7 ≤ S) (hb : b.toNat < 128) :
    (((res ||| ((b &&& 0x7F).toBitVec.setWidth S <<< shift)) <<< (S - (shift + 7))).sshiftRight
      (S - (shift + 7))).toInt
    = res.toNat + 2 ^ shift * ((if b.toNat < 64 then (b.toNat : Int) else b.toNat - 2 ^ 7)) := by
  rw [signext_toInt, or_shift_toNat_mod res b shift hres hS, Nat.mod_eq_of_lt hb]
  rw [show S - (S - (shift + 7)) = shift + 7 by omega]
  have hlt : res.toNat + 2 ^ shift * b.toNat < 2 ^ S := by
    have h1 : 2 ^ (shift + 7) ≤ 2 ^ S := Nat.pow_le_pow_right (by decide) hsh
    rw [Nat.pow_add] at h1
    have : 2 ^ shift * b.toNat ≤ 2 ^ shift * 127 := Nat.mul_le_mul_left _ (by omega)
    omega
  rw [Nat.mod_eq_of_lt hlt]
  have hres' : (res.toNat : Int) < 2 ^ shift := by
    have : ((res.toNat : Nat) : Int) < ((2 ^ shift : Nat) : Int) := by exact_mod_cast hres
    rwa [Int.natCast_pow] at this
  have hp : (0 : Int) < 2 ^ shift := Int.pow_pos (by decide)
  have e1 : (2 : Int) ^ (shift + 7 - 1) = 2 ^ shift * 64 := by
    rw [show shift + 7 - 1 = shift + 6 by omega, Int.pow_add]; rfl
  have e2 : (2 : Int) ^ (shift + 7) = 2 ^ shift * 128 := by rw [Int.pow_add]; rfl
  apply bmod_eq (by omega)
  · split
    · exact ⟨0, by simp⟩
    · refine ⟨1, ?_⟩
      rw [e2]
      simp only [Int.natCast_add, Int.natCast_mul, Int.natCast_pow, Int.cast_ofNat_Int]
      rw [Int.mul_sub]
      omega
  · rw [e1]
    split
    · have := Int.mul_nonneg (Int.le_of_lt hp) (show (0:Int) ≤ b.toNat by omega)
      omega
    · have := Int.mul_le_mul_of_nonneg_left (show (-64 : Int) ≤ b.toNat - 2 ^ 7 by omega)
        (Int.le_of_lt hp)
      omega
  · rw [e1]
    split
    · have := Int.mul_le_mul_of_nonneg_left (show (b.toNat : Int) ≤ 63 by omega)
        (Int.le_of_lt hp)
      omega
    · have := Int.mul_le_mul_of_nonneg_left (show (b.toNat : Int) - 2 ^ 7 ≤ -1 by omega)
        (Int.le_of_lt hp)
      have h64 : (0 : Int) < 2 ^ shift * 64 := by omega
      omega

/-- The final byte position. -/
theorem fin_step {S W : Nat} (hS : 8 ≤ S) (hWS : W ≤ S) (res : BitVec S) (b : UInt8) (shift : Nat)
    (hres : res.toNat < 2 ^ shift) (hs : shift < W) (hsh : W ≤ shift + 7)
    (hSW : W = S ∨ shift + 7 < S) (hb : b.toNat < 128)
    (hok : b.toNat < 2 ^ (W - shift - 1) ∨ 2 ^ 7 ≤ b.toNat + 2 ^ (W - shift - 1)) :
    (res ||| ((b &&& 0x7F).toBitVec.setWidth S <<< shift)).toInt
    = res.toNat + 2 ^ shift * ((if b.toNat < 64 then (b.toNat : Int) else b.toNat - 2 ^ 7)) +
      if W < S ∧ 64 ≤ b.toNat then 2 ^ (shift + 7) else 0 := by
  rw [BitVec.toInt_eq_toNat_bmod, or_shift_toNat_mod res b shift hres hS, Nat.mod_eq_of_lt hb]
  have hres' : (res.toNat : Int) < 2 ^ shift := by
    have : ((res.toNat : Nat) : Int) < ((2 ^ shift : Nat) : Int) := by exact_mod_cast hres
    rwa [Int.natCast_pow] at this
  have hp : (0 : Int) < 2 ^ shift := Int.pow_pos (by decide)
  have e2 : (2 : Int) ^ (shift + 7) = 2 ^ shift * 128 := by rw [Int.pow_add]; rfl
  have hN : 2 ^ (W - shift - 1) ≤ 2 ^ 6 := Nat.pow_le_pow_right (by decide) (by omega)
  rw [Int.natCast_emod, Int.emod_bmod]
  apply bmod_eq (by omega)
  · by_cases h64 : b.toNat < 64
    · simp only [h64, if_true, show ¬ (W < S ∧ 64 ≤ b.toNat) by omega, if_false]
      exact ⟨0, by simp⟩
    · simp only [h64, if_false]
      by_cases hlt : W < S
      · simp only [hlt, show 64 ≤ b.toNat by omega, true_and, if_true]
        refine ⟨0, ?_⟩
        rw [e2]
        simp only [Int.natCast_add, Int.natCast_mul, Int.natCast_pow, Int.cast_ofNat_Int]
        rw [Int.mul_sub]
        omega
      · have hWS' : W = S := by omega
        simp only [hlt, false_and, if_false]
        refine ⟨2 ^ (shift + 7 - S), ?_⟩
        rw [← Int.pow_add, show S + (shift + 7 - S) = shift + 7 by omega, e2]
        simp only [Int.natCast_add, Int.natCast_mul, Int.natCast_pow, Int.cast_ofNat_Int]
        rw [Int.mul_sub]
        omega
  · have hS1 : (0 : Int) < 2 ^ (S - 1) := Int.pow_pos (by decide)
    by_cases h64 : b.toNat < 64
    · simp only [h64, if_true, show ¬ (W < S ∧ 64 ≤ b.toNat) by omega, if_false]
      have := Int.mul_nonneg (Int.le_of_lt hp) (show (0:Int) ≤ b.toNat by omega)
      omega
    · simp only [h64, if_false]
      by_cases hlt : W < S
      · simp only [hlt, show 64 ≤ b.toNat by omega, true_and, if_true]
        have := Int.mul_nonneg (Int.le_of_lt hp) (show (0:Int) ≤ b.toNat by omega)
        rw [e2, Int.mul_sub]
        omega
      · have hWS' : W = S := by omega
        simp only [hlt, false_and, if_false]
        have h3 : 2 ^ 7 ≤ b.toNat + 2 ^ (W - shift - 1) := by
          rcases hok with h | h
          · omega
          · exact h
        have h3' : -(2 ^ (W - shift - 1) : Int) ≤ b.toNat - 2 ^ 7 := by
          have : ((2 ^ 7 : Nat) : Int) ≤ ((b.toNat + 2 ^ (W - shift - 1) : Nat) : Int) := by
            exact_mod_cast h3
          rw [Int.natCast_add, Int.natCast_pow, Int.natCast_pow] at this
          simp only [Int.cast_ofNat_Int] at this
          omega
        have := Int.mul_le_mul_of_nonneg_left h3' (Int.le_of_lt hp)
        rw [Int.mul_neg, ← Int.pow_add, show shift + (W - shift - 1) = S - 1 by omega] at this
        omega
  · by_cases h64 : b.toNat < 64
    · simp only [h64, if_true, show ¬ (W < S ∧ 64 ≤ b.toNat) by omega, if_false]
      have h3 : b.toNat < 2 ^ (W - shift - 1) := by omega
      have h3' : (b.toNat : Int) ≤ 2 ^ (W - shift - 1) - 1 := by
        have : ((b.toNat : Nat) : Int) < ((2 ^ (W - shift - 1) : Nat) : Int) := by
          exact_mod_cast h3
        rw [Int.natCast_pow] at this
        simp only [Int.cast_ofNat_Int] at this
        omega
      have := Int.mul_le_mul_of_nonneg_left h3' (Int.le_of_lt hp)
      rw [Int.mul_sub, ← Int.pow_add, show shift + (W - shift - 1) = W - 1 by omega] at this
      have hle : (2 : Int) ^ (W - 1) ≤ 2 ^ (S - 1) :=
        pow2_le_int (by omega)
      omega
    · simp only [h64, if_false]
      by_cases hlt : W < S
      · simp only [hlt, show 64 ≤ b.toNat by omega, true_and, if_true]
        have hle : (2 : Int) ^ (shift + 7) ≤ 2 ^ (S - 1) :=
          pow2_le_int (by omega)
        have := Int.mul_le_mul_of_nonneg_left (show (b.toNat : Int) ≤ 127 by omega)
          (Int.le_of_lt hp)
        rw [e2] at hle
        rw [e2, Int.mul_sub]
        omega
      · simp only [hlt, false_and, if_false]
        have hS1 : (0 : Int) < 2 ^ (S - 1) := Int.pow_pos (by decide)
        have := Int.mul_le_mul_of_nonneg_left (show (b.toNat : Int) - 2 ^ 7 ≤ -1 by omega)
          (Int.le_of_lt hp)
        omega

theorem thr_iff {W thr : Nat} (h : ∀ s, 7 ∣ s → (thr ≤ s ↔ W ≤ s + 7)) {s : Nat} (hs : 7 ∣ s) :
    thr ≤ s ↔ W ≤ s + 7 := h s hs

/-- Parameters of the three signed loops. -/
structure SParams (S W thr : Nat) : Prop where
  hS : 8 ≤ S
  hWS : W ≤ S
  thr_iff : ∀ s, 7 ∣ s → (thr ≤ s ↔ W ≤ s + 7)
  gap : W = S ∨ ∀ s, 7 ∣ s → s < W → s + 7 < S

theorem sparams_i32 : SParams 32 32 25 := ⟨by decide, by decide, by intros; omega, .inl rfl⟩
theorem sparams_s33 : SParams 64 33 25 := ⟨by decide, by decide, by intros; omega,
  .inr (by intros; omega)⟩
theorem sparams_i64 : SParams 64 64 57 := ⟨by decide, by decide, by intros; omega, .inl rfl⟩

theorem sleb_last {N : Nat} {b : UInt8} (hb : b.toNat < 128)
    (hok : (b.toNat < 64 ∧ b.toNat < 2 ^ (N - 1)) ∨
      (64 ≤ b.toNat ∧ 2 ^ 7 ≤ b.toNat + 2 ^ (N - 1))) :
    SLeb N [b] (if b.toNat < 64 then (b.toNat : Int) else b.toNat - 2 ^ 7) := by
  split
  · exact .pos (by omega) (by omega)
  · exact .neg (by omega) (by omega) (by omega)

theorem acc_step_int (res sh b : Nat) (hb : 128 ≤ b) (hb2 : b < 256) (m : Int) :
    ((res + 2 ^ sh * (b % 128) : Nat) : Int) + 2 ^ (sh + 7) * m
      = res + 2 ^ sh * (2 ^ 7 * m + ((b : Int) - 2 ^ 7)) := by
  rw [show b % 128 = b - 128 by omega, Int.pow_add, Int.mul_add, ← Int.mul_assoc]
  simp only [Int.natCast_add, Int.natCast_mul, Int.natCast_pow, Int.cast_ofNat_Int]
  rw [Int.natCast_sub (by omega)]
  simp only [Int.cast_ofNat_Int]
  rw [show ((2 : Int) ^ 7) = 128 from rfl]
  omega

theorem loopVal_step {S W thr shift res b len : Nat} {m : Int} (hb : 128 ≤ b) (hb2 : b < 256)
    (hl : 0 < len) :
    loopVal S W thr (shift + 7) (res + 2 ^ shift * (b % 128)) len m
      = loopVal S W thr shift res (len + 1) (2 ^ 7 * m + ((b : Int) - 2 ^ 7)) := by
  unfold loopVal
  rw [acc_step_int res shift b hb hb2 m]
  have e1 : (m < 0) ↔ (2 ^ 7 * m + ((b : Int) - 2 ^ 7) < 0) := by omega
  have e2 : shift + 7 + 7 * (len - 1) = shift + 7 * (len + 1 - 1) := by omega
  have e3 : shift + 7 + 7 * len = shift + 7 * (len + 1) := by omega
  rw [e2, e3]
  simp only [← e1]

theorem SLeb.ne_nil {N bs v} (h : SLeb N bs v) : bs ≠ [] := by cases h <;> simp

theorem res_step {S shift : Nat} (hS : 8 ≤ S) (res : BitVec S) (b : UInt8)
    (hres : res.toNat < 2 ^ shift) (hsh : shift + 7 ≤ S) :
    (res ||| ((b &&& 0x7F).toBitVec.setWidth S <<< shift)).toNat
        = res.toNat + 2 ^ shift * (b.toNat % 128) ∧
      res.toNat + 2 ^ shift * (b.toNat % 128) < 2 ^ (shift + 7) := by
  have h1 : 2 ^ (shift + 7) ≤ 2 ^ S := Nat.pow_le_pow_right (by decide) hsh
  rw [Nat.pow_add] at h1
  have : b.toNat % 128 ≤ 127 := by omega
  have : 2 ^ shift * (b.toNat % 128) ≤ 2 ^ shift * 127 := Nat.mul_le_mul_left _ this
  have h2 : res.toNat + 2 ^ shift * (b.toNat % 128) < 2 ^ (shift + 7) := by
    rw [Nat.pow_add]; omega
  refine ⟨?_, h2⟩
  rw [or_shift_toNat_mod res b shift hres hS, Nat.mod_eq_of_lt]
  rw [Nat.pow_add] at h2
  omega

theorem readVarSLoop_sound {S W thr : Nat} (P : SParams S W thr) (nm : String) (sp : Bool)
    (res : BitVec S) (shift : Nat) (r : Reader) (h7 : 7 ∣ shift) (hs : shift < W)
    (hres : res.toNat < 2 ^ shift) {v : BitVec S} {r' : Reader}
    (h : readVarSLoop S W thr nm sp res shift r = .ok (v, r')) :
    ∃ enc tail m, r.rest = enc ++ tail ∧ SLeb (W - shift) enc m ∧
      v.toInt = loopVal S W thr shift res.toNat enc.length m ∧ r' = r.advance enc.length := by
  rw [readVarSLoop] at h
  split at h
  · cases h
  · rename_i byte r1 hrd
    obtain ⟨hr1, hrest⟩ := readU8_ok hrd
    have hb := toNat_lt_256 byte
    have ht := P.thr_iff shift h7
    simp only at h
    split at h
    · rename_i hge
      have hW := ht.mp hge
      split at h
      · cases h
      · rename_i hok
        cases h
        have hb8 : byte.toNat < 128 := by
          rw [← and80_eq_zero_iff]
          exact Decidable.byContradiction fun hh => hok (.inl hh)
        have hfc := final_check (W - shift) (by omega) (by omega) byte.toBitVec hb8
        have hok' : byte.toNat < 2 ^ (W - shift - 1) ∨ 2 ^ 7 ≤ byte.toNat + 2 ^ (W - shift - 1) := by
          by_cases e0 : (byte.toBitVec <<< 1).sshiftRight (W - shift) = 0#8
          · exact .inl (hfc.1.mp e0)
          · by_cases e1 : (byte.toBitVec <<< 1).sshiftRight (W - shift) = -1#8
            · exact .inr (hfc.2.mp e1)
            · exact absurd (.inr ⟨e0, e1⟩) hok
        have hN : 2 ^ (W - shift - 1) ≤ 2 ^ 6 := Nat.pow_le_pow_right (by decide) (by omega)
        refine ⟨[byte], _, _, hrest, sleb_last hb8 (by omega), ?_, by simp [hr1]⟩
        rw [fin_step P.hS P.hWS res byte shift hres hs hW (P.gap.imp id (fun g => g _ h7 hs)) hb8
          hok']
        unfold loopVal
        congr 1
        have : (64 ≤ byte.toNat) ↔
            ((if byte.toNat < 64 then (byte.toNat : Int) else byte.toNat - 2 ^ 7) < 0) := by
          split <;> omega
        simp only [this, List.length_singleton, Nat.sub_self, Nat.mul_zero, Nat.add_zero, hge,
          and_true, Nat.mul_one]
    · rename_i hlt
      have hW : shift + 7 < W := by omega
      have hWS := P.hWS
      split at h
      · rename_i hz
        have hb8 := (and80_eq_zero_iff byte).mp hz
        cases h
        have h6 : 2 ^ 6 ≤ 2 ^ (W - shift - 1) := Nat.pow_le_pow_right (by decide) (by omega)
        refine ⟨[byte], _, _, hrest, sleb_last hb8 (by omega), ?_, by simp [hr1]⟩
        rw [ext_step P.hS res byte shift hres (by omega) hb8]
        unfold loopVal
        rw [if_neg (c := W < S ∧ _ ∧ _) (fun h => by
          have h := h.2.2; simp at h; omega), Int.add_zero]
      · rename_i hz
        rw [and80_eq_zero_iff] at hz
        obtain ⟨hor, hres'⟩ := res_step P.hS res byte hres (show shift + 7 ≤ S by omega)
        rw [← hor] at hres'
        have hdec := readU8_lt hrd
        obtain ⟨enc, tail', m, e1, e2, e3, e4⟩ :=
          readVarSLoop_sound P nm sp _ (shift + 7) r1 (by omega) (by omega) hres' h
        refine ⟨byte :: enc, tail', 2 ^ 7 * m + ((byte.toNat : Int) - 2 ^ 7), ?_, ?_, ?_, ?_⟩
        · rw [hrest]; rw [hr1] at e1; simp [hrest] at e1; simp [e1]
        · refine .more (by omega) (by omega) ?_
          rw [Nat.sub_sub]; exact e2
        · rw [e3, hor, loopVal_step (by omega) hb (by
            have := e2.ne_nil; exact List.length_pos_iff.mpr this)]
          simp
        · rw [e4, hr1]; simp [Nat.add_comm]
termination_by r.buffer.length - r.position

theorem readVarSLoop_last {S W thr : Nat} (P : SParams S W thr) (nm : String) (sp : Bool)
    (res : BitVec S) (shift : Nat) (r : Reader) (h7 : 7 ∣ shift) (hs : shift < W)
    {b : UInt8} {tail : List UInt8} (hrest : r.rest = b :: tail) (hb8 : b.toNat < 128)
    (hok : (b.toNat < 64 ∧ b.toNat < 2 ^ (W - shift - 1)) ∨
      (64 ≤ b.toNat ∧ 2 ^ 7 ≤ b.toNat + 2 ^ (W - shift - 1))) :
    ∃ v, readVarSLoop S W thr nm sp res shift r = .ok (v, r.advance 1) := by
  have hrd : readU8 r = .ok (b, r.advance 1) := readU8_cons hrest
  rw [readVarSLoop]
  split
  · rename_i heq; rw [hrd] at heq; cases heq
  · rename_i b' r1 heq
    rw [hrd] at heq; cases heq
    have hz : b &&& 0x80 = 0 := (and80_eq_zero_iff b).mpr hb8
    have ht := P.thr_iff shift h7
    simp only [hz, ne_eq, not_true, false_or, if_true]
    split
    · rename_i hge
      have hW := ht.mp hge
      have hfc := final_check (W - shift) (by omega) (by omega) b.toBitVec hb8
      split
      · rename_i hbad
        exfalso
        rcases hok with h | h
        · exact hbad.1 (hfc.1.mpr h.2)
        · exact hbad.2 (hfc.2.mpr h.2)
      · exact ⟨_, rfl⟩
    · exact ⟨_, rfl⟩

theorem readVarSLoop_complete {S W thr : Nat} (P : SParams S W thr) (nm : String) (sp : Bool)
    {N : Nat} {enc : List UInt8} {m : Int} (hl : SLeb N enc m) :
    ∀ (res : BitVec S) (shift : Nat) (r : Reader) (tail : List UInt8),
    7 ∣ shift → shift < W → N = W - shift → r.rest = enc ++ tail →
    ∃ v : BitVec S, readVarSLoop S W thr nm sp res shift r = .ok (v, r.advance enc.length) := by
  induction hl with
  | @pos N b h1 h2 =>
    intro res shift r tail h7 hs hN hrest
    exact readVarSLoop_last P nm sp res shift r h7 hs hrest (by omega) (by rw [← hN]; omega)
  | @neg N b h1 h2 h3 =>
    intro res shift r tail h7 hs hN hrest
    exact readVarSLoop_last P nm sp res shift r h7 hs hrest (by omega) (by rw [← hN]; omega)
  | @more N b bs m h1 h2 h3 ih =>
    intro res shift r tail h7 hs hN hrest
    have hrd : readU8 r = .ok (b, r.advance 1) := readU8_cons hrest
    have ht := P.thr_iff shift h7
    obtain ⟨v, hv1⟩ := ih (res ||| ((b &&& 0x7F).toBitVec.setWidth S <<< shift)) (shift + 7)
      (r.advance 1) tail (by omega) (by omega) (by omega) (by simp [hrest])
    refine ⟨v, ?_⟩
    rw [readVarSLoop]
    split
    · rename_i heq; rw [hrd] at heq; cases heq
    · rename_i b' r1 heq
      rw [hrd] at heq; cases heq
      have hz : ¬ (b &&& 0x80 = 0) := by rw [and80_eq_zero_iff]; omega
      have hlt : ¬ (shift ≥ thr) := by omega
      simp only [hlt, hz, if_false]
      rw [hv1]
      simp [Nat.add_comm]

/-- `SLeb` denotes at most one prefix: two encodings which are prefixes of the same bytes are
the same encoding of the same value. -/
theorem SLeb.unique {N N' : Nat} {a a' t t' : List UInt8} {m m' : Int} (h : SLeb N a m)
    (h' : SLeb N' a' m') (he : a ++ t = a' ++ t') : a = a' ∧ m = m' := by
  induction h generalizing N' a' m' with
  | @pos N b h1 h2 =>
    cases h' with
    | pos g1 g2 => simp at he; obtain ⟨rfl, _⟩ := he; simp
    | neg g1 g2 g3 => simp at he; obtain ⟨rfl, _⟩ := he; omega
    | more g1 g2 g3 => simp at he; obtain ⟨rfl, _⟩ := he; omega
  | @neg N b h1 h2 h3 =>
    cases h' with
    | pos g1 g2 => simp at he; obtain ⟨rfl, _⟩ := he; omega
    | neg g1 g2 g3 => simp at he; obtain ⟨rfl, _⟩ := he; simp
    | more g1 g2 g3 => simp at he; obtain ⟨rfl, _⟩ := he; omega
  | @more N b bs m h1 h2 h3 ih =>
    cases h' with
    | pos g1 g2 => simp at he; obtain ⟨rfl, _⟩ := he; omega
    | neg g1 g2 g3 => simp at he; obtain ⟨rfl, _⟩ := he; omega
    | more g1 g2 g3 =>
      simp at he
      obtain ⟨rfl, he⟩ := he
      obtain ⟨rfl, rfl⟩ := ih g3 he
      simp

theorem ULeb.unique {N N' : Nat} {a a' t t' : List UInt8} {m m' : Nat} (h : ULeb N a m)
    (h' : ULeb N' a' m') (he : a ++ t = a' ++ t') : a = a' ∧ m = m' := by
  induction h generalizing N' a' m' with
  | @last N b h1 h2 =>
    cases h' with
    | last g1 g2 => simp at he; obtain ⟨rfl, _⟩ := he; simp
    | more g1 g2 g3 => simp at he; obtain ⟨rfl, _⟩ := he; omega
  | @more N b bs m h1 h2 h3 ih =>
    cases h' with
    | last g1 g2 => simp at he; obtain ⟨rfl, _⟩ := he; omega
    | more g1 g2 g3 =>
      simp at he
      obtain ⟨rfl, he⟩ := he
      obtain ⟨rfl, rfl⟩ := ih g3 he
      simp

/-- The signed loop, exactly. -/
theorem readVarSLoop_iff {S W thr : Nat} (P : SParams S W thr) (nm : String) (sp : Bool)
    (hW : 0 < W) (r : Reader) (v : BitVec S) (r' : Reader) :
    readVarSLoop S W thr nm sp 0 0 r = .ok (v, r') ↔
    ∃ enc tail m, r.rest = enc ++ tail ∧ SLeb W enc m ∧
      v.toInt = loopVal S W thr 0 0 enc.length m ∧ r' = r.advance enc.length := by
  constructor
  · intro h
    simpa using readVarSLoop_sound P nm sp 0 0 r (by omega) hW (by simp) h
  · rintro ⟨enc, tail, m, h1, h2, h3, rfl⟩
    obtain ⟨v', hv'⟩ := readVarSLoop_complete P nm sp h2 0 0 r tail (by omega) hW (by omega) h1
    obtain ⟨enc', tail', m', g1, g2, g3, _⟩ :=
      readVarSLoop_sound P nm sp 0 0 r (by omega) hW (by simp) hv'
    obtain ⟨rfl, rfl⟩ := h2.unique (by simpa using g2) (h1.symm.trans g1)
    rw [hv']
    have : v' = v := BitVec.eq_of_toInt_eq (by rw [g3, h3]; simp)
    rw [this]

theorem readVarUBig_unfold (W : Nat) (name : String) (result : BitVec W) (shift : Nat)
    (r : Reader) : readVarUBig W name result shift r =
    match readU8 r with
    | .error e => .error e
    | .ok (byte, r') =>
      let result := result ||| ((byte &&& 0x7F).toBitVec.setWidth W <<< shift)
      if shift ≥ W - 7 ∧ byte.toNat >>> (W - shift) ≠ 0 then
        let m := if byte &&& 0x80 ≠ 0 then
            "invalid var_" ++ name ++ ": integer representation too long"
          else "invalid var_" ++ name ++ ": integer too large"
        .error (.msg m (r'.originalPosition - 1))
      else
        let shift := shift + 7
        if byte &&& 0x80 = 0 then .ok (result, r')
        else readVarUBig W name result shift r' := by
  conv => lhs; rw [readVarUBig]
  split <;> rename_i h <;> rw [h]

theorem readVarSLoop_unfold (S W thr : Nat) (name : String) (split : Bool) (result : BitVec S)
    (shift : Nat) (r : Reader) : readVarSLoop S W thr name split result shift r =
  match readU8 r with
  | .error e => .error e
  | .ok (byte, r') =>
    let result := result ||| ((byte &&& 0x7F).toBitVec.setWidth S <<< shift)
    if shift ≥ thr then
      let continuationBit := byte &&& 0x80 ≠ 0
      let signAndUnusedBit := (byte.toBitVec <<< 1).sshiftRight (W - shift)
      if continuationBit ∨ (signAndUnusedBit ≠ 0 ∧ signAndUnusedBit ≠ -1) then
        let m := if continuationBit ∨ !split then
            "invalid var_" ++ name ++ ": integer representation too long"
          else "invalid var_" ++ name ++ ": integer too large"
        .error (.msg m (r'.originalPosition - 1))
      else .ok (result, r')
    else
      let shift := shift + 7
      if byte &&& 0x80 = 0 then
        let ashift := S - shift
        .ok ((result <<< ashift).sshiftRight ashift, r')
      else readVarSLoop S W thr name split result shift r' := by
  conv => lhs; rw [readVarSLoop]
  split <;> rename_i h <;> rw [h]

theorem readVarI32_eq (r : Reader) :
    readVarI32 r = readVarSLoop 32 32 25 "i32" true 0 0 r := by
  rw [readVarI32, readVarSLoop_unfold]
  rcases readU8 r with e | ⟨b, r1⟩
  · rfl
  · dsimp only
    simp only [ge_iff_le]
    split
    · rename_i hz
      have : b &&& 0x7F = b := by
        apply UInt8.toNat_inj.mp
        rw [and7F_toNat, Nat.mod_eq_of_lt ((and80_eq_zero_iff b).mp hz)]
      simp [this]
    · simp

theorem s33_fast : ∀ x : BitVec 8, x.toNat < 128 →
    ((x <<< 1).signExtend 64).sshiftRight 1 = ((x.setWidth 64) <<< 57).sshiftRight 57 := by
  set_option maxRecDepth 100000 in decide

theorem readVarS33_eq (r : Reader) :
    readVarS33 r = readVarSLoop 64 33 25 "s33" false 0 0 r := by
  rw [readVarS33, readVarSLoop_unfold]
  rcases readU8 r with e | ⟨b, r1⟩
  · rfl
  · dsimp only
    simp only [ge_iff_le]
    split
    · rename_i hz
      have hb := (and80_eq_zero_iff b).mp hz
      have : b &&& 0x7F = b := by
        apply UInt8.toNat_inj.mp
        rw [and7F_toNat, Nat.mod_eq_of_lt hb]
      rw [s33_fast b.toBitVec hb]
      simp [this]
    · simp

/-- The unsigned reader written as one loop from shift 0. -/
theorem readVarU_eq {W : Nat} (hW : W = 32 ∨ W = 64) (nm : String) (r : Reader) :
    (match readU8 r with
      | .error e => .error e
      | .ok (byte, r') =>
        if byte &&& 0x80 = 0 then .ok (byte.toBitVec.setWidth W, r')
        else readVarUBig W nm ((byte &&& 0x7F).toBitVec.setWidth W) 7 r')
    = readVarUBig W nm 0 0 r := by
  rw [readVarUBig_unfold]
  rcases readU8 r with e | ⟨b, r1⟩
  · rfl
  · dsimp only
    have : ¬ (0 ≥ W - 7 ∧ b.toNat >>> (W - 0) ≠ 0) := by omega
    simp only [this, if_false]
    split
    · rename_i hz
      have : b &&& 0x7F = b := by
        apply UInt8.toNat_inj.mp
        rw [and7F_toNat, Nat.mod_eq_of_lt ((and80_eq_zero_iff b).mp hz)]
      simp [this]
    · simp

theorem readVarUBig_iff {W : Nat} (hW : 8 ≤ W) (nm : String) (r : Reader) (v : BitVec W)
    (r' : Reader) : readVarUBig W nm 0 0 r = .ok (v, r') ↔
    ∃ enc tail, r.rest = enc ++ tail ∧ ULeb W enc v.toNat ∧ r' = r.advance enc.length := by
  constructor
  · intro h
    obtain ⟨enc, m, tail, h1, h2, h3, h4⟩ :=
      readVarUBig_sound hW nm 0 0 r _ _ (by omega) (by simp) h
    refine ⟨enc, tail, h1, ?_, h4⟩
    rw [h3]; simpa using h2
  · rintro ⟨enc, tail, h1, h2, rfl⟩
    obtain ⟨v', hv', e⟩ := readVarUBig_complete hW nm h2 0 0 r tail (by omega) (by omega)
      (by simp) h1
    rw [hv']
    have : v' = v := BitVec.eq_of_toNat_eq (by rw [e]; simp)
    rw [this]

/-! ### Writing -/

theorem ofNat_toNat {n : Nat} (h : n < 256) : (UInt8.ofNat n).toNat = n := by
  simp [UInt8.toNat_ofNat', Nat.mod_eq_of_lt h]

theorem encodeU_spec (v : Nat) : ∀ N, v < 2 ^ N → ULeb N (encodeU v) v := by
  induction v using Nat.strongRecOn with
  | _ v ih =>
    intro N hN
    rw [encodeU]
    split
    · have e : (UInt8.ofNat (v % 128)).toNat = v := by rw [ofNat_toNat (by omega)]; omega
      have := ULeb.last (N := N) (b := UInt8.ofNat (v % 128)) (by omega) (by omega)
      rwa [e] at this
    · have hN7 : 7 < N := by
        apply Decidable.byContradiction
        intro h
        have : 2 ^ N ≤ 2 ^ 7 := Nat.pow_le_pow_right (by decide) (by omega)
        omega
      have hlt : v / 128 < 2 ^ (N - 7) := by
        have : 2 ^ N = 128 * 2 ^ (N - 7) := by
          rw [show (128 : Nat) = 2 ^ 7 from rfl, ← Nat.pow_add]; congr 1; omega
        omega
      have h := ih (v / 128) (by omega) (N - 7) hlt
      have e : (UInt8.ofNat (v % 128 + 128)).toNat = v % 128 + 128 := ofNat_toNat (by omega)
      have := ULeb.more (b := UInt8.ofNat (v % 128 + 128)) (by omega) hN7 h
      rw [e] at this
      rwa [show 2 ^ 7 * (v / 128) + (v % 128 + 128 - 2 ^ 7) = v by omega] at this

theorem encodeU_shortest {N : Nat} {enc : List UInt8} {v : Nat} (h : ULeb N enc v) :
    (encodeU v).length ≤ enc.length := by
  induction h with
  | @last N b h1 h2 => rw [encodeU, if_pos (by omega)]; simp
  | @more N b bs m h1 h2 h3 ih =>
    have hb := toNat_lt_256 b
    rw [encodeU]
    split
    · simp
    · rw [show (2 ^ 7 * m + (b.toNat - 2 ^ 7)) / 128 = m by omega]
      simp only [List.length_cons]
      omega

theorem encodeS_spec (n : Nat) : ∀ v : Int, v.natAbs = n → ∀ N, 0 < N → -(2 ^ (N - 1) : Int) ≤ v →
    v < 2 ^ (N - 1) → SLeb N (encodeS v) v := by
  induction n using Nat.strongRecOn with
  | _ n ih =>
    intro v hn N hN hlo hhi
    have hcast : ((2 ^ (N - 1) : Nat) : Int) = 2 ^ (N - 1) := by
      rw [Int.natCast_pow]; rfl
    rw [encodeS]
    split
    · rename_i hd
      have e : (UInt8.ofNat (v % 128).toNat).toNat = (v % 128).toNat := ofNat_toNat (by omega)
      rcases hd with ⟨hd, hb⟩ | ⟨hd, hb⟩
      · have := SLeb.pos (N := N) (b := UInt8.ofNat (v % 128).toNat) (by omega) (by omega)
        rw [e] at this
        rwa [show ((v % 128).toNat : Int) = v by omega] at this
      · have := SLeb.neg (N := N) (b := UInt8.ofNat (v % 128).toNat) (by omega) (by omega)
          (by omega)
        rw [e] at this
        rwa [show ((v % 128).toNat : Int) - 2 ^ 7 = v by omega] at this
    · rename_i hd
      have hN7 : 7 < N := by
        apply Decidable.byContradiction
        intro h
        have : 2 ^ (N - 1) ≤ 2 ^ 6 := Nat.pow_le_pow_right (by decide) (by omega)
        omega
      have hp : (2 : Int) ^ (N - 1) = 128 * 2 ^ (N - 7 - 1) := by
        rw [show (128 : Int) = 2 ^ 7 from rfl, ← Int.pow_add]; congr 1; omega
      have h := ih (v / 128).natAbs (by omega) (v / 128) rfl (N - 7) (by omega) (by omega)
        (by omega)
      have e : (UInt8.ofNat ((v % 128).toNat + 128)).toNat = (v % 128).toNat + 128 :=
        ofNat_toNat (by omega)
      have := SLeb.more (b := UInt8.ofNat ((v % 128).toNat + 128)) (by omega) hN7 h
      rw [e] at this
      rwa [show (2 ^ 7 * (v / 128) + (((v % 128).toNat + 128 : Nat) - 2 ^ 7) : Int) = v by omega]
        at this

theorem encodeS_shortest {N : Nat} {enc : List UInt8} {v : Int} (h : SLeb N enc v) :
    (encodeS v).length ≤ enc.length := by
  induction h with
  | @pos N b h1 h2 => rw [encodeS]; rw [if_pos (by omega)]; simp
  | @neg N b h1 h2 h3 => rw [encodeS]; rw [if_pos (by omega)]; simp
  | @more N b bs m h1 h2 h3 ih =>
    have hb := toNat_lt_256 b
    rw [encodeS]
    split
    · simp
    · rw [show (2 ^ 7 * m + ((b.toNat : Int) - 2 ^ 7)) / 128 = m by omega]
      simp only [List.length_cons]
      omega

theorem bv_range {n : Nat} (v : BitVec n) :
    -(2 ^ (n - 1) : Int) ≤ v.toInt ∧ v.toInt < 2 ^ (n - 1) := by
  constructor
  · exact BitVec.le_toInt v
  · exact BitVec.toInt_lt

/-! ### Errors -/

theorem unsat_cons {W : Nat} {b : UInt8} {bs : List UInt8} (hb : 128 ≤ b.toNat)
    (h : ∀ tail enc t v, bs ++ tail = enc ++ t → ¬ ULeb (W - 7) enc v) :
    ∀ tail enc t v, b :: bs ++ tail = enc ++ t → ¬ ULeb W enc v := by
  intro tail enc t v he hl
  cases hl with
  | last h1 h2 => simp at he; obtain ⟨rfl, _⟩ := he; omega
  | more h1 h2 h3 =>
    simp at he
    exact h tail _ t _ he.2 h3

theorem unsat_cons_s {W : Nat} {b : UInt8} {bs : List UInt8} (hb : 128 ≤ b.toNat)
    (h : ∀ tail enc t v, bs ++ tail = enc ++ t → ¬ SLeb (W - 7) enc v) :
    ∀ tail enc t v, b :: bs ++ tail = enc ++ t → ¬ SLeb W enc v := by
  intro tail enc t v he hl
  cases hl with
  | pos h1 h2 => simp at he; obtain ⟨rfl, _⟩ := he; omega
  | neg h1 h2 => simp at he; obtain ⟨rfl, _⟩ := he; omega
  | more h1 h2 h3 =>
    simp at he
    exact h tail _ t _ he.2 h3

/-- Every way the unsigned loop can fail. -/
theorem readVarUBig_error {W : Nat} (nm : String) (res : BitVec W)
    (shift : Nat) (r : Reader) (e : Err) (hs : shift < W)
    (h : readVarUBig W nm res shift r = .error e) :
    (e = .eof (r.originalPosition + r.rest.length) 1 ∧ (∀ b ∈ r.rest, 128 ≤ b.toNat) ∧
        shift + 7 * r.rest.length < W) ∨
    (∃ m off, e = .msg m off ∧
      ∀ tail enc t v, r.rest ++ tail = enc ++ t → ¬ ULeb (W - shift) enc v) := by
  rw [readVarUBig] at h
  split at h
  · rename_i e' heq
    cases h
    obtain ⟨hr, rfl⟩ := readU8_error heq
    exact .inl (by simp [hr, hs])
  · rename_i byte r1 hrd
    obtain ⟨hr1, hrest⟩ := readU8_ok hrd
    have hb := toNat_lt_256 byte
    simp only at h
    split at h
    · rename_i hbad
      cases h
      right
      refine ⟨_, _, rfl, ?_⟩
      intro tail enc t v he hl
      rw [shiftRight_ne_zero_iff] at hbad
      rw [hrest] at he
      cases hl with
      | last h1 h2 => simp at he; obtain ⟨rfl, _⟩ := he; omega
      | more h1 h2 h3 => omega
    · rename_i hok
      split at h
      · cases h
      · rename_i hz
        rw [and80_eq_zero_iff] at hz
        rw [shiftRight_ne_zero_iff] at hok
        have hlt : shift + 7 < W := by
          apply Decidable.byContradiction
          intro hh
          have : 2 ^ (W - shift) ≤ 2 ^ 7 := Nat.pow_le_pow_right (by decide) (by omega)
          omega
        have hdec := readU8_lt hrd
        rcases readVarUBig_error nm _ (shift + 7) r1 e hlt h with ⟨h1, h2, h3⟩ | ⟨m, off, h1, h2⟩
        · left
          rw [hrest]
          refine ⟨?_, ?_, ?_⟩
          · rw [h1, hr1]; simp; omega
          · simp only [List.mem_cons, forall_eq_or_imp]; exact ⟨by omega, h2⟩
          · simp only [List.length_cons]; omega
        · right
          refine ⟨m, off, h1, ?_⟩
          rw [hrest]
          exact unsat_cons (by omega) (by rw [Nat.sub_sub]; exact h2)
termination_by r.buffer.length - r.position

theorem readVarSLoop_error {S W thr : Nat} (P : SParams S W thr) (nm : String) (sp : Bool)
    (res : BitVec S) (shift : Nat) (r : Reader) (e : Err) (h7 : 7 ∣ shift) (hs : shift < W)
    (h : readVarSLoop S W thr nm sp res shift r = .error e) :
    (e = .eof (r.originalPosition + r.rest.length) 1 ∧ (∀ b ∈ r.rest, 128 ≤ b.toNat) ∧
        shift + 7 * r.rest.length < W) ∨
    (∃ m off, e = .msg m off ∧
      ∀ tail enc t v, r.rest ++ tail = enc ++ t → ¬ SLeb (W - shift) enc v) := by
  rw [readVarSLoop] at h
  split at h
  · rename_i e' heq
    cases h
    obtain ⟨hr, rfl⟩ := readU8_error heq
    exact .inl (by simp [hr, hs])
  · rename_i byte r1 hrd
    obtain ⟨hr1, hrest⟩ := readU8_ok hrd
    have hb := toNat_lt_256 byte
    have ht := P.thr_iff shift h7
    simp only at h
    split at h
    · rename_i hge
      have hW := ht.mp hge
      split at h
      · rename_i hbad
        cases h
        right
        refine ⟨_, _, rfl, ?_⟩
        intro tail enc t v he hl
        rw [hrest] at he
        have key : byte.toNat < 128 → ((byte.toBitVec <<< 1).sshiftRight (W - shift) ≠ 0 ∧
            (byte.toBitVec <<< 1).sshiftRight (W - shift) ≠ -1) := by
          intro hb8
          rcases hbad with hbad | hbad
          · exact absurd ((and80_eq_zero_iff byte).mpr hb8) hbad
          · exact hbad
        cases hl with
        | pos h1 h2 =>
          simp at he; obtain ⟨rfl, _⟩ := he
          exact (key (by omega)).1 ((final_check (W - shift) (by omega) (by omega)
            byte.toBitVec (show byte.toNat < 128 by omega)).1.mpr h2)
        | neg h1 h2 h3 =>
          simp at he; obtain ⟨rfl, _⟩ := he
          exact (key (by omega)).2 ((final_check (W - shift) (by omega) (by omega)
            byte.toBitVec (show byte.toNat < 128 by omega)).2.mpr h3)
        | more h1 h2 h3 => omega
      · cases h
    · rename_i hlt
      split at h
      · cases h
      · rename_i hz
        rw [and80_eq_zero_iff] at hz
        have hdec := readU8_lt hrd
        rcases readVarSLoop_error P nm sp _ (shift + 7) r1 e (by omega) (by omega) h with
          ⟨h1, h2, h3⟩ | ⟨m, off, h1, h2⟩
        · left
          rw [hrest]
          refine ⟨?_, ?_, ?_⟩
          · rw [h1, hr1]; simp; omega
          · simp only [List.mem_cons, forall_eq_or_imp]; exact ⟨by omega, h2⟩
          · simp only [List.length_cons]; omega
        · right
          refine ⟨m, off, h1, ?_⟩
          rw [hrest]
          exact unsat_cons_s (by omega) (by rw [Nat.sub_sub]; exact h2)
termination_by r.buffer.length - r.position

/-- A run of continuation bytes that still fits can be completed. -/
theorem uleb_completable : ∀ (bs : List UInt8) (W : Nat), (∀ b ∈ bs, 128 ≤ b.toNat) →
    7 * bs.length < W → ∃ v, ULeb W (bs ++ [0]) v
  | [], W, _, h => ⟨_, .last (by decide) (by
      have : 0 < 2 ^ W := Nat.two_pow_pos W
      simpa using this)⟩
  | b :: bs, W, hb, h => by
    simp only [List.length_cons] at h
    obtain ⟨v, hv⟩ := uleb_completable bs (W - 7) (fun x hx => hb x (by simp [hx])) (by omega)
    exact ⟨_, .more (hb b (by simp)) (by omega) hv⟩

theorem sleb_completable : ∀ (bs : List UInt8) (W : Nat), (∀ b ∈ bs, 128 ≤ b.toNat) →
    7 * bs.length < W → ∃ v, SLeb W (bs ++ [0]) v
  | [], W, _, h => ⟨_, .pos (by decide) (by
      have : 0 < 2 ^ (W - 1) := Nat.two_pow_pos (W - 1)
      simpa using this)⟩
  | b :: bs, W, hb, h => by
    simp only [List.length_cons] at h
    obtain ⟨v, hv⟩ := sleb_completable bs (W - 7) (fun x hx => hb x (by simp [hx])) (by omega)
    exact ⟨_, .more (hb b (by simp)) (by omega) hv⟩

/-! ### Lengths -/

/-- `SLeb.more` with the value as an equation, convenient for concrete encodings. -/
theorem SLeb.more' {N : Nat} {b : UInt8} {bs : List UInt8} {m v : Int} (h1 : 2 ^ 7 ≤ b.toNat)
    (h2 : 7 < N) (h3 : SLeb (N - 7) bs m) (h : v = 2 ^ 7 * m + ((b.toNat : Int) - 2 ^ 7)) :
    SLeb N (b :: bs) v := h ▸ .more h1 h2 h3

theorem SLeb.neg' {N : Nat} {b : UInt8} {v : Int} (h1 : 2 ^ 6 ≤ b.toNat) (h2 : b.toNat < 2 ^ 7)
    (h3 : 2 ^ 7 ≤ b.toNat + 2 ^ (N - 1)) (h : v = (b.toNat : Int) - 2 ^ 7) : SLeb N [b] v :=
  h ▸ .neg h1 h2 h3



theorem ULeb.length_le {N enc v} (h : ULeb N enc v) : enc.length ≤ max 1 ((N + 6) / 7) := by
  induction h with
  | last h1 h2 => simp; omega
  | more h1 h2 h3 ih => simp only [List.length_cons]; omega

theorem SLeb.length_le {N enc v} (h : SLeb N enc v) : enc.length ≤ max 1 ((N + 6) / 7) := by
  induction h with
  | pos h1 h2 => simp; omega
  | neg h1 h2 => simp; omega
  | more h1 h2 h3 ih => simp only [List.length_cons]; omega

end Verif.Leb
