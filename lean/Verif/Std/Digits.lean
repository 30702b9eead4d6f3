/-
Digits of numbers in a base, as the Rust standard library reads and writes them.
-/
namespace Verif.Std

/-- The value of a digit or letter, as in `char::to_digit(36)`. -/
def digitVal (c : Char) : Option Nat :=
  if '0' ≤ c ∧ c ≤ '9' then some (c.toNat - '0'.toNat)
  else if 'a' ≤ c ∧ c ≤ 'z' then some (c.toNat - 'a'.toNat + 10)
  else if 'A' ≤ c ∧ c ≤ 'Z' then some (c.toNat - 'A'.toNat + 10)
  else none

/-- `char::to_digit(radix)`. -/
def toDigit (radix : Nat) (c : Char) : Option Nat :=
  (digitVal c).filter (· < radix)

/-- Reading digits, most significant first, after having read `acc`. -/
def readDigits (radix : Nat) (acc : Nat) : List Char → Option Nat
  | [] => some acc
  | c :: cs =>
    match toDigit radix c with
    | none => none
    | some d => readDigits radix (acc * radix + d) cs

theorem digitVal_digitChar {d : Nat} (h : d < 16) : digitVal d.digitChar = some d := by
  have : ∀ d : Fin 16, digitVal d.val.digitChar = some d.val := by decide
  exact this ⟨d, h⟩

theorem toDigit_digitChar {b d : Nat} (hb : b ≤ 16) (h : d < b) :
    toDigit b d.digitChar = some d := by
  simp [toDigit, digitVal_digitChar (Nat.lt_of_lt_of_le h hb), Option.filter, h]

theorem readDigits_append (b acc : Nat) (l m : List Char) :
    readDigits b acc (l ++ m) = (readDigits b acc l).bind (fun a => readDigits b a m) := by
  induction l generalizing acc with
  | nil => rfl
  | cons c l ih =>
    simp only [List.cons_append, readDigits]
    cases toDigit b c with
    | none => rfl
    | some d => exact ih _

/-- Reading what was written. -/
theorem readDigits_toDigits {b : Nat} (h1 : 1 < b) (hb : b ≤ 16) (n : Nat) :
    readDigits b 0 (Nat.toDigits b n) = some n := by
  induction n using Nat.strongRecOn with
  | ind n ih =>
    rw [Nat.toDigits_eq_if h1]
    split
    · next h => simp [readDigits, toDigit_digitChar hb h]
    · next h =>
      have hlt : n / b < n := Nat.div_lt_self (by omega) h1
      rw [readDigits_append, ih _ hlt]
      have hm : n % b < b := Nat.mod_lt _ (by omega)
      simp only [Option.bind_some, readDigits, toDigit_digitChar hb hm]
      rw [Nat.mul_comm, Nat.div_add_mod]

/-- The characters written are digits of the base. -/
theorem mem_toDigits {b : Nat} (h1 : 1 < b) (n : Nat) {c : Char} (h : c ∈ Nat.toDigits b n) :
    ∃ d, d < b ∧ c = d.digitChar := by
  induction n using Nat.strongRecOn with
  | ind n ih =>
    rw [Nat.toDigits_eq_if h1] at h
    split at h
    · next hn => simp at h; exact ⟨n, hn, h⟩
    · next hn =>
      simp only [List.mem_append, List.mem_singleton] at h
      rcases h with h | h
      · exact ih _ (Nat.div_lt_self (by omega) h1) h
      · exact ⟨n % b, Nat.mod_lt _ (by omega), h⟩

/-- The first digit of a positive number is not zero. -/
theorem head_toDigits {b : Nat} (h1 : 1 < b) (n : Nat) (hn : 0 < n) :
    ∃ d l, 0 < d ∧ d < b ∧ Nat.toDigits b n = d.digitChar :: l := by
  induction n using Nat.strongRecOn with
  | ind n ih =>
    rw [Nat.toDigits_eq_if h1]
    split
    · next h => exact ⟨n, [], hn, h, rfl⟩
    · next h =>
      obtain ⟨d, l, h1', h2, h3⟩ := ih (n / b) (Nat.div_lt_self hn h1)
        (Nat.div_pos (by omega) (by omega))
      exact ⟨d, l ++ [(n % b).digitChar], h1', h2, by rw [h3]; rfl⟩

end Verif.Std
