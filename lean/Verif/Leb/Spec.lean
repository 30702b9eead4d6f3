/-!
# Specification of LEB128 integers

Literal transcription of the WebAssembly core specification, binary format,
"Integers" (section 5.2.2): the grammars `uN` and `sN`. Independent of the reader
and writer models.
-/

namespace Verif.Leb

/-- `uN ::= n:byte ⇒ n (if n < 2^7 ∧ n < 2^N)`
`     |  n:byte m:u(N-7) ⇒ 2^7·m + (n − 2^7) (if n ≥ 2^7 ∧ N > 7)` -/
inductive ULeb : Nat → List UInt8 → Nat → Prop where
  | last {N : Nat} {b : UInt8} : b.toNat < 2 ^ 7 → b.toNat < 2 ^ N → ULeb N [b] b.toNat
  | more {N : Nat} {b : UInt8} {bs : List UInt8} {m : Nat} :
      2 ^ 7 ≤ b.toNat → 7 < N → ULeb (N - 7) bs m →
      ULeb N (b :: bs) (2 ^ 7 * m + (b.toNat - 2 ^ 7))

/-- `sN ::= n:byte ⇒ n (if n < 2^6 ∧ n < 2^(N-1))`
`     |  n:byte ⇒ n − 2^7 (if 2^6 ≤ n < 2^7 ∧ n ≥ 2^7 − 2^(N-1))`
`     |  n:byte m:s(N-7) ⇒ 2^7·m + (n − 2^7) (if n ≥ 2^7 ∧ N > 7)` -/
inductive SLeb : Nat → List UInt8 → Int → Prop where
  | pos {N : Nat} {b : UInt8} : b.toNat < 2 ^ 6 → b.toNat < 2 ^ (N - 1) → SLeb N [b] b.toNat
  | neg {N : Nat} {b : UInt8} : 2 ^ 6 ≤ b.toNat → b.toNat < 2 ^ 7 →
      2 ^ 7 ≤ b.toNat + 2 ^ (N - 1) → SLeb N [b] ((b.toNat : Int) - 2 ^ 7)
  | more {N : Nat} {b : UInt8} {bs : List UInt8} {m : Int} :
      2 ^ 7 ≤ b.toNat → 7 < N → SLeb (N - 7) bs m →
      SLeb N (b :: bs) (2 ^ 7 * m + ((b.toNat : Int) - 2 ^ 7))

end Verif.Leb
