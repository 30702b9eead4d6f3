import Verif.Codec.Dec
import Verif.Leb.Props
/-! Readers that accept exactly a grammar. -/
namespace Verif.Custom
open Verif.Reader Verif.Leb

/-- A reader accepts exactly the byte strings that `G` gives to a value. -/
def Exact (f : R α) (G : α → List UInt8 → Prop) : Prop :=
  ∀ r a r', f r = .ok (a, r') ↔ ∃ b t, r.rest = b ++ t ∧ G a b ∧ r' = r.advance b.length

theorem Exact.pure (x : α) : Exact (pure x : R α) fun a b => a = x ∧ b = [] := by
  intro r a r'
  rw [pure_apply]
  constructor
  · intro h; cases h; exact ⟨[], r.rest, rfl, ⟨rfl, rfl⟩, rfl⟩
  · rintro ⟨b, t, -, ⟨rfl, rfl⟩, rfl⟩; rfl

theorem Exact.fail (m : String) (o : Nat) : Exact (R.fail m o : R α) fun _ _ => False := by
  intro r a r'
  constructor
  · intro h; cases h
  · rintro ⟨b, t, -, h, -⟩; exact h.elim

theorem Exact.bind {f : R α} {g : α → R β} {F : α → List UInt8 → Prop}
    {G : α → β → List UInt8 → Prop} (hf : Exact f F) (hg : ∀ a, Exact (g a) (G a)) :
    Exact (f >>= g) fun c b => ∃ a b1 b2, b = b1 ++ b2 ∧ F a b1 ∧ G a c b2 := by
  intro r c r'
  rw [bind_ok]
  constructor
  · rintro ⟨a, r1, h1, h2⟩
    obtain ⟨b1, t1, e1, g1, rfl⟩ := (hf _ _ _).1 h1
    obtain ⟨b2, t2, e2, g2, rfl⟩ := (hg _ _ _ _).1 h2
    refine ⟨b1 ++ b2, t2, ?_, ⟨a, b1, b2, rfl, g1, g2⟩, by simp⟩
    rw [Reader.rest_advance, e1, List.drop_left] at e2
    rw [e1, e2, List.append_assoc]
  · rintro ⟨b, t, e, ⟨a, b1, b2, rfl, g1, g2⟩, rfl⟩
    refine ⟨a, r.advance b1.length, (hf _ _ _).2 ⟨b1, b2 ++ t, by rw [e, List.append_assoc], g1, rfl⟩,
      (hg _ _ _ _).2 ⟨b2, t, ?_, g2, by simp⟩⟩
    rw [Reader.rest_advance, e, List.append_assoc, List.drop_left]

theorem Exact.congr {f : R α} {F G : α → List UInt8 → Prop} (h : Exact f F)
    (e : ∀ a b, F a b ↔ G a b) : Exact f G := by
  have : F = G := by funext a b; exact propext (e a b)
  exact this ▸ h

theorem Exact.readPos {g : Nat → R β} {G : β → List UInt8 → Prop} (h : ∀ n, Exact (g n) G) :
    Exact (readPos >>= g) G := fun r c r' => h _ r c r'

theorem Exact.ite {c : Prop} [Decidable c] {f g : R α} {F G : α → List UInt8 → Prop}
    (hf : Exact f F) (hg : Exact g G) :
    Exact (if c then f else g) fun a b => (c ∧ F a b) ∨ (¬ c ∧ G a b) := by
  by_cases h : c
  · rw [if_pos h]; exact hf.congr fun a b => by simp [h]
  · rw [if_neg h]; exact hg.congr fun a b => by simp [h]

theorem Exact.readU8 : Exact readU8 fun a b => b = [a] := by
  intro r a r'
  constructor
  · intro h
    obtain ⟨e, h⟩ := readU8_ok h
    exact ⟨[a], r'.rest, h, rfl, e⟩
  · rintro ⟨b, t, e, rfl, rfl⟩
    exact readU8_cons e

theorem Exact.readBytes (n : Nat) : Exact (readBytes n) fun a b => b = a ∧ a.length = n := by
  intro r a r'
  constructor
  · intro h
    rw [readBytes_eq] at h
    split at h
    · next hl =>
      cases h
      exact ⟨r.rest.take n, r.rest.drop n, (List.take_append_drop ..).symm,
        ⟨rfl, by rw [List.length_take]; omega⟩, by rw [List.length_take, Nat.min_eq_left hl]⟩
    · cases h
  · rintro ⟨b, t, e, ⟨rfl, rfl⟩, rfl⟩
    exact Dec.readBytes b r t e

theorem Exact.u32 : Exact readVarU32 fun v b => ULeb 32 b v.toNat := fun r v r' => by
  rw [c01_u32_exact]; rfl
theorem Exact.i32 : Exact readVarI32 fun v b => SLeb 32 b v.toInt := fun r v r' => by
  rw [c02_i32_exact]; rfl
theorem Exact.i64 : Exact readVarI64 fun v b => SLeb 64 b v.toInt := fun r v r' => by
  rw [c02_i64_exact]; rfl

theorem Exact.many {f : R α} {G : α → List UInt8 → Prop} (h : Exact f G) : ∀ n,
    Exact (readMany f n) fun xs b => xs.length = n ∧ ∃ bs : List (List UInt8), b = bs.flatten ∧ List.Forall₂ G xs bs
  | 0 => (Exact.pure []).congr fun xs b => by
    constructor
    · rintro ⟨rfl, rfl⟩; exact ⟨rfl, [], rfl, .nil⟩
    · rintro ⟨h1, bs, rfl, h2⟩
      cases xs with
      | nil => cases h2; exact ⟨rfl, rfl⟩
      | cons x xs => simp at h1
  | n + 1 => by
    unfold Reader.readMany
    refine (h.bind fun a => (Exact.many h n).bind fun as => .pure _).congr fun xs b => ?_
    constructor
    · rintro ⟨a, b1, b2, rfl, h1, as, b3, b4, rfl, ⟨h2, bs, rfl, h3⟩, rfl, rfl⟩
      exact ⟨by simp [h2], b1 :: bs, by simp, .cons h1 h3⟩
    · rintro ⟨h1, bs, rfl, h2⟩
      cases h2 with
      | nil => simp at h1
      | @cons x b1 xs bs h2 h3 =>
        exact ⟨x, b1, bs.flatten, rfl, h2, xs, bs.flatten, [], by simp,
          ⟨by simpa using h1, bs, rfl, h3⟩, rfl, rfl⟩

/-- Readers are functions, hence grammars of readers are unambiguous. -/
theorem Exact.unique {f : R α} {G : α → List UInt8 → Prop} (h : Exact f G) {a a' : α}
    {b : List UInt8} (h1 : G a b) (h2 : G a' b) : a = a' := by
  have e1 := (h (Reader.new b 0) a _).2 ⟨b, [], (List.append_nil _).symm, h1, rfl⟩
  have e2 := (h (Reader.new b 0) a' _).2 ⟨b, [], (List.append_nil _).symm, h2, rfl⟩
  rw [e1] at e2
  cases e2; rfl

end Verif.Custom
