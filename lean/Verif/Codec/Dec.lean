import Verif.Reader.Stable
import Verif.Leb.Props
import Mathlib.Data.List.Forall2
/-! "This reader decodes these bytes to this value": composable round-trip statements. -/
namespace Verif.Reader
open Verif.Leb

/-- Wherever a reader sees `bytes` next, `f` returns `a` and consumes exactly `bytes`. -/
def Dec (f : R α) (bytes : List UInt8) (a : α) : Prop :=
  ∀ r tail, r.rest = bytes ++ tail → f r = .ok (a, r.advance bytes.length)

theorem Dec.pure (a : α) : Dec (pure a : R α) [] a := fun _ _ _ => rfl

theorem Dec.bind {f : R α} {g : α → R β} {b1 b2 : List UInt8} {a : α} {c : β}
    (h1 : Dec f b1 a) (h2 : Dec (g a) b2 c) : Dec (f >>= g) (b1 ++ b2) c := by
  intro r tail h
  rw [bind_apply, h1 r (b2 ++ tail) (by rw [h, List.append_assoc])]
  have := h2 (r.advance b1.length) tail (by simp [h])
  simp only [this, Reader.advance_advance, List.length_append]

/-- `bind` where the second part consumes nothing. -/
theorem Dec.bind_nil {f : R α} {g : α → R β} {b : List UInt8} {a : α} {c : β}
    (h1 : Dec f b a) (h2 : Dec (g a) [] c) : Dec (f >>= g) b c := by
  have := h1.bind h2
  rwa [List.append_nil] at this

theorem Dec.nil_bind {f : R α} {g : α → R β} {b : List UInt8} {a : α} {c : β}
    (h1 : Dec f [] a) (h2 : Dec (g a) b c) : Dec (f >>= g) b c := h1.bind h2

theorem Dec.map {f : R α} {g : α → β} {b : List UInt8} {a : α} (h : Dec f b a) :
    Dec (do let x ← f; Pure.pure (g x)) b (g a) := h.bind_nil (.pure _)

theorem Dec.readPos {g : Nat → R β} {b : List UInt8} {c : β} (h : ∀ n, Dec (g n) b c) :
    Dec (readPos >>= g) b c := by
  intro r tail hr
  exact h _ r tail hr

theorem Dec.ite_pos {c : Prop} [Decidable c] {f g : R α} {b a} (hc : c) (h : Dec f b a) :
    Dec (if c then f else g) b a := by rwa [if_pos hc]

theorem Dec.ite_neg {c : Prop} [Decidable c] {f g : R α} {b a} (hc : ¬ c) (h : Dec g b a) :
    Dec (if c then f else g) b a := by rwa [if_neg hc]

theorem Dec.congr {f g : R α} {b a} (h : Dec f b a) (e : g = f) : Dec g b a := e ▸ h

theorem Dec.readU8 (x : UInt8) : Dec readU8 [x] x := fun r tail h => readU8_cons h

theorem Dec.readBytes (bs : List UInt8) : Dec (readBytes bs.length) bs bs := by
  intro r tail h
  rw [readBytes_eq, if_pos (by rw [h]; simp), h]
  simp

theorem Dec.u32 (v : BitVec 32) : Dec readVarU32 (encodeU32 v) v :=
  fun r tail h => c04_u32_roundtrip v r tail h
theorem Dec.u64 (v : BitVec 64) : Dec readVarU64 (encodeU64 v) v :=
  fun r tail h => c04_u64_roundtrip v r tail h
theorem Dec.i32 (v : BitVec 32) : Dec readVarI32 (encodeI32 v) v :=
  fun r tail h => c04_i32_roundtrip v r tail h
theorem Dec.i64 (v : BitVec 64) : Dec readVarI64 (encodeI64 v) v :=
  fun r tail h => c04_i64_roundtrip v r tail h
theorem Dec.s33 (v : BitVec 64) (hv : -(2 ^ 27 : Int) ≤ v.toInt ∧ v.toInt < 2 ^ 32) :
    Dec readVarS33 (encodeI64 v) v :=
  fun r tail h => c04_s33_roundtrip v r tail hv h

theorem Dec.skip {f : R Unit} {b : List UInt8} (h : Dec f b ()) (r : Reader) (tail : List UInt8)
    (hr : r.rest = b ++ tail) :
    skip f r = .ok (⟨b, 0, r.originalPosition⟩, r.advance b.length) := by
  unfold Reader.skip
  rw [h r tail hr]
  have : (r.buffer.drop r.position) = b ++ tail := hr
  simp [this]

/-- Two encodings that the same reader decodes cannot overlap: if one byte string starts
with both, they are equal and so are the values. -/
theorem Dec.unique {f : R α} {b1 b2 t1 t2 : List UInt8} {a1 a2 : α} (h1 : Dec f b1 a1)
    (h2 : Dec f b2 a2) (he : b1 ++ t1 = b2 ++ t2) : b1 = b2 ∧ a1 = a2 ∧ t1 = t2 := by
  have e1 := h1 (Reader.new (b1 ++ t1) 0) t1 rfl
  have e2 := h2 (Reader.new (b1 ++ t1) 0) t2 (by rw [← he]; rfl)
  rw [e1] at e2
  have hl : b1.length = b2.length := by
    have := congrArg (fun x => match x with | Except.ok (_, r) => r.position | _ => 0) e2
    simpa [Reader.new] using this
  have hv : a1 = a2 := by
    injection e2 with e2
    exact (Prod.mk.inj e2).1
  obtain ⟨h3, h4⟩ := List.append_inj he hl
  exact ⟨h3, hv, h4⟩

theorem Dec.many {f : R α} {enc : α → List UInt8} {xs : List α}
    (h : ∀ x ∈ xs, Dec f (enc x) x) : Dec (readMany f xs.length) (xs.flatMap enc) xs := by
  induction xs with
  | nil => exact .pure _
  | cons x xs ih =>
    have h1 := h x (List.mem_cons_self ..)
    have h2 := ih fun y hy => h y (List.mem_cons_of_mem _ hy)
    simp only [List.flatMap_cons]
    exact h1.bind (h2.bind_nil (.pure _))

/-! ### Relational variant -/

/-- Like `Dec`, but the value is only described by a predicate. -/
def DecP (f : R α) (bytes : List UInt8) (P : α → Prop) : Prop :=
  ∀ r tail, r.rest = bytes ++ tail → ∃ a, f r = .ok (a, r.advance bytes.length) ∧ P a

theorem Dec.toP {f : R α} {b : List UInt8} {a : α} {P : α → Prop} (h : Dec f b a) (hp : P a) :
    DecP f b P := fun r tail hr => ⟨a, h r tail hr, hp⟩

theorem DecP.mono {f : R α} {b : List UInt8} {P Q : α → Prop} (h : DecP f b P)
    (hpq : ∀ a, P a → Q a) : DecP f b Q := fun r tail hr =>
  let ⟨a, h1, h2⟩ := h r tail hr
  ⟨a, h1, hpq a h2⟩

theorem DecP.pure {a : α} {P : α → Prop} (h : P a) : DecP (pure a : R α) [] P :=
  (Dec.pure a).toP h

theorem DecP.bind {f : R α} {g : α → R β} {b1 b2 : List UInt8} {P : α → Prop} {Q : β → Prop}
    (h1 : DecP f b1 P) (h2 : ∀ a, P a → DecP (g a) b2 Q) : DecP (f >>= g) (b1 ++ b2) Q := by
  intro r tail h
  obtain ⟨a, e1, p1⟩ := h1 r (b2 ++ tail) (by rw [h, List.append_assoc])
  obtain ⟨c, e2, p2⟩ := h2 a p1 (r.advance b1.length) tail (by simp [h])
  refine ⟨c, ?_, p2⟩
  rw [bind_apply, e1]
  simp only [e2, Reader.advance_advance, List.length_append]

theorem DecP.bind_nil {f : R α} {g : α → R β} {b : List UInt8} {P : α → Prop} {Q : β → Prop}
    (h1 : DecP f b P) (h2 : ∀ a, P a → DecP (g a) [] Q) : DecP (f >>= g) b Q := by
  have := h1.bind h2
  rwa [List.append_nil] at this

theorem Dec.bindP {f : R α} {g : α → R β} {b1 b2 : List UInt8} {a : α} {Q : β → Prop}
    (h1 : Dec f b1 a) (h2 : DecP (g a) b2 Q) : DecP (f >>= g) (b1 ++ b2) Q :=
  (h1.toP (P := (· = a)) rfl).bind fun _ e => e ▸ h2

theorem DecP.readPos {g : Nat → R β} {b : List UInt8} {Q : β → Prop} (h : ∀ n, DecP (g n) b Q) :
    DecP (readPos >>= g) b Q := fun r tail hr => h _ r tail hr

theorem DecP.congr {f g : R α} {b P} (h : DecP f b P) (e : g = f) : DecP g b P := e ▸ h

theorem DecP.map {f : R α} {g : α → β} {b : List UInt8} {P : α → Prop} {Q : β → Prop}
    (h : DecP f b P) (hq : ∀ a, P a → Q (g a)) : DecP (do let x ← f; Pure.pure (g x)) b Q :=
  h.bind_nil fun a ha => .pure (hq a ha)

/-- Two encodings that the same reader decodes cannot overlap. -/
theorem DecP.unique {f : R α} {b1 b2 t1 t2 : List UInt8} {P1 P2 : α → Prop} (h1 : DecP f b1 P1)
    (h2 : DecP f b2 P2) (he : b1 ++ t1 = b2 ++ t2) : b1 = b2 ∧ t1 = t2 ∧ ∃ a, P1 a ∧ P2 a := by
  obtain ⟨a1, e1, p1⟩ := h1 (Reader.new (b1 ++ t1) 0) t1 rfl
  obtain ⟨a2, e2, p2⟩ := h2 (Reader.new (b1 ++ t1) 0) t2 (by rw [← he]; rfl)
  rw [e1] at e2
  injection e2 with e2
  have hl : b1.length = b2.length := by
    have := congrArg Reader.position (Prod.mk.inj e2).2
    simpa [Reader.new] using this
  obtain ⟨h3, h4⟩ := List.append_inj he hl
  refine ⟨h3, h4, a1, p1, ?_⟩
  rw [(Prod.mk.inj e2).1]; exact p2

theorem DecP.many {f : R α} {enc : β → List UInt8} {P : α → β → Prop} {xs : List β}
    (h : ∀ x ∈ xs, DecP f (enc x) (P · x)) :
    DecP (readMany f xs.length) (xs.flatMap enc) (List.Forall₂ P · xs) := by
  induction xs with
  | nil => exact .pure .nil
  | cons x xs ih =>
    have h1 := h x (List.mem_cons_self ..)
    have h2 := ih fun y hy => h y (List.mem_cons_of_mem _ hy)
    simp only [List.flatMap_cons]
    exact h1.bind fun a ha => h2.bind_nil fun as has => .pure (.cons ha has)

end Verif.Reader
