import Verif.Smith.NoTrapLemmas
import Verif.Smith.Props
import Verif.Float.Round
import Mathlib.Tactic.NormNum
/-
The properties C34 (generated code does not trap) and C47 (NaN canonicalization).
-/
namespace Verif.Smith.Props

open Verif.Smith Verif.Smith.Spec

variable {S P : Type} {W : World S P}

theorem evaluates_of_runs {is : List (Instr P)} {st st' : St S}
    (h : ∀ M, ∃ c, is = c.flatten ∧ Runs W M c st (.normal st')) : Evaluates W is st st' := by
  obtain ⟨c, hc, -⟩ := h fun _ => none
  refine ⟨c, hc ▸ parse_flatten c, fun M => ?_⟩
  obtain ⟨c', hc', -, n, hr⟩ := h M
  have : c' = c := Option.some.inj (by rw [← parse_flatten c', ← parse_flatten c, ← hc, ← hc'])
  subst this
  exact ⟨n, fun n' hn => exec_mono _ _ hn hr nofun⟩

theorem offset_le {t : ITy} {n : Nat} (h : n ≤ 2 ^ (t.bits - 1) - 1 - 16) : n + 16 ≤ 2 ^ (t.bits - 1) - 1 := by
  cases t <;> simp only [ITy.bits] at * <;> omega

/-- **C34**, unsigned division and remainder: no operands trap. Where the plain instruction does not trap, the result
is the same; otherwise the divisor is one. -/
theorem c34_unsigned (W : World S P) (t : ITy) (d : IDiv) (hd : d = .divU ∨ d = .remU) (b : Builder) (st : St S)
    (x y : BitVec t.bits) (s : List Val) (hs : st.stack = .ofInt t y :: .ofInt t x :: s) :
    ∃ r st', Evaluates W (unsignedDivRem t d b).1 st st' ∧ Keeps b.count st st' ∧ st'.store = st.store ∧
      st'.stack = .ofInt t r :: s ∧ d.eval x (nonzero y) = some r ∧ ∀ r', d.eval x y = some r' → r = r' := by
  obtain ⟨r, hr⟩ := eval_divisor (bits_gt t) d x (nonzero y) (nonzero_ne (bits_gt t) y)
    (fun h => by rcases hd with rfl | rfl <;> cases h)
  refine ⟨r, _, evaluates_of_runs fun M => unsigned_runs t d b hs hr, ⟨fun i hi => ?_, rfl, rfl⟩, rfl, rfl, hr, ?_⟩
  · exact update_of_ne _ _ (by omega)
  · intro r' hr'
    have hy : nonzero y = y := by
      unfold nonzero
      split
      · subst y
        rcases hd with rfl | rfl <;> simp [IDiv.eval] at hr'
      · rfl
    rw [hy] at hr
    exact Option.some.inj (hr.symm.trans hr')

/-- **C34**, signed division and remainder. -/
theorem c34_signed (W : World S P) (t : ITy) (d : IDiv) (hd : d = .divS ∨ d = .remS) (b : Builder) (st : St S)
    (x y : BitVec t.bits) (s : List Val) (hs : st.stack = .ofInt t y :: .ofInt t x :: s) :
    ∃ r st', Evaluates W (signedDivRem t d b).1 st st' ∧ Keeps b.count st st' ∧ st'.store = st.store ∧
      st'.stack = .ofInt t r :: s ∧ d.eval x (safeDivisor x y) = some r ∧ ∀ r', d.eval x y = some r' → r = r' := by
  have h10 : (1 : BitVec t.bits) ≠ 0 := by cases t <;> decide
  have h11 : (1 : BitVec t.bits) ≠ -1 := by cases t <;> decide
  have h0 : safeDivisor x y ≠ 0 := by
    unfold safeDivisor
    split
    · exact h10
    next hn => exact fun h => hn (.inl h)
  have hm : ¬ (x = BitVec.intMin t.bits ∧ safeDivisor x y = -1) := by
    unfold safeDivisor
    split
    · exact fun h => h11 h.2
    next hn => exact fun h => hn (.inr h)
  obtain ⟨r, hr⟩ := eval_divisor (bits_gt t) d x (safeDivisor x y) h0 fun _ => hm
  refine ⟨r, _, evaluates_of_runs fun M => signed_runs t d b hs hr, ⟨fun i hi => ?_, rfl, rfl⟩, rfl, rfl, hr, ?_⟩
  · dsimp only
    rw [update_of_ne _ _ (by omega), update_of_ne _ _ (by omega)]
  · intro r' hr'
    by_cases hy : y = 0 ∨ x = BitVec.intMin t.bits ∧ y = -1
    · rcases hy with hy | ⟨hx, hy⟩
      · subst y
        rcases hd with rfl | rfl <;> simp [IDiv.eval] at hr'
      · have hs1 : safeDivisor x y = 1 := if_pos (.inr ⟨hx, hy⟩)
        rw [hs1] at hr
        subst hx hy
        rcases hd with rfl | rfl
        · exfalso
          cases t
          · exact absurd hr' (by rw [show IDiv.eval IDiv.divS (BitVec.intMin ITy.i32.bits) (-1) = none from by decide]; nofun)
          · exact absurd hr' (by rw [show IDiv.eval IDiv.divS (BitVec.intMin ITy.i64.bits) (-1) = none from by decide]; nofun)
        · refine Option.some.inj (hr.symm.trans (Eq.trans ?_ hr'))
          cases t <;> decide
    · have hs1 : safeDivisor x y = y := if_neg hy
      rw [hs1] at hr
      exact Option.some.inj (hr.symm.trans hr')

/-- **C34**, loads: for every address, size of the memory and permitted offset there is no trap. The memory is read
if the address is positive and the access ends before the end of the memory (whose size in bytes is computed in the
address type); otherwise the result is zero. -/
theorem c34_load {mem : MemType} (l : Load) {m : MemArg} (b : Builder) (hW : W.memTy m.memory = mem.addressType)
    (hp : W.pageSize m.memory = mem.pageSize) (hoff : m.offset ≤ 2 ^ (mem.addressType.bits - 1) - 1 - 16) {st : St S}
    {a : BitVec mem.addressType.bits} {s : List Val} (hs : st.stack = .ofInt mem.addressType a :: s) :
    ∃ v st', Evaluates W (noTrapLoad mem l m b).1 st st' ∧ Keeps b.count st st' ∧ st'.store = st.store ∧
      st'.stack = v :: s ∧ v.ty = l.result ∧
      v = if accesses mem.addressType.bits (W.pages m.memory st.store) mem.pageSize m.offset (sizeOfType l.result) a
        then W.load l m.memory (a.toNat + m.offset) st.store else .zero l.result := by
  obtain ⟨c, hc, v, locals, hr, hl, hv⟩ := load_runs l b hW hp (offset_le hoff) hs
  refine ⟨v, { st with stack := v :: s, locals := locals }, evaluates_of_runs fun M => ⟨c, hc, hr M⟩, ⟨hl, rfl, rfl⟩,
    rfl, rfl, ?_, hv⟩
  rw [hv]
  split
  · exact W.load_ty ..
  · cases l <;> rfl

/-- **C34**, stores: there is no trap either; the memory is written under the same condition. -/
theorem c34_store {mem : MemType} (o : Store) {m : MemArg} (b : Builder) (hW : W.memTy m.memory = mem.addressType)
    (hp : W.pageSize m.memory = mem.pageSize) (hoff : m.offset ≤ 2 ^ (mem.addressType.bits - 1) - 1 - 16) {st : St S}
    {a : BitVec mem.addressType.bits} {v : Val} {s : List Val} (hs : st.stack = v :: .ofInt mem.addressType a :: s) :
    ∃ st', Evaluates W (noTrapStore mem o m b).1 st st' ∧ Keeps b.count st st' ∧ st'.stack = s ∧
      st'.store =
        if accesses mem.addressType.bits (W.pages m.memory st.store) mem.pageSize m.offset (sizeOfType o.operand) a
        then W.store o m.memory (a.toNat + m.offset) v st.store else st.store := by
  obtain ⟨c, hc, store, locals, hr, hl, hv⟩ := store_runs o b hW hp (offset_le hoff) hs
  exact ⟨{ st with stack := s, locals := locals, store := store }, evaluates_of_runs fun M => ⟨c, hc, hr M⟩, ⟨hl, rfl, rfl⟩,
    rfl, hv⟩

/-- **C34**, truncation of floats: there is no trap, and the result is the truncation of the nearest number between
limits; infinities and what is not a number count as zero. Between the limits the result is that of the plain
instruction. -/
theorem c34_trunc (W : World S P) (dst : ITy) (src : FTy) (signed : Bool) (b : Builder) (st : St S) (x : BitVec src.bits)
    (s : List Val) (hs : st.stack = .ofFlt src x :: s) :
    ∃ r st', Evaluates W (noTrapTrunc dst src signed b).1 st st' ∧ Keeps b.count st st' ∧ st'.store = st.store ∧
      st'.stack = .ofInt dst r :: s ∧
      truncTo dst.bits signed (.fin (clamp (minLimit dst src signed) (maxLimit dst src)
        (finite (.ofBits src.fmt x.toNat)))) = some r ∧
      ∀ q, FVal.ofBits src.fmt x.toNat = .fin q → (minLimit dst src signed : ℚ) ≤ q → q ≤ (maxLimit dst src : ℚ) →
        truncTo dst.bits signed (.ofBits src.fmt x.toNat) = some r := by
  obtain ⟨c, hc, r, locals, ht, hr, hl⟩ := trunc_runs (W := W) dst src signed b hs (x := .ofBits src.fmt x.toNat)
    (by simp [fltVal?])
  refine ⟨r, { st with stack := .ofInt dst r :: s, locals := locals }, evaluates_of_runs fun M => ⟨c, hc, hr M⟩,
    ⟨hl, rfl, rfl⟩, rfl, rfl, ht, ?_⟩
  intro q hq h1 h2
  rw [hq] at ht ⊢
  rwa [finite, clamp, if_neg (Rat.not_lt.mpr h1), if_neg (Rat.not_lt.mpr h2)] at ht

/-- **C34**, offsets: whatever is chosen from the ranges, no range is empty and the offset is small enough. -/
theorem c34_memory_offset {choose : Nat → Nat → Nat} (hc : ∀ lo hi, lo ≤ hi → lo ≤ choose lo hi ∧ choose lo hi ≤ hi)
    {abc : Nat × Nat × Nat} (h : abc.1 + abc.2.1 + abc.2.2 ≠ 0) (mem : MemType) :
    ∃ n, memoryOffset choose abc mem true = some n ∧ n ≤ 2 ^ (mem.addressType.bits - 1) - 1 - 16 := by
  obtain ⟨a, b, c⟩ := abc
  have key : ∀ lo hi, lo ≤ hi → ∃ n, (if lo ≤ hi then some (choose lo hi) else none) = some n ∧ n ≤ hi :=
    fun lo hi hl => ⟨_, if_pos hl, (hc lo hi hl).2⟩
  cases h64 : mem.memory64 <;>
    simp only [memoryOffset, h64, MemType.addressType, if_neg h, Nat.zero_le, if_true, Option.bind_some, ITy.bits,
      Bool.false_eq_true, if_false] <;>
    split
  all_goals try split
  all_goals
    first
    | exact ⟨_, rfl, Nat.le_trans (hc _ _ (Nat.zero_le _)).2 (Nat.min_le_right _ _)⟩
    | (rw [if_pos (Nat.min_le_right _ _)]; exact ⟨_, rfl, (hc _ _ (Nat.min_le_right _ _)).2⟩)
    | (rw [if_pos (Nat.le_refl _)]; exact ⟨_, rfl, (hc _ _ (Nat.le_refl _)).2⟩)

/-- The bits of limits are those of the literals in the source: their values are rounded to the nearest float. -/
theorem c34_constants :
    Float.Spec.Rounds Float.f32 2147483500 0x4EFFFFFF ∧
    Float.Spec.Rounds Float.f32 9223371500000000000 0x5EFFFFFF ∧
    Float.Spec.Rounds Float.f32 9223372000000000000 0x5F000000 ∧
    Float.Spec.Rounds Float.f64 9223372036854775000 0x43DFFFFFFFFFFFFF ∧
    Float.Spec.Rounds Float.f64 2147483647 0x41DFFFFFFFC00000 ∧
    Float.Spec.Rounds Float.f64 2147483648 0x41E0000000000000 := by
  refine ⟨Float.rounds_up ?_ (.inl ?_), Float.rounds_down ?_ (.inl ?_), Float.rounds_up ?_ (.inl ?_),
    Float.rounds_down ?_ (.inl ?_), Float.rounds_down ?_ (.inl ?_), Float.rounds_down ?_ (.inl ?_)⟩ <;>
    norm_num [Float.Spec.magnitude, Float.Spec.fracBits, Float.Spec.bias, Float.f32, Float.f64]

/-- **C47**, scalars: the code after a float instruction replaces every NaN by the canonical one and leaves other
floats (with the sign of zero) as they are. -/
theorem c47_scalar (W : World S P) (t : FTy) (b : Builder) (st : St S) (x : BitVec t.bits) (s : List Val)
    (hs : st.stack = .ofFlt t x :: s) :
    ∃ st', Evaluates W (canonicalizeNan (scalarKind t) b).1 st st' ∧ Keeps b.count st st' ∧ st'.store = st.store ∧
      st'.stack = .ofFlt t (canonical t x) :: s :=
  ⟨_, evaluates_of_runs fun _ => canon_runs_scalar t b hs, ⟨fun _ hi => update_of_ne _ _ (by omega), rfl, rfl⟩, rfl, rfl⟩

/-- **C47**, vectors: the same for each lane. -/
theorem c47_vector (W : World S P) (t : FTy) (b : Builder) (st : St S) (x : BitVec 128) (s : List Val)
    (hs : st.stack = .v128 x :: s) :
    ∃ y st', Evaluates W (canonicalizeNan (vectorKind t) b).1 st st' ∧ Keeps b.count st st' ∧ st'.store = st.store ∧
      st'.stack = .v128 y :: s ∧ ∀ i, (i + 1) * t.bits ≤ 128 → lane t y i = canonical t (lane t x i) := by
  obtain ⟨c, hc, y, hr, hy⟩ := canon_runs_vector (W := W) t b hs
  exact ⟨y, _, evaluates_of_runs fun M => ⟨c, hc, hr M⟩, ⟨fun _ hi => update_of_ne _ _ (by omega), rfl, rfl⟩, rfl, rfl, hy⟩

/-- **C47**, so what comes after cannot see which NaN an instruction gave: any two become the same bits, and these
are still a NaN. -/
theorem c47_deterministic (t : FTy) (x y : BitVec t.bits) (hx : FVal.ofBits t.fmt x.toNat = .nan)
    (hy : FVal.ofBits t.fmt y.toNat = .nan) : canonical t x = canonical t y ∧
      FVal.ofBits t.fmt (canonical t x).toNat = .nan := by
  simp only [canonical, hx, hy, if_true, true_and]
  cases t <;> decide +kernel

/-- A state with these operands. -/
def operands (s : List Val) : St Nat := ⟨s, fun _ => .i32 7, fun _ => .i32 0, 0, 0⟩

/-- Division by zero. -/
example : ∃ st', Evaluates world (unsignedDivRem .i32 .divU ⟨2, 0, []⟩).1 (operands [.i32 0, .i32 9]) st' ∧
    st'.stack = [.i32 9] ∧ st'.locals 1 = .i32 7 := by
  obtain ⟨r, st', h1, h2, -, h4, h5, -⟩ := c34_unsigned world .i32 .divU (.inl rfl) ⟨2, 0, []⟩ (operands [.i32 0, .i32 9]) 9 0 [] rfl
  have : r = 9 := Option.some.inj (h5.symm.trans (by decide))
  exact ⟨st', h1, by rw [h4, this]; rfl, h2.locals 1 (by decide)⟩

/-- The least number divided by minus one. -/
example : ∃ st', Evaluates world (signedDivRem .i64 .divS ⟨2, 0, []⟩).1
    (operands [.i64 (-1), .i64 (BitVec.intMin 64)]) st' ∧ st'.stack = [.i64 (BitVec.intMin 64)] := by
  obtain ⟨r, st', h1, -, -, h4, h5, -⟩ := c34_signed world .i64 .divS (.inl rfl) ⟨2, 0, []⟩
    (operands [.i64 (-1), .i64 (BitVec.intMin 64)]) (BitVec.intMin 64) (-1) [] rfl
  have : r = BitVec.intMin 64 := Option.some.inj (h5.symm.trans (by decide))
  exact ⟨st', h1, by rw [h4, this]; rfl⟩

/-- A 32-bit memory. -/
def memory32 : MemType := ⟨false, 1, none, 65536⟩

/-- A load whose effective address would overflow 32 bits, and one that is in bounds. -/
example (a : BitVec 32) (s : List Val) : ∃ v st',
    Evaluates world (noTrapLoad memory32 .i64Load ⟨0, 2147483631⟩ ⟨0, 0, []⟩).1 (operands (.i32 a :: s)) st' ∧
    st'.stack = v :: s ∧ v.ty = .int .i64 := by
  obtain ⟨v, st', h1, -, -, h4, h5, -⟩ := c34_load (W := world) (mem := memory32) .i64Load (m := ⟨0, 2147483631⟩) ⟨0, 0, []⟩ rfl rfl
    (by decide) (st := operands (.i32 a :: s)) (a := a) rfl
  exact ⟨v, st', h1, h4, h5⟩

example : accesses 32 1 65536 16 8 (1000 : BitVec 32) := by decide

example (v : Val) : ∃ st', Evaluates world (noTrapStore memory32 .f64Store ⟨0, 16⟩ ⟨0, 0, []⟩).1
    (operands [v, .i32 1000]) st' ∧ st'.stack = [] := by
  obtain ⟨st', h1, -, h3, -⟩ := c34_store (W := world) (mem := memory32) .f64Store (m := ⟨0, 16⟩) ⟨0, 0, []⟩ rfl rfl (by decide)
    (st := operands [v, .i32 1000]) (a := (1000 : BitVec 32)) rfl
  exact ⟨st', h1, h3⟩

/-- What is not a number becomes zero. -/
example : ∃ st', Evaluates world (noTrapTrunc .i32 .f32 true ⟨0, 0, []⟩).1 (operands [.f32 0x7FC00000]) st' ∧
    st'.stack = [.i32 0] := by
  obtain ⟨r, st', h1, -, -, h4, h5, -⟩ := c34_trunc world .i32 .f32 true ⟨0, 0, []⟩ (operands [.f32 0x7FC00000]) 0x7FC00000 [] rfl
  have : r = 0 := Option.some.inj (h5.symm.trans (by decide +kernel))
  exact ⟨st', h1, by rw [h4, this]; rfl⟩

example : ∃ n, memoryOffset (fun _ hi => hi) (0, 0, 1) memory32 true = some n ∧ n ≤ 2147483631 :=
  c34_memory_offset (fun _ _ h => ⟨h, Nat.le_refl _⟩) (by decide) memory32

/-- A negative NaN with a payload, and minus zero. -/
example : canonical .f32 0xFFC00123 = 0x7FC00000 ∧ canonical .f64 0x8000000000000000 = 0x8000000000000000 := by
  decide +kernel

example : ∃ st', Evaluates world (canonicalizeNan .f32 ⟨0, 0, []⟩).1 (operands [.f32 0xFFC00123]) st' ∧
    st'.stack = [.f32 0x7FC00000] := by
  obtain ⟨st', h1, -, -, h4⟩ := c47_scalar world .f32 ⟨0, 0, []⟩ (operands [.f32 0xFFC00123]) 0xFFC00123 [] rfl
  exact ⟨st', h1, h4.trans (by decide +kernel)⟩

example : ∃ y st', Evaluates world (canonicalizeNan .f64x2 ⟨0, 0, []⟩).1
    (operands [.v128 0xFFF00000000000013FF0000000000000]) st' ∧ st'.stack = [.v128 y] ∧ lane .f64 y 1 = 0x7FF8000000000000 ∧
    lane .f64 y 0 = 0x3FF0000000000000 := by
  obtain ⟨y, st', h1, -, -, h4, h5⟩ := c47_vector world .f64 ⟨0, 0, []⟩
    (operands [.v128 0xFFF00000000000013FF0000000000000]) _ [] rfl
  exact ⟨y, st', h1, h4, (h5 1 (by decide)).trans (by decide +kernel), (h5 0 (by decide)).trans (by decide +kernel)⟩

end Verif.Smith.Props
