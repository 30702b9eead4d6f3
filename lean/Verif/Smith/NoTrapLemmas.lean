import Verif.Smith.Runs
import Verif.Smith.NoTrapSpec
/-
Lemmas about code that does not trap: integers and memory.
-/
namespace Verif.Smith

open Spec

variable {S P : Type} {W : World S P} {M : Nat → Option (Func P)}

@[simp] theorem int?_ofInt (t : ITy) (b : BitVec t.bits) : (Val.ofInt t b).int? t = some b := by cases t <;> rfl

@[simp] theorem flt?_ofFlt (t : FTy) (b : BitVec t.bits) : (Val.ofFlt t b).flt? t = some b := by cases t <;> rfl

theorem ofInt_ty (t : ITy) (b : BitVec t.bits) : (Val.ofInt t b).ty = .int t := by cases t <;> rfl

@[simp] theorem update_eq (f : Nat → Val) (i : Nat) (v : Val) : update f i v i = v := by simp [update]

theorem update_of_ne (f : Nat → Val) {i j : Nat} (v : Val) (h : j ≠ i) : update f i v j = f j := by simp [update, h]

/-- Instructions one after the other. -/
def ops : List (Op P) → Code P → Code P
  | [], k => k
  | o :: os, k => .op o (ops os k)

/-- What they do if none traps. -/
def steps (W : World S P) : List (Op P) → St S → Option (St S)
  | [], st => some st
  | o :: os, st =>
    match step W o st with
    | .ok st' => steps W os st'
    | _ => none

theorem Runs.ops {os : List (Op P)} {k : Code P} {st st' : St S} {r : Out S} (h : steps W os st = some st')
    (hk : Runs W M k st' r) : Runs W M (ops os k) st r := by
  induction os generalizing st with
  | nil => cases h; exact hk
  | cons o os ih =>
    simp only [steps] at h
    split at h
    · exact .op ‹_› (ih h)
    · cases h

/-- A block that is left by a branch to it or normally. -/
theorem Runs.block0 {body k : Code P} {st st1 : St S} {r : Out S}
    (hb : Runs W M body { st with stack := [] } (.branch 0 st1) ∨ Runs W M body { st with stack := [] } (.normal st1))
    (hk : Runs W M k { st1 with stack := st.stack } r) : Runs W M (.block .block 0 0 body k) st r := by
  have e : st.enter 0 = { st with stack := [] } := by simp [St.enter]
  have e1 : st1.leave 0 (st.stack.drop 0) = { st1 with stack := st.stack } := by simp [St.leave]
  rcases hb with hb | hb
  · exact .block (o := .branch 0 st1) (by rw [e]; exact hb) (by simp only [Smith.leave, e1]; exact hk)
  · exact .block (o := .normal st1) (by rw [e]; exact hb) (by simp only [Smith.leave, e1]; exact hk)

/-- A block that is left by a branch further out. -/
theorem Runs.block_out {body k : Code P} {st st1 : St S} {l : Nat}
    (hb : Runs W M body { st with stack := [] } (.branch (l + 1) st1)) :
    Runs W M (.block .block 0 0 body k) st (.branch l st1) := by
  have e : st.enter 0 = { st with stack := [] } := by simp [St.enter]
  exact .block (o := .branch (l + 1) st1) (by rw [e]; exact hb) rfl

theorem Runs.brIf_false {l : Nat} {k : Code P} {st : St S} {s : List Val} {r : Out S} (hs : st.stack = .i32 0 :: s)
    (hk : Runs W M k { st with stack := s } r) : Runs W M (.ctl (.brIf l) k) st r :=
  .next (by simp [jump, hs, brWhen]) hk

theorem Runs.brIf_true {l : Nat} {k : Code P} {st : St S} {s : List Val} (hs : st.stack = .i32 1 :: s) :
    Runs W M (.ctl (.brIf l) k) st (.branch l { st with stack := s }) :=
  .out (by simp [jump, hs, brWhen]) nofun

theorem Runs.brIf {l : Nat} {k : Code P} {st : St S} {s : List Val} {c : Bool} {r : Out S} (hs : st.stack = .ofBool c :: s)
    (hf : c = false → Runs W M k { st with stack := s } r) (ht : c = true → r = .branch l { st with stack := s }) :
    Runs W M (.ctl (.brIf l) k) st r := by
  cases c with
  | false => exact .brIf_false hs (hf rfl)
  | true => rw [ht rfl]; exact .brIf_true hs

/-- An `if` with a boolean. -/
theorem Runs.ifThen0 {a k : Code P} {st st1 : St S} {s : List Val} {c : Bool} {r : Out S} (hs : st.stack = .ofBool c :: s)
    (ht : c = true → Runs W M a { st with stack := [] } (.normal st1))
    (hf : c = false → { st1 with stack := s } = { st with stack := s })
    (hk : Runs W M k { st1 with stack := s } r) : Runs W M (.ifThen 0 0 a k) st r := by
  cases c with
  | false => exact .ifThen_false hs (by rw [← hf rfl]; exact hk)
  | true =>
    refine .ifThen_true hs (by decide) (o := .normal st1) ?_ ?_
    · simpa [St.enter] using ht rfl
    · simp only [Smith.leave, Then, St.leave, List.take_zero, List.nil_append, List.drop_zero]
      exact hk

/-- An `if` with two branches. -/
theorem Runs.ifElse0 {a b k : Code P} {st st1 : St S} {s : List Val} {c : Bool} {r : Out S} (hs : st.stack = .ofBool c :: s)
    (ht : c = true → Runs W M a { st with stack := [] } (.normal st1))
    (hf : c = false → Runs W M b { st with stack := [] } (.normal st1))
    (hk : Runs W M k { st1 with stack := s } r) : Runs W M (.ifElse 0 0 a b k) st r := by
  have hk' : Then W M (Smith.leave 0 (s.drop 0) (.normal st1)) k r := by
    simp only [Smith.leave, Then, St.leave, List.take_zero, List.nil_append, List.drop_zero]
    exact hk
  cases c with
  | false => exact .ifElse hs (by simpa [St.enter] using hf rfl) hk'
  | true => exact .ifElse hs (by simpa [St.enter] using ht rfl) hk'

/-! ### Division -/

theorem eval_divisor {w : Nat} (hw : 1 < w) (d : IDiv) (a b : BitVec w) (hb : b ≠ 0)
    (hm : d = .divS → ¬ (a = BitVec.intMin w ∧ b = -1)) : ∃ r, d.eval a b = some r := by
  have hn : b.toNat ≠ 0 := fun h => hb (BitVec.eq_of_toNat_eq (by simpa using h))
  have hi : b.toInt ≠ 0 := fun h => hb (BitVec.eq_of_toInt_eq (by simpa using h))
  cases d with
  | divU => exact ⟨_, by simp only [IDiv.eval, if_neg hn]; rfl⟩
  | remU => exact ⟨_, by simp only [IDiv.eval, if_neg hn]; rfl⟩
  | remS => exact ⟨_, by simp only [IDiv.eval, if_neg hi]; rfl⟩
  | divS =>
    simp only [IDiv.eval, if_neg hi]
    refine ⟨_, if_neg ?_⟩
    intro hq
    refine hm rfl ?_
    have hlo := BitVec.le_toInt a
    have hhi := BitVec.toInt_lt (x := a)
    have hpos : (0 : Int) < 2 ^ (w - 1) := Int.pow_pos (by decide)
    -- the quotient is no greater than the dividend
    have habs : (a.toInt.tdiv b.toInt).natAbs = a.toInt.natAbs / b.toInt.natAbs := Int.natAbs_tdiv ..
    have hq1 : (a.toInt.tdiv b.toInt).natAbs = (2 ^ (w - 1) : Nat) := by
      rw [hq]; exact_mod_cast Int.natAbs_pow 2 (w - 1)
    have ha : a.toInt.natAbs ≤ 2 ^ (w - 1) := by
      have : ((2 ^ (w - 1) : Nat) : Int) = (2 : Int) ^ (w - 1) := by simp
      omega
    have hb1 : b.toInt.natAbs = 1 := by
      rcases Nat.lt_or_ge b.toInt.natAbs 2 with h | h
      · omega
      · exfalso
        have h1 : a.toInt.natAbs / b.toInt.natAbs ≤ a.toInt.natAbs / 2 := Nat.div_le_div_left h (by decide)
        have h2 : 0 < 2 ^ (w - 1) := Nat.pow_pos (by decide)
        omega
    have ha1 : a.toInt.natAbs = 2 ^ (w - 1) := by rw [habs, hb1, Nat.div_one] at hq1; exact hq1
    have hc : ((2 ^ (w - 1) : Nat) : Int) = (2 : Int) ^ (w - 1) := by simp
    have ha2 : a.toInt = -2 ^ (w - 1) := by omega
    constructor
    · apply BitVec.eq_of_toInt_eq
      rw [ha2, BitVec.toInt_intMin_of_pos (by omega)]
    · apply BitVec.eq_of_toInt_eq
      rcases Int.natAbs_eq b.toInt with h | h
      · rw [hb1] at h
        rw [ha2, h] at hq
        simp only [Int.natCast_one, Int.tdiv_one] at hq
        omega
      · rw [h, hb1]
        rw [show (-1 : BitVec w) = BitVec.allOnes w from BitVec.neg_one_eq_allOnes, BitVec.toInt_allOnes, if_pos (by omega)]; rfl

theorem bits_gt (t : ITy) : 1 < t.bits := by cases t <;> decide

theorem intConst_eq (t : ITy) (x : Int) : (intConst t x : Instr P) = .op (.const (.ofInt t (BitVec.ofInt t.bits x))) := rfl

theorem intMinConst_eq (t : ITy) : (intMinConst t : Instr P) = .op (.const (.ofInt t (BitVec.intMin t.bits))) := by
  cases t <;> rfl

theorem dummyValue_eq (t : Ty) : (dummyValue t : Instr P) = .op (.const (.zero t)) := by
  cases t with
  | int t => cases t <;> rfl
  | flt t => cases t <;> rfl
  | v128 => rfl
  | ref => rfl

theorem nonzero_ne {w : Nat} (hw : 1 < w) (b : BitVec w) : nonzero b ≠ 0 := by
  unfold nonzero
  split
  · intro h
    have := congrArg BitVec.toNat h
    simp [show w ≠ 0 by omega] at this
  · assumption

theorem select_nonzero (t : ITy) (b : BitVec t.bits) :
    (if (if (b == 0) = true then (1 : BitVec 32) else 0) = 0 then Val.ofInt t b else .ofInt t (BitVec.ofInt t.bits 1)) =
      .ofInt t (nonzero b) := by
  unfold nonzero
  by_cases h : b = 0
  · subst h; simp
  · have h' : b ≠ 0#t.bits := h
    simp [h']

theorem unsigned_runs (t : ITy) (d : IDiv) (b : Builder) {st : St S} {x y r : BitVec t.bits} {s : List Val}
    (hs : st.stack = .ofInt t y :: .ofInt t x :: s) (hr : d.eval x (nonzero y) = some r) :
    ∃ c, (unsignedDivRem t d b).1 = c.flatten ∧ Runs W M c st
      (.normal { st with stack := .ofInt t r :: s, locals := update st.locals b.count (.ofInt t y) }) := by
  refine ⟨ops [.localSet b.count, .const (.ofInt t (BitVec.ofInt t.bits 1)), .localGet b.count, .localGet b.count,
    .eqz t, .select, .idiv t d] .nil, rfl, ?_⟩
  refine .ops ?_ (.nil _)
  simp only [steps, step, hs, update_eq, unop, binop, int?_ofInt, Val.ofBool, select_nonzero, hr, Option.map_some]

theorem signed_runs (t : ITy) (d : IDiv) (b : Builder) {st : St S} {x y r : BitVec t.bits} {s : List Val}
    (hs : st.stack = .ofInt t y :: .ofInt t x :: s) (hr : d.eval x (safeDivisor x y) = some r) :
    ∃ c, (signedDivRem t d b).1 = c.flatten ∧ Runs W M c st
      (.normal { st with
        stack := .ofInt t r :: s,
        locals := update (update st.locals b.count (.ofInt t (safeDivisor x y))) (b.count + 1) (.ofInt t x) }) := by
  refine ⟨ops [.localSet b.count, .const (.ofInt t (BitVec.ofInt t.bits 1)), .localGet b.count, .localGet b.count,
    .eqz t, .select, .localSet b.count, .localSet (b.count + 1)]
    (.block .block 0 0 (.block .block 0 0
      (ops [.localGet (b.count + 1), .localGet b.count, .localSet b.count, .localTee (b.count + 1),
        .const (.ofInt t (BitVec.intMin t.bits)), .irel t .ne]
        (.ctl (.brIf 0) (ops [.localGet b.count, .const (.ofInt t (BitVec.ofInt t.bits (-1))), .irel t .ne]
          (.ctl (.brIf 0) (ops [.const (.ofInt t (BitVec.ofInt t.bits 1)), .localSet b.count] (.ctl (.br 1) .nil))))))
        .nil)
      (ops [.localGet (b.count + 1), .localGet b.count, .idiv t d] .nil)), ?_, ?_⟩
  · simp only [signedDivRem, allocLocal, intMinConst_eq, List.length_append]; rfl
  have hn : b.count + 1 ≠ b.count := by omega
  have hsw : ∀ (f : Nat → Val) u v w, update (update (update f b.count u) (b.count + 1) v) b.count w =
      update (update f b.count w) (b.count + 1) v := by
    intro f u v w; funext j; simp only [update]; split <;> split <;> simp_all
  have hself : ∀ (f : Nat → Val) u v, update (update f b.count u) b.count v = update f b.count v := by
    intro f u v; funext j; simp only [update]; split <;> rfl
  have hself1 : ∀ (f : Nat → Val) u v, update (update f (b.count + 1) u) (b.count + 1) v = update f (b.count + 1) v := by
    intro f u v; funext j; simp only [update]; split <;> rfl
  have hget : ∀ (f : Nat → Val) u v, update (update f b.count u) (b.count + 1) v b.count = u := by
    intro f u v; rw [update_of_ne _ _ (Ne.symm hn), update_eq]
  refine .ops (st' := { st with
    stack := s, locals := update (update st.locals b.count (.ofInt t (nonzero y))) (b.count + 1) (.ofInt t x) }) ?_ ?_
  · simp only [steps, step, hs, update_eq, unop, int?_ofInt, Val.ofBool, select_nonzero, hself]
  -- the state after the blocks
  have hm1 : (BitVec.ofInt t.bits (-1)) = (-1 : BitVec t.bits) := by cases t <;> rfl
  refine .block0 (st1 := { st with
    stack := [],
    locals := update (update st.locals b.count (.ofInt t (safeDivisor x y))) (b.count + 1) (.ofInt t x) }) ?_ ?_
  · by_cases hx : x = BitVec.intMin t.bits ∧ nonzero y = -1
    · have hsafe : safeDivisor x y = 1 := by
        obtain ⟨hx, hy⟩ := hx
        unfold nonzero at hy
        unfold safeDivisor
        split at hy
        · rw [if_pos (.inl ‹_›)]
        · rw [if_pos (.inr ⟨hx, hy⟩)]
      refine .inl (.block_out ?_)
      refine .ops (st' := { st with
        stack := [.ofBool false],
        locals := update (update st.locals b.count (.ofInt t (nonzero y))) (b.count + 1) (.ofInt t x) }) ?_ ?_
      · simp only [steps, step, update_eq, hget, hself1, hsw, binop, int?_ofInt, IRel.eval, hx.1, bne_self_eq_false]
      refine .brIf (c := false) rfl (fun _ => ?_) nofun
      refine .ops (st' := { st with
        stack := [.ofBool false],
        locals := update (update st.locals b.count (.ofInt t (nonzero y))) (b.count + 1) (.ofInt t x) }) ?_ ?_
      · simp only [steps, step, hget, binop, int?_ofInt, IRel.eval, hx.2, hm1, bne_self_eq_false]
      refine .brIf (c := false) rfl (fun _ => ?_) nofun
      refine .ops (st' := { st with
        stack := [],
        locals := update (update st.locals b.count (.ofInt t (safeDivisor x y))) (b.count + 1) (.ofInt t x) }) ?_ ?_
      · simp only [steps, step, hsw, hsafe]; rfl
      exact .out rfl nofun
    · have hsafe : safeDivisor x y = nonzero y := by
        unfold nonzero safeDivisor
        unfold nonzero at hx
        by_cases hy : y = 0
        · rw [if_pos hy, if_pos (.inl hy)]
        · rw [if_neg hy] at hx
          rw [if_neg hy, if_neg (by rintro (h | h); exacts [hy h, hx h])]
      rw [hsafe]
      refine .inr (.block0 (st1 := { st with
        stack := [],
        locals := update (update st.locals b.count (.ofInt t (nonzero y))) (b.count + 1) (.ofInt t x) }) (.inl ?_) (.nil _))
      refine .ops (st' := { st with
        stack := [.ofBool (x != BitVec.intMin t.bits)],
        locals := update (update st.locals b.count (.ofInt t (nonzero y))) (b.count + 1) (.ofInt t x) }) ?_ ?_
      · simp only [steps, step, update_eq, hget, hself1, hsw, binop, int?_ofInt, IRel.eval]
      refine .brIf rfl (fun h1 => ?_) (fun _ => rfl)
      refine .ops (st' := { st with
        stack := [.ofBool (nonzero y != -1)],
        locals := update (update st.locals b.count (.ofInt t (nonzero y))) (b.count + 1) (.ofInt t x) }) ?_ ?_
      · simp only [steps, step, hget, binop, int?_ofInt, IRel.eval, hm1]
      refine .brIf rfl (fun h2 => ?_) (fun _ => rfl)
      exact absurd ⟨by simpa using h1, by simpa using h2⟩ hx
  · refine .ops ?_ (.nil _)
    simp only [steps, step, update_eq, hget, binop, int?_ofInt, hr, Option.map_some]

/-! ### Memory -/

theorem typeOfLoad_eq (l : Load) : typeOfLoad l = l.result := by cases l <;> rfl

theorem typeOfStore_eq (o : Store) : typeOfStore o = o.operand := by cases o <;> rfl

theorem bytes_le_load (l : Load) : l.bytes ≤ sizeOfType l.result := by cases l <;> decide

theorem bytes_le_store (o : Store) : o.bytes ≤ sizeOfType o.operand := by cases o <;> decide

theorem sizeOfType_le (t : Ty) : sizeOfType t ≤ 16 := by
  cases t with
  | int t => cases t <;> decide
  | flt t => cases t <;> decide
  | v128 => decide
  | ref => decide

/-- The operations of the bounds check. -/
def checkOps (t : ITy) (mem : MemType) (m : MemArg) (size addressLocal : Nat) : List (Op P) :=
  [.memorySize m.memory, .const (.ofInt t (BitVec.ofInt t.bits mem.pageSize)), .ibin t .mul,
    .const (.ofInt t (BitVec.ofInt t.bits (m.offset + size : Nat))), .localGet addressLocal, .ibin t .add, .irel t .leU]

/-- What the bounds check computes. -/
def beyond {w : Nat} (pages pageSize offset size : Nat) (a : BitVec w) : Bool :=
  (BitVec.ofNat w pages * BitVec.ofInt w pageSize).ule (BitVec.ofInt w (offset + size : Nat) + a)

theorem steps_check {t : ITy} (mem : MemType) {m : MemArg} (hW : W.memTy m.memory = t) (size l : Nat) (s : List Val)
    {locals : Nat → Val} (globals : Nat → Val) (store : S) (ticks : Nat) {a : BitVec t.bits} (hl : locals l = .ofInt t a) :
    steps W (checkOps t mem m size l) ⟨s, locals, globals, store, ticks⟩ =
      some ⟨.ofBool (beyond (W.pages m.memory store) mem.pageSize m.offset size a) :: s, locals, globals, store, ticks⟩ := by
  subst hW
  simp only [steps, checkOps, step, hl, binop, int?_ofInt, IBin.eval, IRel.eval, beyond]

theorem accesses_iff {w : Nat} (hw : 1 < w) {pages pageSize offset size : Nat} {a : BitVec w} (hoff : offset + 16 ≤ 2 ^ (w - 1) - 1)
    (hsize : size ≤ 16) : accesses w pages pageSize offset size a ↔ beyond pages pageSize offset size a = false ∧ a.sle 0 = false := by
  have hp : 2 ^ w = 2 * 2 ^ (w - 1) := by rw [← Nat.pow_succ']; congr 1; omega
  have hpos : 0 < 2 ^ (w - 1) := Nat.pow_pos (by decide)
  have h1 : a.sle 0 = false ↔ 0 < a.toInt := by
    rw [BitVec.sle_eq_decide]; simp
  have h2 : 0 < a.toInt → a.toNat < 2 ^ (w - 1) := by
    intro h
    rw [BitVec.toInt_eq_toNat_cond] at h
    split at h
    · omega
    · have := a.isLt; omega
  unfold accesses
  rw [and_comm, h1]
  refine and_congr_left fun h => ?_
  have h2 := h2 h
  have e1 : (BitVec.ofInt w (offset + size : Nat)).toNat = offset + size := by
    rw [BitVec.ofInt_natCast, BitVec.toNat_ofNat, Nat.mod_eq_of_lt (by omega)]
  simp only [beyond, BitVec.ule_eq_decide, decide_eq_false_iff_not, BitVec.toNat_add, BitVec.toNat_mul, e1, Nat.not_le]
  simp only [BitVec.toNat_ofNat, BitVec.ofInt_natCast, ← Nat.mul_mod]
  rw [Nat.mod_eq_of_lt (a := offset + size + a.toNat) (by omega)]
  omega

theorem bounds_of_accesses {w pages pageSize offset size n : Nat} {a : BitVec w} (h : accesses w pages pageSize offset size a)
    (hn : n ≤ size) : a.toNat + offset + n ≤ pages * pageSize := by
  have := h.2
  have := Nat.mod_le (pages * pageSize) (2 ^ w)
  omega

theorem load_runs {mem : MemType} (l : Load) {m : MemArg} (b : Builder) (hW : W.memTy m.memory = mem.addressType)
    (hp : W.pageSize m.memory = mem.pageSize) (hoff : m.offset + 16 ≤ 2 ^ (mem.addressType.bits - 1) - 1) {st : St S}
    {a : BitVec mem.addressType.bits} {s : List Val} (hs : st.stack = .ofInt mem.addressType a :: s) :
    ∃ c, (noTrapLoad mem l m b).1 = c.flatten ∧ ∃ v locals,
      (∀ M, Runs W M c st (.normal { st with stack := v :: s, locals := locals })) ∧
      (∀ i, i < b.count → locals i = st.locals i) ∧
      v = if accesses mem.addressType.bits (W.pages m.memory st.store) mem.pageSize m.offset (sizeOfType l.result) a
        then W.load l m.memory (a.toNat + m.offset) st.store else .zero l.result := by
  generalize ht : mem.addressType = t at *
  obtain ⟨stack, locals, globals, store, ticks⟩ := st
  cases hs
  refine ⟨ops [.localSet b.count]
    (.block .block 0 0 (.block .block 0 0
      (ops (checkOps t mem m (sizeOfType l.result) b.count)
        (.ctl (.brIf 0) (ops [.localGet b.count, .const (.ofInt t (BitVec.ofInt t.bits 0)), .irel t .leS]
          (.ctl (.brIf 0) (ops [.localGet b.count, .load l m, .localSet (b.count + 1)] (.ctl (.br 1) .nil))))))
        (ops [.const (.zero l.result), .localSet (b.count + 1)] .nil))
      (ops [.localGet (b.count + 1)] .nil)), ?_, ?_⟩
  · simp only [noTrapLoad, allocLocal, ht, typeOfLoad_eq, dummyValue_eq, List.length_append]; rfl
  have hacc := accesses_iff (bits_gt t) (pages := W.pages m.memory store) (pageSize := mem.pageSize) (a := a) hoff
    (sizeOfType_le l.result)
  generalize hv : (if accesses t.bits (W.pages m.memory store) mem.pageSize m.offset (sizeOfType l.result) a
        then W.load l m.memory (a.toNat + m.offset) store else .zero l.result) = v
  refine ⟨v, update (update locals b.count (.ofInt t a)) (b.count + 1) v, ?_, ?_, rfl⟩
  · intro M
    refine .ops (st' := ⟨s, update locals b.count (.ofInt t a), globals, store, ticks⟩) rfl ?_
    have h0 : BitVec.ofInt t.bits 0 = 0 := by cases t <;> rfl
    have hleS : steps W [.localGet b.count, .const (.ofInt t (BitVec.ofInt t.bits 0)), .irel t .leS]
        ⟨[], update locals b.count (.ofInt t a), globals, store, ticks⟩ =
        some ⟨[.ofBool (a.sle 0)], update locals b.count (.ofInt t a), globals, store, ticks⟩ := by
      simp only [steps, step, update_eq, binop, int?_ofInt, IRel.eval, h0]
    refine .block0 (st1 := ⟨[], update (update locals b.count (.ofInt t a)) (b.count + 1) v, globals, store, ticks⟩) ?_ ?_
    · by_cases ha : accesses t.bits (W.pages m.memory store) mem.pageSize m.offset (sizeOfType l.result) a
      · rw [if_pos ha] at hv
        obtain ⟨h1, h2⟩ := hacc.mp ha
        have hb := bounds_of_accesses ha (bytes_le_load l)
        rw [← hp] at hb
        refine .inl (.block_out (.ops (steps_check mem hW _ _ [] globals store ticks (update_eq ..)) ?_))
        rw [h1]
        refine .brIf (c := false) rfl (fun _ => .ops hleS ?_) nofun
        rw [h2]
        refine .brIf (c := false) rfl (fun _ => .ops ?_ (.out rfl nofun)) nofun
        subst hW
        simp only [steps, step, update_eq, int?_ofInt, if_pos hb, hv]
      · rw [if_neg ha] at hv
        refine .inr (.block0 (st1 := ⟨[], update locals b.count (.ofInt t a), globals, store, ticks⟩) (.inl ?_)
          (.ops (by rw [← hv]; rfl) (.nil _)))
        refine .ops (steps_check mem hW _ _ [] globals store ticks (update_eq ..)) ?_
        refine .brIf rfl (fun h1 => .ops hleS ?_) (fun _ => rfl)
        exact .brIf rfl (fun h2 => absurd (hacc.mpr ⟨h1, h2⟩) ha) (fun _ => rfl)
    · refine .ops ?_ (.nil _)
      simp only [steps, step, update_eq]
  · intro i hi
    rw [update_of_ne _ _ (by omega), update_of_ne _ _ (by omega)]

theorem store_runs {mem : MemType} (o : Store) {m : MemArg} (b : Builder) (hW : W.memTy m.memory = mem.addressType)
    (hp : W.pageSize m.memory = mem.pageSize) (hoff : m.offset + 16 ≤ 2 ^ (mem.addressType.bits - 1) - 1) {st : St S}
    {a : BitVec mem.addressType.bits} {v : Val} {s : List Val} (hs : st.stack = v :: .ofInt mem.addressType a :: s) :
    ∃ c, (noTrapStore mem o m b).1 = c.flatten ∧ ∃ store locals,
      (∀ M, Runs W M c st (.normal { st with stack := s, locals := locals, store := store })) ∧
      (∀ i, i < b.count → locals i = st.locals i) ∧
      store = if accesses mem.addressType.bits (W.pages m.memory st.store) mem.pageSize m.offset (sizeOfType o.operand) a
        then W.store o m.memory (a.toNat + m.offset) v st.store else st.store := by
  generalize ht : mem.addressType = t at *
  obtain ⟨stack, locals, globals, store, ticks⟩ := st
  cases hs
  refine ⟨ops [.localSet (b.count + 1), .localSet b.count]
    (ops (checkOps t mem m (sizeOfType o.operand) b.count)
      (.ifElse 0 0 .nil
        (ops [.localGet b.count, .const (.ofInt t (BitVec.ofInt t.bits 0)), .irel t .leS]
          (.ifElse 0 0 .nil (ops [.localGet b.count, .localGet (b.count + 1), .store o m] .nil) .nil))
        .nil)), ?_, ?_⟩
  · simp only [noTrapStore, allocLocal, ht, typeOfStore_eq, List.length_append]; rfl
  have hacc := accesses_iff (bits_gt t) (pages := W.pages m.memory store) (pageSize := mem.pageSize) (a := a) hoff
    (sizeOfType_le o.operand)
  generalize hv : (if accesses t.bits (W.pages m.memory store) mem.pageSize m.offset (sizeOfType o.operand) a
        then W.store o m.memory (a.toNat + m.offset) v store else store) = store'
  have hget : update (update locals (b.count + 1) v) b.count (.ofInt t a) (b.count + 1) = v := by
    rw [update_of_ne _ _ (by omega), update_eq]
  refine ⟨store', update (update locals (b.count + 1) v) b.count (.ofInt t a), ?_, ?_, rfl⟩
  · intro M
    refine .ops (st' := ⟨s, update (update locals (b.count + 1) v) b.count (.ofInt t a), globals, store, ticks⟩) rfl ?_
    have h0 : BitVec.ofInt t.bits 0 = 0 := by cases t <;> rfl
    have hleS : steps W [.localGet b.count, .const (.ofInt t (BitVec.ofInt t.bits 0)), .irel t .leS]
        ⟨[], update (update locals (b.count + 1) v) b.count (.ofInt t a), globals, store, ticks⟩ =
        some ⟨[.ofBool (a.sle 0)], update (update locals (b.count + 1) v) b.count (.ofInt t a), globals, store, ticks⟩ := by
      simp only [steps, step, update_eq, binop, int?_ofInt, IRel.eval, h0]
    refine .ops (steps_check mem hW _ _ s globals store ticks (update_eq ..)) ?_
    refine .ifElse0 (st1 := ⟨[], update (update locals (b.count + 1) v) b.count (.ofInt t a), globals, store', ticks⟩) rfl
      (fun h1 => ?_) (fun h1 => ?_) (.nil _)
    · rw [if_neg (fun ha => by simp [(hacc.mp ha).1] at h1)] at hv
      subst hv; exact .nil _
    · refine .ops hleS ?_
      refine .ifElse0 (st1 := ⟨[], update (update locals (b.count + 1) v) b.count (.ofInt t a), globals, store', ticks⟩) rfl
        (fun h2 => ?_) (fun h2 => ?_) (.nil _)
      · rw [if_neg (fun ha => by rw [(hacc.mp ha).2] at h2; cases h2)] at hv
        subst hv; exact .nil _
      · have ha := hacc.mpr ⟨h1, h2⟩
        rw [if_pos ha] at hv
        have hb := bounds_of_accesses ha (bytes_le_store o)
        rw [← hp] at hb
        refine .ops ?_ (.nil _)
        subst hW
        simp only [steps, step, update_eq, hget, int?_ofInt, if_pos hb, hv]
  · intro i hi
    rw [update_of_ne _ _ (by omega), update_of_ne _ _ (by omega)]

/-! ### Truncation -/

theorem truncate_bounds {lo hi : Int} {q : ℚ} (h1 : (lo : ℚ) ≤ q) (h2 : q ≤ (hi : ℚ)) :
    lo ≤ truncate q ∧ truncate q ≤ hi := by
  unfold truncate
  have hf : lo ≤ q.floor := Rat.le_floor_iff.mpr h1
  have hc : q.ceil ≤ hi := Rat.ceil_le_iff.mpr h2
  have hfc : q.floor ≤ q.ceil := by
    have a := Rat.floor_le (a := q)
    have b := Rat.le_ceil (x := q)
    exact Rat.intCast_le_intCast.mp (Rat.le_trans a b)
  split <;> omega

theorem fltInf_eq (t : FTy) : ∃ v, (fltInf t : Instr P) = .op (.const v) ∧ fltVal? t v = some (.inf false) := by
  cases t
  · exact ⟨_, rfl, by decide +kernel⟩
  · exact ⟨_, rfl, by decide +kernel⟩

theorem fltNegInf_eq (t : FTy) : ∃ v, (fltNegInf t : Instr P) = .op (.const v) ∧ fltVal? t v = some (.inf true) := by
  cases t
  · exact ⟨_, rfl, by decide +kernel⟩
  · exact ⟨_, rfl, by decide +kernel⟩

theorem zero_eq (t : FTy) : fltVal? t (.zero (.flt t)) = some (.fin 0) := by cases t <;> decide +kernel

theorem minInput_eq (dst : ITy) (src : FTy) (signed : Bool) :
    fltVal? src (minInput dst src signed) = some (.fin (minLimit dst src signed)) := by
  cases dst <;> cases src <;> cases signed <;> decide +kernel

theorem maxInput_eq (dst : ITy) (src : FTy) : fltVal? src (maxInput dst src) = some (.fin (maxLimit dst src)) := by
  cases dst <;> cases src <;> decide +kernel

theorem limits (dst : ITy) (src : FTy) (signed : Bool) :
    minLimit dst src signed ≤ maxLimit dst src ∧
      ∀ i, minLimit dst src signed ≤ i → i ≤ maxLimit dst src → inRange dst.bits signed i := by
  cases dst <;> cases src <;> cases signed <;> refine ⟨by decide, fun i h1 h2 => ?_⟩ <;>
    simp only [inRange, ITy.bits, minLimit, maxLimit, if_true, Bool.false_eq_true, if_false] at * <;> omega

theorem lt_fin (p q : ℚ) : FRel.eval .lt (.fin p) (.fin q) = decide (p < q) := rfl

theorem gt_fin (p q : ℚ) : FRel.eval .gt (.fin p) (.fin q) = decide (q < p) := rfl

/-- Is this not a number, or infinite? -/
def special : FVal → Bool
  | .fin _ => false
  | _ => true

theorem special_eq (x : FVal) (c : Bool × Bool × Bool)
    (hc : c = (FRel.eval .ne x x, FRel.eval .eq x (.inf false), FRel.eval .eq x (.inf true))) :
    (if c.1 then (1 : BitVec 32) else 0) ||| ((if c.2.1 then (1 : BitVec 32) else 0) ||| if c.2.2 then (1 : BitVec 32) else 0) =
      if special x then 1 else 0 := by
  subst hc
  cases x with
  | nan => decide
  | inf n => cases n <;> decide
  | fin q => simp [FRel.eval, FVal.eq, special]

/-- `if float < min { float = min }` and the like. -/
theorem clamp_runs {cond : List (Op P)} {v : Val} {l : Nat} {k : Code P} {st : St S} {c : Bool} {r : Out S}
    (hc : steps W cond st = some { st with stack := .ofBool c :: st.stack })
    (hk : Runs W M k { st with locals := if c then update st.locals l v else st.locals } r) :
    Runs W M (ops cond (.ifThen 0 0 (ops [.const v, .localSet l] .nil) k)) st r := by
  refine .ops hc ?_
  refine .ifThen0 (c := c) (s := st.stack)
    (st1 := { st with stack := [], locals := if c then update st.locals l v else st.locals }) rfl (fun h => ?_) (fun h => ?_) hk
  · subst h; exact .ops rfl (.nil _)
  · subst h; rfl

theorem trunc_runs (dst : ITy) (src : FTy) (signed : Bool) (b : Builder) {st : St S} {v : Val} {x : FVal} {s : List Val}
    (hs : st.stack = v :: s) (hx : fltVal? src v = some x) :
    ∃ c, (noTrapTrunc dst src signed b).1 = c.flatten ∧ ∃ r locals,
      truncTo dst.bits signed (.fin (clamp (minLimit dst src signed) (maxLimit dst src) (finite x))) = some r ∧
      (∀ M, Runs W M c st (.normal { st with stack := .ofInt dst r :: s, locals := locals })) ∧
      (∀ i, i < b.count → locals i = st.locals i) := by
  obtain ⟨inf, e1, hinf⟩ := fltInf_eq (P := P) src
  obtain ⟨neg, e2, hneg⟩ := fltNegInf_eq (P := P) src
  obtain ⟨hlh, hrange⟩ := limits dst src signed
  obtain ⟨stack, locals, globals, store, ticks⟩ := st
  cases hs
  have hlq : ((minLimit dst src signed : ℚ)) ≤ (maxLimit dst src : ℚ) := Rat.intCast_le_intCast.mpr hlh
  have hbounds : inRange dst.bits signed
      (truncate (clamp (minLimit dst src signed) (maxLimit dst src) (finite x))) := by
    have : ((minLimit dst src signed : ℚ)) ≤ clamp (minLimit dst src signed) (maxLimit dst src) (finite x) ∧
        clamp (minLimit dst src signed) (maxLimit dst src) (finite x) ≤ (maxLimit dst src : ℚ) := by
      unfold clamp
      split
      · exact ⟨Rat.le_refl, hlq⟩
      · split
        · exact ⟨hlq, Rat.le_refl⟩
        · exact ⟨Rat.not_lt.mp ‹_›, Rat.not_lt.mp ‹_›⟩
    have h := truncate_bounds this.1 this.2
    exact hrange _ h.1 h.2
  refine ⟨ops [.localTee b.count, .localGet b.count, .frel src .ne, .localGet b.count, .const inf, .frel src .eq,
      .localGet b.count, .const neg, .frel src .eq, .ibin .i32 .or, .ibin .i32 .or]
    (.ifThen 0 0 (ops [.const (.zero (.flt src)), .localSet b.count] .nil)
      (ops [.localGet b.count, .const (minInput dst src signed), .frel src .lt]
        (.ifThen 0 0 (ops [.const (minInput dst src signed), .localSet b.count] .nil)
          (ops [.localGet b.count, .const (maxInput dst src), .frel src .gt]
            (.ifThen 0 0 (ops [.const (maxInput dst src), .localSet b.count] .nil)
              (ops [.localGet b.count, .trunc dst src signed] .nil)))))), ?_,
    BitVec.ofInt dst.bits (truncate (clamp (minLimit dst src signed) (maxLimit dst src) (finite x))), ?_⟩
  · simp only [noTrapTrunc, allocLocal, dummyValue_eq, e1, e2]; rfl
  -- the values of the local after each step
  let v1 := if special x then .zero (.flt src) else v
  have hv1 : fltVal? src v1 = some (.fin (finite x)) := by
    simp only [v1]
    cases x with
    | fin q => exact hx
    | nan => exact zero_eq src
    | inf n => exact zero_eq src
  let c1 := decide (finite x < minLimit dst src signed)
  let v2 := if c1 then minInput dst src signed else v1
  let q2 := if c1 then (minLimit dst src signed : ℚ) else finite x
  have hv2 : fltVal? src v2 = some (.fin q2) := by
    simp only [v2, q2]
    split
    · exact minInput_eq ..
    · exact hv1
  let c2 := decide (maxLimit dst src < q2)
  let v3 := if c2 then maxInput dst src else v2
  have hv3 : fltVal? src v3 = some (.fin (clamp (minLimit dst src signed) (maxLimit dst src) (finite x))) := by
    simp only [v3, c2, q2, c1, decide_eq_true_eq, clamp]
    by_cases h1 : finite x < minLimit dst src signed
    · simp only [h1, if_true]
      rw [if_neg (Rat.not_lt.mpr hlq)]
      simp only [v2, c1, h1, decide_true, if_true]
      exact minInput_eq ..
    · simp only [h1, if_false]
      split
      · exact maxInput_eq ..
      · rw [hv2]; simp only [q2, c1, h1, decide_false, Bool.false_eq_true, if_false]
  have hup : ∀ (f : Nat → Val) u w, update (update f b.count u) b.count w = update f b.count w := by
    intro f u w; funext j; simp only [update]; split <;> rfl
  refine ⟨update locals b.count v3, by simp only [truncTo, if_pos hbounds], fun M => ?_, fun i hi => update_of_ne _ _ (by omega)⟩
  refine .ops (st' := ⟨.ofBool (special x) :: s, update locals b.count v, globals, store, ticks⟩) ?_ ?_
  · have := special_eq x _ rfl
    simp only at this
    simp only [steps, step, update_eq, binop, hx, hinf, hneg, Val.int?, IBin.eval, Val.ofBool, Val.ofInt]
    exact congrArg (fun z => some (⟨Val.i32 z :: s, update locals b.count v, globals, store, ticks⟩ : St S)) this
  refine .ifThen0 (c := special x) (s := s) (st1 := ⟨[], update locals b.count v1, globals, store, ticks⟩) rfl
    (fun h => .ops (by simp only [v1, h, if_true, steps, step, hup]) (.nil _)) (fun h => by simp only [v1, h]; rfl) ?_
  refine clamp_runs (c := c1) ?_ ?_
  · simp only [steps, step, update_eq, binop, hv1, minInput_eq, lt_fin, c1]
  have hl2 : (if c1 = true then update (update locals b.count v1) b.count (minInput dst src signed)
      else update locals b.count v1) = update locals b.count v2 := by
    simp only [v2, hup]; split <;> rfl
  simp only [hl2]
  refine clamp_runs (c := c2) ?_ ?_
  · simp only [steps, step, update_eq, binop, hv2, maxInput_eq, gt_fin, c2]
  have hl3 : (if c2 = true then update (update locals b.count v2) b.count (maxInput dst src)
      else update locals b.count v2) = update locals b.count v3 := by
    simp only [v3, hup]; split <;> rfl
  simp only [hl3]
  refine .ops ?_ (.nil _)
  simp only [steps, step, update_eq, unop, hv3, truncTo, if_pos hbounds, Option.map_some]

/-! ### NaN -/

theorem eq_self (x : FVal) : x.eq x = !decide (x = .nan) := by
  cases x <;> simp [FVal.eq]

theorem lane_bitselect (t : FTy) (x y c : BitVec 128) (i : Nat) :
    lane t (x &&& c ||| y &&& ~~~c) i = lane t x i &&& lane t c i ||| lane t y i &&& lane t (~~~c) i := by
  apply BitVec.eq_of_getLsbD_eq
  intro j hj
  simp [lane, hj]

theorem lane_not (t : FTy) (c : BitVec 128) (i : Nat) (hi : (i + 1) * t.bits ≤ 128) :
    lane t (~~~c) i = ~~~ lane t c i := by
  apply BitVec.eq_of_getLsbD_eq
  intro j hj
  rw [Nat.add_mul] at hi
  have : i * t.bits + j < 128 := by omega
  simp [lane, hj, this]

theorem lanes4 (m0 m1 m2 m3 : BitVec 32) :
    (m3 ++ m2 ++ m1 ++ m0).extractLsb' 0 32 = m0 ∧ (m3 ++ m2 ++ m1 ++ m0).extractLsb' 32 32 = m1 ∧
    (m3 ++ m2 ++ m1 ++ m0).extractLsb' 64 32 = m2 ∧ (m3 ++ m2 ++ m1 ++ m0).extractLsb' 96 32 = m3 := by
  refine ⟨?_, ?_, ?_, ?_⟩ <;> apply BitVec.eq_of_getLsbD_eq <;> intro j hj <;>
    simp only [BitVec.getLsbD_extractLsb', hj, decide_true, Bool.true_and, BitVec.getLsbD_append]
  · rw [if_pos (by omega), Nat.zero_add]
  · rw [if_neg (by omega), if_pos (by omega)]; congr 1; omega
  · rw [if_neg (by omega), if_neg (by omega), if_pos (by omega)]; congr 1; omega
  · rw [if_neg (by omega), if_neg (by omega), if_neg (by omega)]; congr 1; omega

theorem lanes2 (m0 m1 : BitVec 64) :
    (m1 ++ m0).extractLsb' 0 64 = m0 ∧ (m1 ++ m0).extractLsb' 64 64 = m1 := by
  refine ⟨?_, ?_⟩ <;> apply BitVec.eq_of_getLsbD_eq <;> intro j hj <;>
    simp only [BitVec.getLsbD_extractLsb', hj, decide_true, Bool.true_and, BitVec.getLsbD_append]
  · rw [if_pos (by omega), Nat.zero_add]
  · rw [if_neg (by omega)]; congr 1; omega

theorem lane_laneEq (t : FTy) (a b : BitVec 128) (i : Nat) (hi : (i + 1) * t.bits ≤ 128) :
    lane t (laneEq t a b) i = laneMask t a b i := by
  cases t with
  | f32 =>
    simp only [FTy.bits] at hi
    have h : i < 4 := by omega
    obtain ⟨h0, h1, h2, h3⟩ := lanes4 (laneMask .f32 a b 0) (laneMask .f32 a b 1) (laneMask .f32 a b 2) (laneMask .f32 a b 3)
    match i, h with
    | 0, _ => exact h0
    | 1, _ => exact h1
    | 2, _ => exact h2
    | 3, _ => exact h3
  | f64 =>
    simp only [FTy.bits] at hi
    have h : i < 2 := by omega
    obtain ⟨h0, h1⟩ := lanes2 (laneMask .f64 a b 0) (laneMask .f64 a b 1)
    match i, h with
    | 0, _ => exact h0
    | 1, _ => exact h1

/-- The kind of the scalar. -/
def scalarKind : FTy → FloatKind
  | .f32 => .f32
  | .f64 => .f64

/-- The kind of the vector. -/
def vectorKind : FTy → FloatKind
  | .f32 => .f32x4
  | .f64 => .f64x2

theorem canon_runs_scalar (t : FTy) (b : Builder) {st : St S} {x : BitVec t.bits} {s : List Val} (hs : st.stack = .ofFlt t x :: s) :
    ∃ c, (canonicalizeNan (scalarKind t) b).1 = c.flatten ∧
      Runs W M c st (.normal { st with stack := .ofFlt t (canonical t x) :: s, locals := update st.locals b.count (.ofFlt t x) }) := by
  refine ⟨ops [.localTee b.count, .const (.ofFlt t (canonicalNan t)), .localGet b.count, .localGet b.count, .frel t .eq, .select] .nil,
    ?_, ?_⟩
  · cases t <;> rfl
  · refine .ops ?_ (.nil _)
    simp only [steps, step, hs, update_eq, binop, fltVal?, flt?_ofFlt, Option.map_some, FRel.eval, eq_self, Val.ofBool]
    unfold canonical
    by_cases h : FVal.ofBits t.fmt x.toNat = .nan <;> simp [h]

/-- The vector of NaN. -/
def vectorNan : FTy → BitVec 128
  | .f32 => BitVec.ofNat 128 (canon32 ||| canon32 <<< 32 ||| canon32 <<< 64 ||| canon32 <<< 96)
  | .f64 => BitVec.ofNat 128 (canon64 ||| canon64 <<< 64)

theorem lane_nan (t : FTy) (i : Nat) (hi : (i + 1) * t.bits ≤ 128) : lane t (vectorNan t) i = canonicalNan t := by
  cases t with
  | f32 =>
    simp only [FTy.bits] at hi
    have h : i < 4 := by omega
    match i, h with
    | 0, _ => decide
    | 1, _ => decide
    | 2, _ => decide
    | 3, _ => decide
  | f64 =>
    simp only [FTy.bits] at hi
    have h : i < 2 := by omega
    match i, h with
    | 0, _ => decide
    | 1, _ => decide

theorem canon_runs_vector (t : FTy) (b : Builder) {st : St S} {x : BitVec 128} {s : List Val} (hs : st.stack = .v128 x :: s) :
    ∃ c, (canonicalizeNan (vectorKind t) b).1 = c.flatten ∧ ∃ y : BitVec 128,
      (∀ M, Runs W M c st (.normal { st with stack := .v128 y :: s, locals := update st.locals b.count (.v128 x) })) ∧
      ∀ i, (i + 1) * t.bits ≤ 128 → lane t y i = canonical t (lane t x i) := by
  refine ⟨ops [.localTee b.count, .const (.v128 (vectorNan t)), .localGet b.count, .localGet b.count, .veq t, .bitselect] .nil,
    ?_, x &&& laneEq t x x ||| vectorNan t &&& ~~~ laneEq t x x, fun M => .ops ?_ (.nil _), ?_⟩
  · cases t <;> rfl
  · simp only [steps, step, hs, update_eq, binop, Val.v128?]
  · intro i hi
    rw [lane_bitselect, lane_not t _ i hi, lane_laneEq t _ _ i hi, lane_nan t i hi]
    unfold laneMask canonical
    rw [eq_self]
    by_cases h : FVal.ofBits t.fmt (lane t x i).toNat = .nan <;> simp [h]

end Verif.Smith
