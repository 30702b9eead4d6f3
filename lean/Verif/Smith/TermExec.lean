import Verif.Smith.TermLemmas
/-
Execution of instrumented code: lemmas.
-/
namespace Verif.Smith

variable {S P : Type} {W : World S P} {M : Nat → Option (Func P)}

theorem update_same (f : Nat → Val) (i : Nat) (v : Val) : update f i v i = v := by simp [update]

theorem update_ne (f : Nat → Val) {i j : Nat} (v : Val) (h : j ≠ i) : update f i v j = f j := by simp [update, h]

theorem runs_unreachable (st : St S) : Runs W M (.op .unreachable .nil) st (.trap st) := .op_trap rfl

theorem runs_check1_trap {g : Nat} {k : Code P} {st : St S} (h : st.globals g = .i32 0) :
    ∃ st' : St S, Runs W M (check1 g k) st (.trap st') ∧ st'.ticks = st.ticks := by
  refine ⟨_, .op rfl (.op (st' := { st with stack := .i32 1 :: st.stack }) ?_
    (.ifThen_true rfl (by decide) (runs_unreachable _) rfl)), rfl⟩
  simp only [step, h]; rfl

theorem runs_check1 {g : Nat} {k : Code P} {st : St S} {fuel : BitVec 32} {o : Out S} (h : st.globals g = .i32 fuel)
    (hf : fuel ≠ 0) (hk : Runs W M k { st with globals := update st.globals g (.i32 (fuel - 1)) } o) :
    Runs W M (check1 g k) st o := by
  refine .op rfl (.op (st' := { st with stack := .i32 0 :: st.stack }) ?_
    (.ifThen_false rfl (.op (st' := { st with stack := .i32 fuel :: st.stack }) ?_ (.op rfl
      (.op (st' := { st with stack := .i32 (fuel - 1) :: st.stack }) rfl (.op rfl hk))))))
  · have : (fuel == 0) = false := by simpa using hf
    have e : Val.ofBool (fuel == 0) = .i32 0 := by rw [this]; rfl
    simp only [step, h, unop, Val.int?]
    exact congrArg (fun v => Res.ok { st with stack := v :: st.stack }) e
  · simp only [step, h]

theorem runs_checkN_stuck {g l : Nat} {k : Code P} {st : St S} (h : ∀ n, st.locals l ≠ .i32 n) :
    Runs W M (checkN g l k) st .stuck := by
  refine .op rfl (.op rfl (.op_stuck ?_))
  simp only [step, binop]
  cases hl : st.locals l <;> first | exact absurd hl (h _) | rfl

theorem runs_checkN_trap {g l : Nat} {k : Code P} {st : St S} {fuel n : BitVec 32} (hg : st.globals g = .i32 fuel)
    (hl : st.locals l = .i32 n) (h : fuel.toNat ≤ n.toNat) :
    Runs W M (checkN g l k) st (.trap { st with stack := [] }) := by
  refine .op rfl (.op rfl (.op (st' := { st with stack := .i32 1 :: st.stack }) ?_
    (.ifThen_true rfl (by decide) (runs_unreachable _) rfl)))
  have : fuel.ule n = true := by simpa [BitVec.ule] using h
  have e : Val.ofBool (fuel.ule n) = .i32 1 := by rw [this]; rfl
  simp only [step, hg, hl, binop, Val.int?, IRel.eval]
  exact congrArg (fun v => Res.ok { st with stack := v :: st.stack }) e

theorem runs_checkN {g l : Nat} {k : Code P} {st : St S} {fuel n : BitVec 32} {o : Out S} (hg : st.globals g = .i32 fuel)
    (hl : st.locals l = .i32 n) (h : n.toNat < fuel.toNat)
    (hk : Runs W M k { st with globals := update st.globals g (.i32 (fuel - n)) } o) : Runs W M (checkN g l k) st o := by
  refine .op rfl (.op rfl (.op (st' := { st with stack := .i32 0 :: st.stack }) ?_
    (.ifThen_false rfl (.op (st' := { st with stack := .i32 fuel :: st.stack }) ?_
      (.op (st' := { st with stack := .i32 n :: .i32 fuel :: st.stack }) ?_
      (.op (st' := { st with stack := .i32 (fuel - n) :: st.stack }) rfl (.op rfl hk)))))))
  · have : fuel.ule n = false := by simpa [BitVec.ule] using h
    have e : Val.ofBool (fuel.ule n) = .i32 0 := by rw [this]; rfl
    simp only [step, hg, hl, binop, Val.int?, IRel.eval]
    exact congrArg (fun v => Res.ok { st with stack := v :: st.stack }) e
  · simp only [step, hg]
  · simp only [step, hl]

theorem int?_i32 {t : ITy} {n : BitVec 32} {n' : BitVec t.bits} (h : Val.int? t (.i32 n) = some n') :
    n'.toNat = n.toNat := by
  cases t <;> cases h
  rfl

theorem int?_i64 {t : ITy} {n : BitVec 64} {n' : BitVec t.bits} (h : Val.int? t (.i64 n) = some n') :
    n'.toNat = n.toNat := by
  cases t <;> cases h
  rfl

/-- Instructions that are kept do not change the fuel and the count. -/
theorem step_keep {g L : Nat} {o : Op P} (ho : Keep g L o) {st st' : St S} (h : step W o st = .ok st') :
    st'.globals g = st.globals g ∧ st'.ticks = st.ticks := by
  cases o <;> simp only [step, binop, unop, ofWorld] at h
  case bulk b => exact absurd rfl (ho.bulk b)
  case globalSet i =>
    split at h
    · cases h; exact ⟨update_ne _ _ (ho.gset i rfl).symm, rfl⟩
    · cases h
  all_goals (repeat' split at h) <;> cases h <;> exact ⟨rfl, rfl⟩

/-- After a bulk instruction. -/
theorem step_bulk {b : Bulk} {st st' : St S} (h : step W (.bulk b) st = .ok st') :
    ∃ x s n, st.stack = x :: s ∧ x.int? (W.lenTy b) = some n ∧ st'.globals = st.globals ∧ st'.locals = st.locals ∧
      st'.ticks = st.ticks + n.toNat % 2 ^ 32 ∧ W.bulk b st.stack st.store = some (st'.stack, st'.store) := by
  simp only [step] at h
  split at h
  · rename_i x s hs
    split at h
    · rename_i n hn
      cases hw : W.bulk b st.stack st.store with
      | none => rw [hw] at h; cases h
      | some y => rw [hw] at h; cases h; exact ⟨x, s, n, hs, hn, rfl, rfl, rfl, rfl⟩
    · cases h
  · cases h

/-- The fuel that is left and the count. -/
def Left (g bound total : Nat) (st : St S) : Prop :=
  ∃ fuel : BitVec 32, st.globals g = .i32 fuel ∧ fuel.toNat ≤ bound ∧ st.ticks + fuel.toNat = total

/-- What is known about ends. -/
def Post (g bound total : Nat) : Out S → Prop
  | .normal st | .branch _ st | .ret st | .exn _ st => Left g bound total st
  | .trap st => st.ticks ≤ total + 1
  | .stuck => True
  | .timeout => False

theorem Post.weaken {g b b' total : Nat} {o : Out S} (h : Post g b total o) (hb : b ≤ b') : Post g b' total o := by
  cases o <;> first | exact h | (obtain ⟨f, h1, h2, h3⟩ := h; exact ⟨f, h1, by omega, h3⟩)

theorem Post.leave {g b total : Nat} {o : Out S} (h : Post g b total o) (nr : Nat) (l : List Val) :
    Post g b total (leave nr l o) := by
  cases o with
  | branch n st => cases n <;> exact h
  | _ => exact h

theorem Post.handle {g b total : Nat} {o : Out S} (h : Post g b total o) (p : P) (nr : Nat) (l : List Val) :
    Post g b total (handle W p nr l o) := by
  cases o with
  | branch n st => cases n <;> exact h
  | exn vs st => simp only [Smith.handle]; split <;> exact h
  | _ => exact h

theorem Post.finish {g b total : Nat} {o : Out S} (h : Post g b total o) (fn : Func P) (st : St S) :
    Post g b total (fn.finish st o) := by
  cases o with
  | branch n st => cases n <;> first | exact h | exact trivial
  | _ => exact h

theorem Post.tail {g b total : Nat} {o : Out S} (h : Post g b total o) : Post g b total o.tail := by
  cases o <;> exact h

/-- All functions are instrumented. -/
def AllInst (m : Module P) (g : Nat) (M : Nat → Option (Func P)) : Prop :=
  ∀ f fn, M f = some fn → ∃ L c c', fn.body = check1 g c' ∧ Inst m g L c c'

/-- If what comes first leaves fuel, code after it ends. -/
theorem then_ends {g b total : Nat} {o : Out S} {k : Code P} (h : Post g b total o)
    (hk : ∀ st, Left g b total st → ∃ o, Runs W M k st o ∧ Post g b total o) :
    ∃ r, Then W M o k r ∧ Post g b total r := by
  cases o with
  | normal st => exact hk st h
  | _ => exact ⟨_, rfl, h⟩

theorem jump_cases (c : Ctl P) (st : St S) :
    (∃ s, jump W c st = .next { st with stack := s }) ∨ (∃ t f s, jump W c st = .call t f { st with stack := s }) ∨
    (∃ l s, jump W c st = .out (.branch l { st with stack := s })) ∨ jump W c st = .out (.ret st) ∨
    (∃ vs, jump W c st = .out (.exn vs st)) ∨ jump W c st = .out (.trap st) ∨ jump W c st = .out .stuck := by
  cases c with
  | br l => exact .inr (.inr (.inl ⟨l, st.stack, rfl⟩))
  | brIf l =>
    simp only [jump]
    split
    · unfold brWhen
      split
      · exact .inr (.inr (.inl ⟨l, _, rfl⟩))
      · exact .inl ⟨_, rfl⟩
    · simp
  | brTable ls d =>
    simp only [jump]
    split
    · exact .inr (.inr (.inl ⟨_, _, rfl⟩))
    · simp
  | brOn p l =>
    simp only [jump]
    split
    · unfold brWhen
      split
      · exact .inr (.inr (.inl ⟨l, _, rfl⟩))
      · exact .inl ⟨_, rfl⟩
    · simp
  | ret => simp [jump]
  | call f => exact .inr (.inl ⟨_, f, st.stack, rfl⟩)
  | retCall f => exact .inr (.inl ⟨_, f, st.stack, rfl⟩)
  | callDyn p =>
    simp only [jump]
    cases W.target p st.stack st.store with
    | none => simp [dynCall]
    | some x => exact .inr (.inl ⟨_, x.1, x.2, rfl⟩)
  | retCallDyn p =>
    simp only [jump]
    cases W.target p st.stack st.store with
    | none => simp [dynCall]
    | some x => exact .inr (.inl ⟨_, x.1, x.2, rfl⟩)
  | throw p =>
    simp only [jump]
    split
    · exact .inr (.inr (.inr (.inr (.inl ⟨_, rfl⟩))))
    · simp

theorem toNat_sub_one {f : BitVec 32} (h : f ≠ 0) : (f - 1).toNat + 1 = f.toNat := by
  have : f.toNat ≠ 0 := fun e => h (BitVec.eq_of_toNat_eq (by simpa using e))
  have h1 := f.isLt
  rw [BitVec.toNat_sub]
  simp
  omega

theorem toNat_sub_le {f n : BitVec 32} (h : n.toNat ≤ f.toNat) : (f - n).toNat + n.toNat = f.toNat := by
  rw [BitVec.toNat_sub_of_le (by simpa [BitVec.le_def] using h)]
  omega

theorem call_ends {m : Module P} {g gas : Nat} (hM : AllInst m g M)
    (ih : ∀ gas' < gas, ∀ L c c', Inst m g L c c' → ∀ (st : St S) (total : Nat), Left g gas' total st →
      ∃ o, Runs W M c' st o ∧ Post g gas' total o)
    (f : Nat) (st : St S) (total : Nat) (hl : Left g gas total st) : ∃ o, RunsCall W M f st o ∧ Post g gas total o := by
  obtain ⟨fuel, hg, hb, ht⟩ := hl
  cases hf : M f with
  | none =>
    refine ⟨_, .host hf, ?_⟩
    cases W.host f st.stack st.store with
    | none => simp only [hostRes, Post]; omega
    | some x => exact ⟨fuel, hg, hb, ht⟩
  | some fn =>
    obtain ⟨L, c, c', hbody, hi⟩ := hM f fn hf
    by_cases h0 : fuel = 0
    · subst h0
      obtain ⟨st', hr, ht'⟩ := runs_check1_trap (W := W) (M := M) (k := c') (st := fn.start st) (by exact hg)
      rw [← hbody] at hr
      refine ⟨_, .func hf hr, ?_⟩
      simp only [Func.finish, Post, St.resume, ht', Func.start]
      simp at ht
      omega
    · have h1 := toNat_sub_one h0
      obtain ⟨o, hr, hp⟩ := ih (fuel - 1).toNat (by omega) L c c' hi
        { fn.start st with globals := update (fn.start st).globals g (.i32 (fuel - 1)) } total
        ⟨fuel - 1, update_same _ _ _, Nat.le_refl _, by simp only [Func.start]; omega⟩
      have hr' := runs_check1 (W := W) (M := M) (g := g) (st := fn.start st) (by exact hg) h0 hr
      rw [← hbody] at hr'
      exact ⟨_, .func hf hr', (hp.weaken (by omega)).finish fn st⟩

theorem ends {m : Module P} {g : Nat} (hM : AllInst m g M) : ∀ gas L c c', Inst m g L c c' →
    ∀ (st : St S) (total : Nat), Left g gas total st → ∃ o, Runs W M c' st o ∧ Post g gas total o := by
  intro gas
  induction gas using Nat.strongRecOn with
  | _ gas ih =>
    intro L c c' hi
    induction hi with
    | nil => intro st total hl; exact ⟨_, .nil st, hl⟩
    | @op o k k' ho hk ihk =>
      intro st total hl
      cases hs : step W o st with
      | ok st' =>
        obtain ⟨e1, e2⟩ := step_keep ho hs
        obtain ⟨fuel, hg, hb, ht⟩ := hl
        obtain ⟨r, hr, hp⟩ := ihk st' total ⟨fuel, by rw [e1, hg], hb, by rw [e2, ht]⟩
        exact ⟨r, .op hs hr, hp⟩
      | trap =>
        obtain ⟨fuel, hg, hb, ht⟩ := hl
        exact ⟨_, .op_trap hs, by simp only [Post]; omega⟩
      | stuck => exact ⟨_, .op_stuck hs, trivial⟩
    | @bulk32 b t k k' hL hb hk ihk =>
      intro st total hl
      obtain ⟨fuel, hg, hbd, ht⟩ := hl
      cases hst : st.stack with
      | nil => exact ⟨.stuck, .op_stuck (by simp only [step, hst]), trivial⟩
      | cons x s =>
        have h1 : step W (.localTee t) st = .ok { st with stack := x :: s, locals := update st.locals t x } := by
          simp only [step, hst]
        by_cases hx : ∃ n, x = .i32 n
        · obtain ⟨n, rfl⟩ := hx
          by_cases hn : n.toNat < fuel.toNat
          · let st1 : St S := { st with stack := .i32 n :: s, locals := update st.locals t (.i32 n) }
            let st2 : St S := { st1 with globals := update st.globals g (.i32 (fuel - n)) }
            suffices ∃ o, Runs W M (.op (.bulk b) k') st2 o ∧ Post g gas total o by
              obtain ⟨o, ho, hp⟩ := this
              exact ⟨o, .op h1 (runs_checkN (st := st1) hg (update_same _ _ _) hn ho), hp⟩
            cases hs : step W (.bulk b) st2 with
            | trap => exact ⟨_, .op_trap hs, by simp only [Post]; show st.ticks ≤ _; omega⟩
            | stuck => exact ⟨_, .op_stuck hs, trivial⟩
            | ok st3 =>
              obtain ⟨y, s', n', e1, e2, e3, -, e4, -⟩ := step_bulk hs
              have hy : y = .i32 n := by
                have : (.i32 n :: s : List Val) = y :: s' := e1
                cases this; rfl
              subst hy
              have hn' : n'.toNat = n.toNat := int?_i32 e2
              rw [hn', Nat.mod_eq_of_lt n.isLt] at e4
              have hsub := toNat_sub_le (Nat.le_of_lt hn)
              have hgs : st3.globals g = .i32 (fuel - n) := by rw [e3]; exact update_same _ _ _
              have htk : st3.ticks = st.ticks + n.toNat := e4
              obtain ⟨r, hr, hp⟩ := ihk st3 total ⟨fuel - n, hgs, by omega, by omega⟩
              exact ⟨r, .op hs hr, hp⟩
          · have hr := runs_checkN_trap (W := W) (M := M) (k := .op (.bulk b) k')
              (st := { st with stack := .i32 n :: s, locals := update st.locals t (.i32 n) }) hg (update_same _ _ _)
              (by omega)
            exact ⟨_, .op h1 hr, by simp only [Post]; omega⟩
        · refine ⟨_, .op h1 (runs_checkN_stuck ?_), trivial⟩
          intro n he
          exact hx ⟨n, by rw [← he]; exact (update_same _ _ _).symm⟩
    | @bulk64 b t t32 k k' hL hL' hne hb hk ihk =>
      intro st total hl
      obtain ⟨fuel, hg, hbd, ht⟩ := hl
      cases hst : st.stack with
      | nil => exact ⟨.stuck, .op_stuck (by simp only [step, hst]), trivial⟩
      | cons x s =>
        have h1 : step W (.localTee t) st = .ok { st with stack := x :: s, locals := update st.locals t x } := by
          simp only [step, hst]
        by_cases hx : ∃ n, x = .i64 n
        · obtain ⟨n64, rfl⟩ := hx
          let n : BitVec 32 := n64.setWidth 32
          have hnn : n.toNat = n64.toNat % 2 ^ 32 := by simp [n]
          let st1 : St S := { st with stack := s, locals := update (update st.locals t (.i64 n64)) t32 (.i32 n) }
          have h12 : ∀ c o, Runs W M c st1 o → Runs W M (.op .wrap (.op (.localSet t32) c))
              { st with stack := .i64 n64 :: s, locals := update st.locals t (.i64 n64) } o := fun c o h =>
            .op (st' := { st with stack := .i32 n :: s, locals := update st.locals t (.i64 n64) }) rfl (.op rfl h)
          have hloc : st1.locals t32 = .i32 n := update_same _ _ _
          by_cases hn : n.toNat < fuel.toNat
          · let st2 : St S := { st1 with globals := update st.globals g (.i32 (fuel - n)), stack := .i64 n64 :: s }
            suffices ∃ o, Runs W M (.op (.bulk b) k') st2 o ∧ Post g gas total o by
              obtain ⟨o, ho, hp⟩ := this
              refine ⟨o, .op h1 (h12 _ _ (runs_checkN (st := st1) hg hloc hn (.op (st' := st2) ?_ ho))), hp⟩
              simp only [step, st2, st1]
              rw [update_ne _ _ hne, update_same]
            cases hs : step W (.bulk b) st2 with
            | trap => exact ⟨_, .op_trap hs, by simp only [Post]; show st.ticks ≤ _; omega⟩
            | stuck => exact ⟨_, .op_stuck hs, trivial⟩
            | ok st3 =>
              obtain ⟨y, s', n', e1, e2, e3, -, e4, -⟩ := step_bulk hs
              have hy : y = .i64 n64 := by
                have : (.i64 n64 :: s : List Val) = y :: s' := e1
                cases this; rfl
              subst hy
              have hn' : n'.toNat = n64.toNat := int?_i64 e2
              rw [hn', ← hnn] at e4
              have hsub := toNat_sub_le (Nat.le_of_lt hn)
              have hgs : st3.globals g = .i32 (fuel - n) := by rw [e3]; exact update_same _ _ _
              have htk : st3.ticks = st.ticks + n.toNat := e4
              obtain ⟨r, hr, hp⟩ := ihk st3 total ⟨fuel - n, hgs, by omega, by omega⟩
              exact ⟨r, .op hs hr, hp⟩
          · have hr := runs_checkN_trap (W := W) (M := M) (k := .op (.localGet t) (.op (.bulk b) k'))
              (st := st1) hg hloc (by omega)
            exact ⟨_, .op h1 (h12 _ _ hr), by simp only [Post]; show st.ticks ≤ _; omega⟩
        · refine ⟨_, .op h1 (.op_stuck ?_), trivial⟩
          simp only [step, unop]
          cases x <;> first | rfl | exact absurd ⟨_, rfl⟩ hx
    | @ctl c k k' hk ihk =>
      intro st total hl
      rcases jump_cases (W := W) c st with ⟨s, h⟩ | ⟨t, f, s, h⟩ | ⟨l, s, h⟩ | h | ⟨vs, h⟩ | h | h
      · obtain ⟨r, hr, hp⟩ := ihk { st with stack := s } total hl
        exact ⟨r, .next h hr, hp⟩
      · obtain ⟨o, ho, hp⟩ := call_ends hM ih f { st with stack := s } total hl
        cases t with
        | true => exact ⟨_, .tail h ho, hp.tail⟩
        | false =>
          obtain ⟨r, hr, hp'⟩ := then_ends hp (fun st hst => ihk st total hst)
          exact ⟨r, .call h ho hr, hp'⟩
      · exact ⟨_, .out h nofun, hl⟩
      · exact ⟨_, .out h nofun, hl⟩
      · exact ⟨_, .out h nofun, hl⟩
      · obtain ⟨fuel, hg, hbd, ht⟩ := hl
        exact ⟨_, .out h nofun, by simp only [Post]; omega⟩
      · exact ⟨_, .out h nofun, trivial⟩
    | block hb hk ihb ihk =>
      intro st total hl
      obtain ⟨o, ho, hp⟩ := ihb (st.enter _) total hl
      obtain ⟨r, hr, hp'⟩ := then_ends (hp.leave _ _) (fun st hst => ihk st total hst)
      exact ⟨r, .block ho hr, hp'⟩
    | tryTable hb hk ihb ihk =>
      intro st total hl
      obtain ⟨o, ho, hp⟩ := ihb (st.enter _) total hl
      obtain ⟨r, hr, hp'⟩ := then_ends (hp.handle _ _ _) (fun st hst => ihk st total hst)
      exact ⟨r, .tryTable ho hr, hp'⟩
    | @loop np nr b b' k k' hb hk ihb ihk =>
      intro st total hl
      obtain ⟨fuel, hg, hbd, ht⟩ := hl
      by_cases h0 : fuel = 0
      · subst h0
        obtain ⟨st', hr, ht'⟩ := runs_check1_trap (W := W) (M := M) (k := b')
          (st := { st.enter np with ticks := st.ticks + 1 }) hg
        refine ⟨_, .loop hr nofun rfl, ?_⟩
        simp only [leave, Post, ht']
        simp at ht
        omega
      · have h1 := toNat_sub_one h0
        obtain ⟨o, hr, hp⟩ := ih (fuel - 1).toNat (by omega) L b b' hb
          { st.enter np with ticks := st.ticks + 1, globals := update st.globals g (.i32 (fuel - 1)) } total
          ⟨fuel - 1, update_same _ _ _, Nat.le_refl _, by simp only; omega⟩
        have hr' := runs_check1 (W := W) (M := M) (g := g) (st := { st.enter np with ticks := st.ticks + 1 }) hg h0 hr
        by_cases hbr : ∃ st', o = .branch 0 st'
        · obtain ⟨st', rfl⟩ := hbr
          obtain ⟨r, hr2, hp2⟩ := ih (fuel - 1).toNat (by omega) L _ _ (.loop (np := np) (nr := nr) hb hk)
            (st'.leave np (st.stack.drop np)) total hp
          exact ⟨r, .again hr' hr2, hp2.weaken (by omega)⟩
        · obtain ⟨r, hr2, hp2⟩ := then_ends ((hp.weaken (by omega : (fuel - 1).toNat ≤ gas)).leave nr (st.stack.drop np))
            (fun st hst => ihk st total hst)
          exact ⟨r, .loop hr' (fun st' he => hbr ⟨st', he⟩) hr2, hp2⟩
    | @ifThen np nr a a' k k' ha hk iha ihk =>
      intro st total hl
      by_cases hs : ∃ c s, st.stack = .i32 c :: s
      · obtain ⟨c, s, hs⟩ := hs
        by_cases hc : c = 0
        · subst hc
          obtain ⟨r, hr, hp⟩ := ihk { st with stack := s } total hl
          exact ⟨r, .ifThen_false hs hr, hp⟩
        · obtain ⟨o, ho, hp⟩ := iha (St.enter np { st with stack := s }) total hl
          obtain ⟨r, hr, hp'⟩ := then_ends (hp.leave nr (s.drop np)) (fun st hst => ihk st total hst)
          exact ⟨r, .ifThen_true hs hc ho hr, hp'⟩
      · exact ⟨_, .ifThen_stuck (fun c s h => hs ⟨c, s, h⟩), trivial⟩
    | @ifElse np nr a a' b b' k k' ha hb hk iha ihb ihk =>
      intro st total hl
      by_cases hs : ∃ c s, st.stack = .i32 c :: s
      · obtain ⟨c, s, hs⟩ := hs
        have : ∃ o, Runs W M (if c = 0 then b' else a') (St.enter np { st with stack := s }) o ∧ Post g gas total o := by
          split
          · exact ihb _ total hl
          · exact iha _ total hl
        obtain ⟨o, ho, hp⟩ := this
        obtain ⟨r, hr, hp'⟩ := then_ends (hp.leave nr (s.drop np)) (fun st hst => ihk st total hst)
        exact ⟨r, .ifElse hs ho hr, hp'⟩
      · exact ⟨_, .ifElse_stuck (fun c s h => hs ⟨c, s, h⟩), trivial⟩

end Verif.Smith
