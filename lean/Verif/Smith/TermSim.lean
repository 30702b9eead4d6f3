import Verif.Smith.TermExec
/-
Instrumented code does what the original code does as long as there is fuel: lemmas.
-/
namespace Verif.Smith

variable {S P : Type} {W : World S P} {M M' : Nat → Option (Func P)}

/-- The count at an end is at least this. -/
def TicksGe (n : Nat) : Out S → Prop
  | .normal st | .branch _ st | .ret st | .exn _ st | .trap st => n ≤ st.ticks
  | .stuck | .timeout => True

theorem TicksGe.mono {n m : Nat} {o : Out S} (h : TicksGe n o) (hm : m ≤ n) : TicksGe m o := by
  cases o <;> simp only [TicksGe] at h ⊢ <;> omega

theorem TicksGe.leave {n : Nat} {o : Out S} (h : TicksGe n o) (nr : Nat) (l : List Val) : TicksGe n (leave nr l o) := by
  cases o with
  | branch i st => cases i <;> exact h
  | _ => exact h

theorem TicksGe.handle {n : Nat} {o : Out S} (h : TicksGe n o) (p : P) (nr : Nat) (l : List Val) :
    TicksGe n (handle W p nr l o) := by
  cases o with
  | branch i st => cases i <;> exact h
  | exn vs st => simp only [Smith.handle]; split <;> exact h
  | _ => exact h

theorem TicksGe.finish {n : Nat} {o : Out S} (h : TicksGe n o) (fn : Func P) (st : St S) : TicksGe n (fn.finish st o) := by
  cases o with
  | branch i st => cases i <;> first | exact h | exact trivial
  | _ => exact h

theorem TicksGe.tail {n : Nat} {o : Out S} (h : TicksGe n o) : TicksGe n o.tail := by cases o <;> exact h

theorem TicksGe.andThen {n : Nat} {o : Out S} (h : TicksGe n o) {f : St S → Out S} (hf : ∀ st, TicksGe st.ticks (f st)) :
    TicksGe n (o.andThen f) := by
  cases o with
  | normal st => exact (hf st).mono h
  | _ => exact h

theorem step_ticks {o : Op P} {st st' : St S} (h : step W o st = .ok st') : st.ticks ≤ st'.ticks := by
  by_cases hb : ∃ b, o = .bulk b
  · obtain ⟨b, rfl⟩ := hb
    obtain ⟨_, _, n, -, -, -, -, e, -⟩ := step_bulk h
    omega
  · cases o <;> simp only [step, binop, unop, ofWorld] at h
    case bulk b => exact absurd ⟨b, rfl⟩ hb
    all_goals (repeat' split at h) <;> cases h <;> exact Nat.le_refl _

theorem ticks_ge (n : Nat) : (∀ c st, TicksGe st.ticks (exec W M n c st)) ∧
    (∀ f st, TicksGe st.ticks (invoke W M n f st)) := by
  induction n with
  | zero => exact ⟨fun c st => by simp [exec, TicksGe], fun f st => by simp [invoke, TicksGe]⟩
  | succ n ih =>
    obtain ⟨ihe, ihi⟩ := ih
    refine ⟨fun c st => ?_, fun f st => ?_⟩
    · cases c with
      | nil => simp [exec, TicksGe]
      | op o k =>
        simp only [exec]
        cases hs : step W o st with
        | ok st' => exact (ihe k st').mono (step_ticks hs)
        | trap => exact Nat.le_refl _
        | stuck => exact trivial
      | ctl c k =>
        simp only [exec]
        rcases jump_cases (W := W) c st with ⟨s, h⟩ | ⟨t, f, s, h⟩ | ⟨l, s, h⟩ | h | ⟨vs, h⟩ | h | h <;> rw [h]
        · exact ihe k { st with stack := s }
        · cases t with
          | false => exact (ihi f { st with stack := s }).andThen (ihe k)
          | true => exact (ihi f { st with stack := s }).tail
        all_goals simp [TicksGe]
      | block kind np nr body k =>
        cases kind with
        | block => simp only [exec]; exact ((ihe body (st.enter np)).leave _ _).andThen (ihe k)
        | tryTable h => simp only [exec]; exact ((ihe body (st.enter np)).handle h _ _).andThen (ihe k)
        | loop =>
          simp only [exec]
          have h := ihe body { st.enter np with ticks := st.ticks + 1 }
          have h' := h.mono (Nat.le_add_right st.ticks 1)
          revert h h'
          cases exec W M n body { st.enter np with ticks := st.ticks + 1 } with
          | branch l st' =>
            intro h h'
            cases l with
            | zero => exact (ihe _ _).mono h'
            | succ l => exact h'
          | normal st' => intro h h'; exact (ihe k _).mono h'
          | _ => intro h h'; exact h'
      | ifThen np nr a k =>
        simp only [exec]
        split
        · rename_i c s hs
          split
          · exact ihe k { st with stack := s }
          · exact ((ihe a (St.enter np { st with stack := s })).leave _ _).andThen (ihe k)
        · exact trivial
      | ifElse np nr a b k =>
        simp only [exec]
        split
        · rename_i c s hs
          exact ((ihe _ (St.enter np { st with stack := s })).leave _ _).andThen (ihe k)
        · exact trivial
    · simp only [invoke]
      cases M f with
      | some fn =>
        have := ihe fn.body (fn.start st)
        exact (this.mono (Nat.le_add_right st.ticks 1)).finish fn st
      | none => cases W.host f st.stack st.store <;> exact Nat.le_refl _

/-- The second state is the first with fuel, and other locals from some index on. -/
structure Sim (g L T : Nat) (st st' : St S) : Prop where
  stack : st'.stack = st.stack
  store : st'.store = st.store
  globals : ∀ i, i ≠ g → st'.globals i = st.globals i
  locals : ∀ i, i < L → st'.locals i = st.locals i
  ticks : st'.ticks = st.ticks
  fuel : ∃ f : BitVec 32, st'.globals g = .i32 f ∧ st.ticks + f.toNat = T

/-- The same apart from fuel, operands and locals, which do not matter after a trap. -/
structure SimTrap (g : Nat) (st st' : St S) : Prop where
  store : st'.store = st.store
  globals : ∀ i, i ≠ g → st'.globals i = st.globals i
  ticks : st'.ticks = st.ticks

theorem Sim.trap {g L T : Nat} {st st' : St S} (h : Sim g L T st st') : SimTrap g st st' := ⟨h.store, h.globals, h.ticks⟩

/-- Ends in the same way. -/
inductive SimOut (g L T : Nat) : Out S → Out S → Prop where
  | normal {st st'} : Sim g L T st st' → SimOut g L T (.normal st) (.normal st')
  | branch {l st st'} : Sim g L T st st' → SimOut g L T (.branch l st) (.branch l st')
  | ret {st st'} : Sim g L T st st' → SimOut g L T (.ret st) (.ret st')
  | exn {vs st st'} : Sim g L T st st' → SimOut g L T (.exn vs st) (.exn vs st')
  | trap {st st'} : SimTrap g st st' → SimOut g L T (.trap st) (.trap st')

theorem Sim.withStack {g L T : Nat} {st st' : St S} (h : Sim g L T st st') (s : List Val) :
    Sim g L T { st with stack := s } { st' with stack := s } :=
  ⟨rfl, h.store, h.globals, h.locals, h.ticks, h.fuel⟩

theorem Sim.enter {g L T : Nat} {st st' : St S} (h : Sim g L T st st') (np : Nat) :
    Sim g L T (st.enter np) (st'.enter np) :=
  ⟨by simp [St.enter, h.stack], h.store, h.globals, h.locals, h.ticks, h.fuel⟩

theorem Sim.leave {g L T : Nat} {st st' : St S} (h : Sim g L T st st') (n : Nat) (l : List Val) :
    Sim g L T (st.leave n l) (st'.leave n l) :=
  ⟨by simp [St.leave, h.stack], h.store, h.globals, h.locals, h.ticks, h.fuel⟩

theorem SimOut.leave {g L T : Nat} {o o' : Out S} (h : SimOut g L T o o') (nr : Nat) (l : List Val) :
    SimOut g L T (leave nr l o) (leave nr l o') := by
  cases h with
  | normal h => exact .normal (h.leave _ _)
  | @branch i _ _ h =>
    cases i with
    | zero => exact .normal (h.leave _ _)
    | succ i => exact .branch h
  | ret h => exact .ret h
  | exn h => exact .exn h
  | trap h => exact .trap h

theorem SimOut.handle {g L T : Nat} {o o' : Out S} (h : SimOut g L T o o') (p : P) (nr : Nat) (l : List Val) :
    SimOut g L T (handle W p nr l o) (handle W p nr l o') := by
  cases h with
  | exn h =>
    simp only [Smith.handle]
    split
    · exact .branch (h.withStack _)
    · exact .exn h
  | normal h => exact (SimOut.normal h).leave nr l
  | branch h => exact (SimOut.branch h).leave nr l
  | ret h => exact .ret h
  | trap h => exact .trap h

theorem SimOut.tail {g L T : Nat} {o o' : Out S} (h : SimOut g L T o o') : SimOut g L T o.tail o'.tail := by
  cases h with
  | normal h => exact .ret h
  | branch h => exact .branch h
  | ret h => exact .ret h
  | exn h => exact .exn h
  | trap h => exact .trap h

/-- The count at an end is less than this, and the end is a proper one. -/
def Within (T : Nat) : Out S → Prop
  | .normal st | .branch _ st | .ret st | .exn _ st | .trap st => st.ticks < T
  | .stuck | .timeout => False

theorem Within.of_leave {T nr : Nat} {l : List Val} {o : Out S} (h : Within T (leave nr l o)) : Within T o := by
  cases o with
  | branch i st => cases i <;> exact h
  | _ => exact h

theorem Within.of_handle {T nr : Nat} {p : P} {l : List Val} {o : Out S} (h : Within T (handle W p nr l o)) : Within T o := by
  cases o with
  | branch i st => cases i <;> exact h
  | exn vs st =>
    simp only [handle] at h
    split at h <;> exact h
  | _ => exact h

theorem Within.of_tail {T : Nat} {o : Out S} (h : Within T o.tail) : Within T o := by cases o <;> exact h

theorem Within.of_finish {T : Nat} {fn : Func P} {st : St S} {o : Out S} (h : Within T (fn.finish st o)) : Within T o := by
  cases o with
  | branch i st => cases i <;> first | exact h | exact absurd h nofun
  | _ => exact h

theorem Within.ticks_lt {T n : Nat} {o : Out S} (h : Within T o) (hn : TicksGe n o) : n < T := by
  cases o <;> simp only [Within, TicksGe] at h hn <;> omega

theorem Within.of_andThen {T : Nat} {o : Out S} {f : St S → Out S} (h : Within T (o.andThen f))
    (hf : ∀ st, TicksGe st.ticks (f st)) : Within T o := by
  cases o with
  | normal st => exact Within.ticks_lt h (hf st)
  | _ => exact h

/-- Code after something. -/
theorem then_sim {n g L T : Nat} {o o' : Out S} {k k' : Code P} (hs : SimOut g L T o o')
    (hw : Within T (o.andThen (exec W M n k)))
    (hk : ∀ st st', Sim g L T st st' → Within T (exec W M n k st) →
      ∃ r', Runs W M' k' st' r' ∧ SimOut g L T (exec W M n k st) r') :
    ∃ r', Then W M' o' k' r' ∧ SimOut g L T (o.andThen (exec W M n k)) r' := by
  cases hs with
  | normal h => exact hk _ _ h hw
  | branch h => exact ⟨_, rfl, .branch h⟩
  | ret h => exact ⟨_, rfl, .ret h⟩
  | exn h => exact ⟨_, rfl, .exn h⟩
  | trap h => exact ⟨_, rfl, .trap h⟩

/-- Instructions that are kept do the same. -/
theorem step_sim {g L T : Nat} {o : Op P} (ho : Keep g L o) {st st' : St S} (h : Sim g L T st st') :
    (∀ st₁, step W o st = .ok st₁ → ∃ st₁', step W o st' = .ok st₁' ∧ Sim g L T st₁ st₁') ∧
    (step W o st = .trap → step W o st' = .trap) := by
  obtain ⟨stack, locals, globals, store, ticks⟩ := st
  obtain ⟨stack', locals', globals', store', ticks'⟩ := st'
  have hstack := h.stack
  have hstore := h.store
  have hticks := h.ticks
  simp only at hstack hstore hticks
  subst hstack hstore hticks
  have hkeep : ∀ (s : List Val) (st2 : S), Sim g L T ⟨s, locals, globals, st2, ticks'⟩ ⟨s, locals', globals', st2, ticks'⟩ :=
    fun s st2 => ⟨rfl, rfl, h.globals, h.locals, rfl, h.fuel⟩
  have hset : ∀ (s : List Val) (i : Nat) (v : Val), Sim g L T ⟨s, update locals i v, globals, store', ticks'⟩
      ⟨s, update locals' i v, globals', store', ticks'⟩ := fun s i v =>
    ⟨rfl, rfl, h.globals, fun j hj => by simp only [update]; split; rfl; exact h.locals j hj, rfl, h.fuel⟩
  cases o <;> simp only [step, binop, unop, ofWorld]
  case bulk b => exact absurd rfl (ho.bulk b)
  case localGet i =>
    refine ⟨fun st₁ e => ?_, nofun⟩
    cases e
    have := h.locals i (ho.lget i rfl)
    simp only at this
    rw [this]
    exact ⟨_, rfl, hkeep _ _⟩
  case globalGet i =>
    refine ⟨fun st₁ e => ?_, nofun⟩
    cases e
    have := h.globals i (ho.gget i rfl)
    simp only at this
    rw [this]
    exact ⟨_, rfl, hkeep _ _⟩
  case globalSet i =>
    split
    · rename_i v s
      refine ⟨fun st₁ e => ?_, nofun⟩
      cases e
      refine ⟨_, rfl, rfl, rfl, fun j hj => ?_, h.locals, rfl, ?_⟩
      · simp only [update]; split; rfl; exact h.globals j hj
      · obtain ⟨f, hf, ht⟩ := h.fuel
        exact ⟨f, (update_ne _ _ (ho.gset i rfl).symm).trans hf, ht⟩
    · exact ⟨nofun, nofun⟩
  case localSet i =>
    split
    · refine ⟨fun st₁ e => ?_, nofun⟩
      cases e
      exact ⟨_, rfl, hset _ _ _⟩
    · exact ⟨nofun, nofun⟩
  case localTee i =>
    split
    · refine ⟨fun st₁ e => ?_, nofun⟩
      cases e
      exact ⟨_, rfl, hset _ _ _⟩
    · exact ⟨nofun, nofun⟩
  all_goals
    refine ⟨fun st₁ e => ?_, fun e => ?_⟩ <;> (repeat' split at e) <;> cases e <;>
      (try simp only [*]) <;> first | exact ⟨_, rfl, hkeep _ _⟩ | rfl | skip

/-- The functions of the second module are those of the first with checks. -/
def Related (m : Module P) (g : Nat) (M M' : Nat → Option (Func P)) : Prop :=
  ∀ f, (M f = none ∧ M' f = none) ∨ ∃ fn fn' c' e, M f = some fn ∧ M' f = some fn' ∧ fn'.params = fn.params ∧
    fn'.results = fn.results ∧ fn'.locals = fn.locals ++ e ∧ fn'.body = check1 g c' ∧
    Inst m g (fn.params + fn.locals.length) fn.body c'

theorem Sim.start {g L T : Nat} {st st' : St S} (h : Sim g L T st st') {fn fn' : Func P} {e : List Ty}
    (hp : fn'.params = fn.params) (hl : fn'.locals = fn.locals ++ e) {fuel : BitVec 32} (hg : st'.globals g = .i32 fuel)
    (h0 : fuel ≠ 0) :
    Sim g (fn.params + fn.locals.length) T (fn.start st)
      { fn'.start st' with globals := update (fn'.start st').globals g (.i32 (fuel - 1)) } := by
  refine ⟨rfl, h.store, fun i hi => (update_ne _ _ hi).trans (h.globals i hi), fun i hi => ?_, ?_, fuel - 1,
    update_same _ _ _, ?_⟩
  · simp only [Func.start, hp, hl, h.stack]
    split
    · rfl
    · rename_i hni
      have : i - fn.params < fn.locals.length := by omega
      simp [List.getElem?_append_left this]
  · simp [Func.start, h.ticks]
  · obtain ⟨f, hf, ht⟩ := h.fuel
    rw [hg] at hf
    cases hf
    have := toNat_sub_one h0
    simp only [Func.start]
    omega

theorem Sim.resume {g L L' T : Nat} {st st' u u' : St S} (h : Sim g L T st st') (hu : Sim g L' T u u') (s : List Val) :
    Sim g L T (st.resume u s) (st'.resume u' s) :=
  ⟨rfl, hu.store, hu.globals, h.locals, hu.ticks, hu.fuel⟩

theorem SimOut.finish {g L L' T : Nat} {st st' : St S} (h : Sim g L T st st') {o o' : Out S} (ho : SimOut g L' T o o')
    {fn fn' : Func P} (hp : fn'.params = fn.params) (hr : fn'.results = fn.results) (hw : Within T (fn.finish st o)) :
    SimOut g L T (fn.finish st o) (fn'.finish st' o') := by
  have hn : ∀ u u', Sim g L' T u u' → SimOut g L T
      (.normal (st.resume u (u.stack.take fn.results ++ st.stack.drop fn.params)))
      (.normal (st'.resume u' (u'.stack.take fn'.results ++ st'.stack.drop fn'.params))) := by
    intro u u' hu
    rw [hp, hr, hu.stack, h.stack]
    exact .normal (h.resume hu _)
  cases ho with
  | normal hu => exact hn _ _ hu
  | ret hu => exact hn _ _ hu
  | @branch l _ _ hu =>
    cases l with
    | zero => exact hn _ _ hu
    | succ l => exact absurd hw nofun
  | exn hu => exact .exn (h.resume hu _)
  | trap hu => exact .trap ⟨hu.store, hu.globals, hu.ticks⟩

theorem jump_sim {g L T : Nat} (c : Ctl P) {st st' : St S} (h : Sim g L T st st') :
    (∀ st₁, jump W c st = .next st₁ → ∃ st₁', jump W c st' = .next st₁' ∧ Sim g L T st₁ st₁') ∧
    (∀ t f st₁, jump W c st = .call t f st₁ → ∃ st₁', jump W c st' = .call t f st₁' ∧ Sim g L T st₁ st₁') ∧
    (∀ o, jump W c st = .out o → Within T o → ∃ o', jump W c st' = .out o' ∧ SimOut g L T o o') := by
  obtain ⟨stack, locals, globals, store, ticks⟩ := st
  obtain ⟨stack', locals', globals', store', ticks'⟩ := st'
  have hstack := h.stack
  have hstore := h.store
  have hticks := h.ticks
  simp only at hstack hstore hticks
  subst hstack hstore hticks
  have hkeep : ∀ (s : List Val), Sim g L T ⟨s, locals, globals, store', ticks'⟩ ⟨s, locals', globals', store', ticks'⟩ :=
    fun s => ⟨rfl, rfl, h.globals, h.locals, rfl, h.fuel⟩
  cases c <;> simp only [jump, brWhen, dynCall]
  all_goals
    refine ⟨fun st₁ e => ?_, fun t f st₁ e => ?_, fun o e hw => ?_⟩ <;> (repeat' split at e) <;>
      simp only [Jump.next.injEq, Jump.call.injEq, Jump.out.injEq, reduceCtorEq] at e <;>
      (try obtain ⟨rfl, rfl, rfl⟩ := e) <;> (try subst e) <;>
      (try simp only [Within] at hw) <;> (try simp only [*, if_true, if_false, Bool.false_eq_true]) <;> first
      | exact ⟨_, rfl, hkeep _⟩
      | exact ⟨_, rfl, .branch (hkeep _)⟩
      | exact ⟨_, rfl, .ret (hkeep _)⟩
      | exact ⟨_, rfl, .exn (hkeep _)⟩
      | exact ⟨_, rfl, .trap (hkeep _).trap⟩
      | exact ⟨_, ⟨rfl, rfl, rfl⟩, hkeep _⟩
      | skip

end Verif.Smith
