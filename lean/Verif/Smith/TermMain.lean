import Verif.Smith.TermSim
/-
Simulation of the original by the instrumented code, and the whole module: lemmas.
-/
namespace Verif.Smith

variable {S P : Type} {W : World S P} {M M' : Nat → Option (Func P)}

theorem int?_eq_i32 {x : Val} {n : BitVec ITy.i32.bits} (h : x.int? .i32 = some n) : x = .i32 n := by
  cases x <;> cases h; rfl

theorem int?_eq_i64 {x : Val} {n : BitVec ITy.i64.bits} (h : x.int? .i64 = some n) : x = .i64 n := by
  cases x <;> cases h; rfl

/-- A bulk instruction on a stack with a length. -/
theorem step_bulk_eq {b : Bulk} {st : St S} {x : Val} {s : List Val} {t : ITy} {n : BitVec t.bits}
    (ht : W.lenTy b = t) (hs : st.stack = x :: s) (hx : x.int? t = some n) :
    step W (.bulk b) st =
      ofWorld { st with ticks := st.ticks + n.toNat % 2 ^ 32 } (W.bulk b (x :: s) st.store) := by
  subst ht
  simp only [step, hs, hx]

theorem step_bulk_cases {b : Bulk} {st : St S} (h : step W (.bulk b) st ≠ .stuck) {t : ITy} (ht : W.lenTy b = t) :
    ∃ x s, ∃ n : BitVec t.bits, st.stack = x :: s ∧ x.int? t = some n := by
  subst ht
  cases hs : st.stack with
  | nil => simp [step, hs] at h
  | cons x s =>
    cases hx : x.int? (W.lenTy b) with
    | none => simp [step, hs, hx] at h
    | some n => exact ⟨x, s, n, rfl, hx⟩

/-- The code after a bulk instruction, or its trap. -/
theorem bulk_sim {g L T n : Nat} {b : Bulk} {k k' : Code P} {st : St S} {x : Val} {s : List Val} {t : ITy}
    {len : BitVec t.bits} (ht : W.lenTy b = t) (hs : st.stack = x :: s) (hx : x.int? t = some len)
    {fuel : BitVec 32} {locals' globals' : Nat → Val} (hg' : globals' g = .i32 fuel)
    (hlt : len.toNat % 2 ^ 32 ≤ fuel.toNat) (hT : st.ticks + fuel.toNat = T)
    (hgl : ∀ i, i ≠ g → globals' i = st.globals i) (hloc : ∀ i, i < L → locals' i = st.locals i)
    {l32 : BitVec 32} (hl32 : l32.toNat = len.toNat % 2 ^ 32)
    (hk : ∀ st st', Sim g L T st st' → Within T (exec W M n k st) →
      ∃ r', Runs W M' k' st' r' ∧ SimOut g L T (exec W M n k st) r')
    (hw : Within T (exec W M (n + 1) (.op (.bulk b) k) st)) :
    ∃ r', Runs W M' (.op (.bulk b) k') ⟨x :: s, locals', update globals' g (.i32 (fuel - l32)), st.store, st.ticks⟩ r' ∧
      SimOut g L T (exec W M (n + 1) (.op (.bulk b) k) st) r' := by
  have h1 := step_bulk_eq (W := W) (st := st) ht hs hx
  have h2 := step_bulk_eq (W := W)
    (st := ⟨x :: s, locals', update globals' g (.i32 (fuel - l32)), st.store, st.ticks⟩) ht rfl hx
  have hgg : ∀ i, i ≠ g → update globals' g (.i32 (fuel - l32)) i = st.globals i := fun i hi =>
    (update_ne _ _ hi).trans (hgl i hi)
  have hsub := toNat_sub_le (f := fuel) (n := l32) (by omega)
  simp only [exec] at hw ⊢
  cases hb : W.bulk b (x :: s) st.store with
  | none =>
    rw [hb] at h1 h2
    simp only [h1, ofWorld] at hw ⊢
    exact ⟨_, .op_trap h2, .trap ⟨rfl, hgg, rfl⟩⟩
  | some y =>
    rw [hb] at h1 h2
    simp only [h1, ofWorld] at hw ⊢
    obtain ⟨r', hr, ho⟩ := hk ⟨y.1, st.locals, st.globals, y.2, st.ticks + len.toNat % 2 ^ 32⟩ ⟨y.1, locals', update globals' g (.i32 (fuel - l32)), y.2,
      st.ticks + len.toNat % 2 ^ 32⟩ ⟨rfl, rfl, hgg, hloc, rfl, fuel - l32, update_same _ _ _, by simp only; omega⟩ hw
    exact ⟨r', .op h2 hr, ho⟩

/-- If a bulk instruction of the original goes on or traps. -/
theorem bulk_fuel {n T : Nat} {b : Bulk} {k : Code P} {st : St S} {x : Val} {s : List Val} {t : ITy} {len : BitVec t.bits}
    (ht : W.lenTy b = t) (hs : st.stack = x :: s) (hx : x.int? t = some len)
    (hw : Within T (exec W M (n + 1) (.op (.bulk b) k) st)) :
    st.ticks + len.toNat % 2 ^ 32 < T ∨ exec W M (n + 1) (.op (.bulk b) k) st = .trap st := by
  have h1 := step_bulk_eq (W := W) (st := st) ht hs hx
  simp only [exec] at hw ⊢
  cases hb : W.bulk b (x :: s) st.store with
  | none => rw [hb] at h1; exact .inr (by simp only [h1, ofWorld])
  | some y =>
    rw [hb] at h1
    simp only [h1, ofWorld] at hw
    exact .inl (hw.ticks_lt ((ticks_ge n).1 k _))

theorem sim {m : Module P} {g : Nat} (hA : Spec.Agrees W m) (hM : Related m g M M') (T : Nat) : ∀ n,
    (∀ L c c', Inst m g L c c' → ∀ st st' : St S, Sim g L T st st' → Within T (exec W M n c st) →
      ∃ o', Runs W M' c' st' o' ∧ SimOut g L T (exec W M n c st) o') ∧
    (∀ L f, ∀ st st' : St S, Sim g L T st st' → Within T (invoke W M n f st) →
      ∃ o', RunsCall W M' f st' o' ∧ SimOut g L T (invoke W M n f st) o') := by
  intro n
  induction n with
  | zero => exact ⟨fun L c c' _ st st' _ h => absurd h (by simp [exec, Within]),
      fun L f st st' _ h => absurd h (by simp [invoke, Within])⟩
  | succ n ih =>
    obtain ⟨ihe, ihi⟩ := ih
    refine ⟨fun L c c' hi st st' hs hw => ?_, fun L f st st' hs hw => ?_⟩
    · cases hi with
      | nil =>
        simp only [exec] at hw ⊢
        exact ⟨_, .nil st', .normal hs⟩
      | @op o k k' ho hk =>
        simp only [exec] at hw ⊢
        obtain ⟨h1, h2⟩ := step_sim (W := W) ho hs
        cases hst : step W o st with
        | ok st₁ =>
          rw [hst] at hw
          obtain ⟨st₁', e, hs₁⟩ := h1 st₁ hst
          obtain ⟨r', hr, hr'⟩ := ihe L k k' hk st₁ st₁' hs₁ hw
          exact ⟨r', .op e hr, hr'⟩
        | trap => exact ⟨_, .op_trap (h2 hst), .trap hs.trap⟩
        | stuck => rw [hst] at hw; exact absurd hw nofun
      | @bulk32 b t k k' hL hb hk =>
        have hb' := agrees_lenTy hA hb
        obtain ⟨x, s, len, hstk, hx⟩ := step_bulk_cases (W := W) (b := b) (st := st)
          (by intro h; simp only [exec, h] at hw; exact absurd hw nofun) hb'
        have hxe := int?_eq_i32 hx
        obtain ⟨fuel, hg, hT⟩ := hs.fuel
        subst hxe
        have hlen : (len : BitVec 32).toNat % 2 ^ 32 = (len : BitVec 32).toNat := Nat.mod_eq_of_lt (len : BitVec 32).isLt
        have h1 : step W (.localTee t) st' = .ok { st' with stack := .i32 len :: s, locals := update st'.locals t (.i32 len) } := by
          simp only [step, hs.stack, hstk]
        rcases bulk_fuel hb' hstk hx hw with hlt | htr
        · rw [hlen] at hlt
          have hlt' : (len : BitVec 32).toNat < fuel.toNat := by omega
          obtain ⟨r', hr, ho⟩ := bulk_sim (M := M) (M' := M') (g := g) (L := L) (T := T) (n := n) (k := k) (k' := k')
            (fuel := fuel) (locals' := update st'.locals t (.i32 len)) (globals' := st'.globals) (l32 := len) hb' hstk hx hg
            (by rw [hlen]; omega) hT hs.globals
            (fun i hi => (update_ne _ _ (by omega)).trans (hs.locals i hi)) hlen.symm (ihe L k k' hk) hw
          rw [← hs.store, ← hs.ticks] at hr
          exact ⟨r', .op h1 (runs_checkN (n := len) hg (update_same _ _ _) hlt' hr), ho⟩
        · rw [htr]
          by_cases hlt' : (len : BitVec 32).toNat < fuel.toNat
          · obtain ⟨r', hr, ho⟩ := bulk_sim (M := M) (M' := M') (g := g) (L := L) (T := T) (n := n) (k := k) (k' := k')
              (fuel := fuel) (locals' := update st'.locals t (.i32 len)) (globals' := st'.globals) (l32 := len) hb' hstk hx hg
              (by rw [hlen]; omega) hT hs.globals
              (fun i hi => (update_ne _ _ (by omega)).trans (hs.locals i hi)) hlen.symm (ihe L k k' hk) hw
            rw [← hs.store, ← hs.ticks] at hr
            rw [htr] at ho
            exact ⟨r', .op h1 (runs_checkN (n := len) hg (update_same _ _ _) hlt' hr), ho⟩
          · have hr := runs_checkN_trap (W := W) (M := M') (k := .op (.bulk b) k')
              (st := { st' with stack := .i32 len :: s, locals := update st'.locals t (.i32 len) }) (n := len) hg
              (update_same _ _ _) (Nat.le_of_not_lt hlt')
            exact ⟨_, .op h1 hr, .trap ⟨hs.store, hs.globals, hs.ticks⟩⟩
      | @bulk64 b t t32 k k' hL hL' hne hb hk =>
        have hb' := agrees_lenTy hA hb
        obtain ⟨x, s, len, hstk, hx⟩ := step_bulk_cases (W := W) (b := b) (st := st)
          (by intro h; simp only [exec, h] at hw; exact absurd hw nofun) hb'
        have hxe := int?_eq_i64 hx
        obtain ⟨fuel, hg, hT⟩ := hs.fuel
        subst hxe
        have h1 : step W (.localTee t) st' = .ok { st' with stack := .i64 len :: s, locals := update st'.locals t (.i64 len) } := by
          simp only [step, hs.stack, hstk]
        let l32 : BitVec 32 := (len : BitVec 64).setWidth 32
        have hl32 : l32.toNat = (len : BitVec 64).toNat % 2 ^ 32 := by simp [l32]
        let st1 : St S := { st' with stack := s, locals := update (update st'.locals t (.i64 len)) t32 (.i32 l32) }
        have h12 : ∀ c o, Runs W M' c st1 o → Runs W M' (.op .wrap (.op (.localSet t32) c))
            { st' with stack := .i64 len :: s, locals := update st'.locals t (.i64 len) } o := fun c o h =>
          .op (st' := { st' with stack := .i32 l32 :: s, locals := update st'.locals t (.i64 len) }) rfl (.op rfl h)
        have hloc : st1.locals t32 = .i32 l32 := update_same _ _ _
        have hgo : l32.toNat < fuel.toNat → ∃ o', Runs W M' (.op (.localTee t) (.op .wrap (.op (.localSet t32)
            (checkN g t32 (.op (.localGet t) (.op (.bulk b) k')))))) st' o' ∧
            SimOut g L T (exec W M (n + 1) (.op (.bulk b) k) st) o' := by
          intro hlt'
          obtain ⟨r', hr, ho⟩ := bulk_sim (M := M) (M' := M') (g := g) (L := L) (T := T) (n := n) (k := k) (k' := k')
            (fuel := fuel) (locals' := st1.locals) (globals' := st'.globals) (l32 := l32) hb' hstk hx hg
            (by omega) hT hs.globals
            (fun i hi => (update_ne _ _ (by omega)).trans ((update_ne _ _ (by omega)).trans (hs.locals i hi))) hl32
            (ihe L k k' hk) hw
          rw [← hs.store, ← hs.ticks] at hr
          refine ⟨r', .op h1 (h12 _ _ (runs_checkN (st := st1) (n := l32) hg hloc hlt' (.op ?_ hr))), ho⟩
          simp only [step, st1]
          rw [update_ne _ _ hne, update_same]
        rcases bulk_fuel hb' hstk hx hw with hlt | htr
        · exact hgo (by omega)
        · by_cases hlt' : l32.toNat < fuel.toNat
          · exact hgo hlt'
          · have hr := runs_checkN_trap (W := W) (M := M') (k := .op (.localGet t) (.op (.bulk b) k'))
              (st := st1) hg hloc (by omega)
            rw [htr]
            exact ⟨_, .op h1 (h12 _ _ hr), .trap ⟨hs.store, hs.globals, hs.ticks⟩⟩
      | @ctl c k k' hk =>
        obtain ⟨h1, h2, h3⟩ := jump_sim (W := W) c hs
        simp only [exec] at hw ⊢
        cases hj : jump W c st with
        | next st₁ =>
          rw [hj] at hw
          obtain ⟨st₁', e, hs₁⟩ := h1 st₁ hj
          obtain ⟨r', hr, hr'⟩ := ihe L k k' hk st₁ st₁' hs₁ hw
          exact ⟨r', .next e hr, hr'⟩
        | out o =>
          rw [hj] at hw
          obtain ⟨o', e, ho⟩ := h3 o hj hw
          refine ⟨o', .out e ?_, ho⟩
          cases ho <;> exact nofun
        | call t f st₁ =>
          rw [hj] at hw
          obtain ⟨st₁', e, hs₁⟩ := h2 t f st₁ hj
          cases t with
          | true =>
            simp only at hw ⊢
            obtain ⟨o', hr, ho⟩ := ihi L f st₁ st₁' hs₁ hw.of_tail
            exact ⟨_, .tail e hr, ho.tail⟩
          | false =>
            simp only at hw ⊢
            obtain ⟨o', hr, ho⟩ := ihi L f st₁ st₁' hs₁ (hw.of_andThen ((ticks_ge n).1 k))
            obtain ⟨r', hr', hs'⟩ := then_sim ho hw (ihe L k k' hk)
            exact ⟨_, .call e hr hr', hs'⟩
      | @block np nr b b' k k' hb hk =>
        simp only [exec] at hw ⊢
        obtain ⟨o', hr, ho⟩ := ihe L b b' hb _ _ (hs.enter np) (hw.of_andThen ((ticks_ge n).1 k)).of_leave
        obtain ⟨r', hr', hs'⟩ := then_sim (ho.leave nr (st.stack.drop np)) hw (ihe L k k' hk)
        exact ⟨_, .block hr (by rw [hs.stack]; exact hr'), hs'⟩
      | @tryTable h np nr b b' k k' hb hk =>
        simp only [exec] at hw ⊢
        obtain ⟨o', hr, ho⟩ := ihe L b b' hb _ _ (hs.enter np) (hw.of_andThen ((ticks_ge n).1 k)).of_handle
        obtain ⟨r', hr', hs'⟩ := then_sim (ho.handle h nr (st.stack.drop np)) hw (ihe L k k' hk)
        exact ⟨_, .tryTable hr (by rw [hs.stack]; exact hr'), hs'⟩
      | @loop np nr b b' k k' hb hk =>
        obtain ⟨fuel, hg, hT⟩ := hs.fuel
        have hlt : st.ticks + 1 < T := by
          have hge : TicksGe (st.ticks + 1) (exec W M (n + 1) (.block .loop np nr b k) st) := by
            simp only [exec]
            have hx := (ticks_ge (W := W) (M := M) n).1 b { st.enter np with ticks := st.ticks + 1 }
            revert hx
            cases exec W M n b { st.enter np with ticks := st.ticks + 1 } with
            | branch l st2 =>
              intro hx
              cases l with
              | zero => exact ((ticks_ge n).1 _ _).mono hx
              | succ l => exact hx
            | normal st2 => intro hx; exact ((ticks_ge n).1 k _).mono hx
            | _ => exact id
          exact hw.ticks_lt hge
        have h0 : fuel ≠ 0 := by
          intro h
          subst h
          simp at hT
          omega
        have h1 := toNat_sub_one h0
        simp only [exec] at hw ⊢
        have hs1 : Sim g L T { st.enter np with ticks := st.ticks + 1 }
            { st'.enter np with ticks := st'.ticks + 1, globals := update st'.globals g (.i32 (fuel - 1)) } :=
          ⟨(hs.enter np).stack, hs.store, fun i hi => (update_ne _ _ hi).trans (hs.globals i hi), hs.locals,
            by simp only [hs.ticks], fuel - 1, update_same _ _ _, by simp only; omega⟩
        have hbody : Within T (exec W M n b { st.enter np with ticks := st.ticks + 1 }) := by
          revert hw
          cases exec W M n b { st.enter np with ticks := st.ticks + 1 } with
          | branch l st2 =>
            intro hw
            cases l with
            | zero => exact hw.ticks_lt ((ticks_ge n).1 _ (st2.leave np (st.stack.drop np)))
            | succ l => exact hw
          | normal st2 => intro hw; exact hw.ticks_lt ((ticks_ge n).1 k (st2.leave nr (st.stack.drop np)))
          | _ => exact id
        obtain ⟨o', hr, ho⟩ := ihe L b b' hb _ _ hs1 hbody
        have hr1 := runs_check1 (W := W) (M := M') (g := g) (st := { st'.enter np with ticks := st'.ticks + 1 }) hg h0 hr
        revert hw ho
        cases hex : exec W M n b { st.enter np with ticks := st.ticks + 1 } with
        | branch l st2 =>
          intro hw ho
          cases l with
          | zero =>
            cases ho with
            | branch hb2 =>
              obtain ⟨r', hr', hs'⟩ := ihe L _ _ (.loop (np := np) (nr := nr) hb hk) _ _
                (hb2.leave np (st.stack.drop np)) hw
              exact ⟨r', .again hr1 (by rw [hs.stack]; exact hr'), hs'⟩
          | succ l =>
            cases ho with
            | branch hb2 => exact ⟨_, .loop hr1 nofun rfl, .branch hb2⟩
        | normal st2 =>
          intro hw ho
          cases ho with
          | normal hb2 =>
            obtain ⟨r', hr', hs'⟩ := ihe L k k' hk _ _ (hb2.leave nr (st.stack.drop np)) hw
            exact ⟨r', .loop hr1 nofun (by rw [hs.stack]; exact hr'), hs'⟩
        | ret st2 => intro hw ho; cases ho with | ret hb2 => exact ⟨_, .loop hr1 nofun rfl, .ret hb2⟩
        | exn vs st2 => intro hw ho; cases ho with | exn hb2 => exact ⟨_, .loop hr1 nofun rfl, .exn hb2⟩
        | trap st2 => intro hw ho; cases ho with | trap hb2 => exact ⟨_, .loop hr1 nofun rfl, .trap hb2⟩
        | stuck => intro hw ho; exact absurd hw nofun
        | timeout => intro hw ho; exact absurd hw nofun
      | @ifThen np nr a a' k k' ha hk =>
        simp only [exec] at hw ⊢
        by_cases hst : ∃ c s, st.stack = .i32 c :: s
        · obtain ⟨c, s, hst⟩ := hst
          have hst' : st'.stack = .i32 c :: s := hs.stack.trans hst
          by_cases hc : c = 0
          · subst hc
            simp only [hst, if_true] at hw ⊢
            obtain ⟨r', hr', hs'⟩ := ihe L k k' hk _ _ (hs.withStack s) hw
            exact ⟨r', .ifThen_false hst' hr', hs'⟩
          · simp only [hst, if_neg hc] at hw ⊢
            obtain ⟨o', hr, ho⟩ := ihe L a a' ha _ _ ((hs.withStack s).enter np) (hw.of_andThen ((ticks_ge n).1 k)).of_leave
            obtain ⟨r', hr', hs'⟩ := then_sim (ho.leave nr (s.drop np)) hw (ihe L k k' hk)
            exact ⟨_, .ifThen_true hst' hc hr hr', hs'⟩
        · exfalso
          revert hw
          split
          · exact absurd ⟨_, _, ‹_›⟩ hst
          · exact nofun
      | @ifElse np nr a a' b b' k k' ha hb hk =>
        simp only [exec] at hw ⊢
        by_cases hst : ∃ c s, st.stack = .i32 c :: s
        · obtain ⟨c, s, hst⟩ := hst
          have hst' : st'.stack = .i32 c :: s := hs.stack.trans hst
          simp only [hst] at hw ⊢
          have hab : Inst m g L (if c = 0 then b else a) (if c = 0 then b' else a') := by split <;> assumption
          obtain ⟨o', hr, ho⟩ := ihe L _ _ hab _ _ ((hs.withStack s).enter np) (hw.of_andThen ((ticks_ge n).1 k)).of_leave
          obtain ⟨r', hr', hs'⟩ := then_sim (ho.leave nr (s.drop np)) hw (ihe L k k' hk)
          exact ⟨_, .ifElse hst' hr hr', hs'⟩
        · exfalso
          revert hw
          split
          · exact absurd ⟨_, _, ‹_›⟩ hst
          · exact nofun
    · simp only [invoke] at hw ⊢
      rcases hM f with ⟨h1, h2⟩ | ⟨fn, fn', c', e, h1, h2, hp, hr, hl, hbody, hi⟩
      · rw [h1]
        refine ⟨_, .host h2, ?_⟩
        rw [hs.stack, hs.store]
        simp only
        cases W.host f st.stack st.store with
        | none => exact .trap hs.trap
        | some y => exact .normal ⟨rfl, rfl, hs.globals, hs.locals, hs.ticks, hs.fuel⟩
      · rw [h1] at hw ⊢
        simp only at hw ⊢
        obtain ⟨fuel, hg, hT⟩ := hs.fuel
        have hlt := hw.of_finish.ticks_lt ((ticks_ge n).1 fn.body (fn.start st))
        have h0 : fuel ≠ 0 := by
          intro h
          subst h
          simp [Func.start] at hT hlt
          omega
        obtain ⟨o', hr', ho⟩ := ihe _ _ _ hi _ _ (hs.start hp hl hg h0) hw.of_finish
        have hr1 := runs_check1 (W := W) (M := M') (g := g) (st := fn'.start st') hg h0 hr'
        rw [← hbody] at hr1
        exact ⟨_, .func h2 hr1, ho.finish hs hp hr hw⟩

end Verif.Smith
