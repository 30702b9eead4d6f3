import Verif.Smith.Runs
import Verif.Smith.Spec
/-
Lemmas about the instrumentation for termination.
-/
namespace Verif.Smith

variable {S P : Type}

/-- The code of `checkFuel1` before other code. -/
def check1 (g : Nat) (k : Code P) : Code P :=
  .op (.globalGet g) (.op (.eqz .i32) (.ifThen 0 0 (.op .unreachable .nil)
    (.op (.globalGet g) (.op (.const (.i32 1)) (.op (.ibin .i32 .sub) (.op (.globalSet g) k))))))

/-- The code of `checkFuelN` before other code. -/
def checkN (g l : Nat) (k : Code P) : Code P :=
  .op (.localGet l) (.op (.globalGet g) (.op (.irel .i32 .geU) (.ifThen 0 0 (.op .unreachable .nil)
    (.op (.globalGet g) (.op (.localGet l) (.op (.ibin .i32 .sub) (.op (.globalSet g) k)))))))

theorem flatten_check1 (g : Nat) (k : Code P) : (check1 g k).flatten = checkFuel1 g ++ k.flatten := rfl

theorem flatten_checkN (g l : Nat) (k : Code P) : (checkN g l k).flatten = checkFuelN g l ++ k.flatten := rfl

/-- The type of the length of a bulk instruction in a module. -/
def Module.lenTy (m : Module P) : Bulk → Option ITy
  | .tableFill t => (m.table64[t]?).map fun b => if b then .i64 else .i32
  | .tableCopy d s => (m.table64[d]?).bind fun a => (m.table64[s]?).map fun b => if a && b then .i64 else .i32
  | .memoryFill t => (m.memory64[t]?).map fun b => if b then .i64 else .i32
  | .memoryCopy d s => (m.memory64[d]?).bind fun a => (m.memory64[s]?).map fun b => if a && b then .i64 else .i32
  | _ => some .i32

theorem agrees_lenTy {W : World S P} {m : Module P} (h : Spec.Agrees W m) {b : Bulk} {t : ITy}
    (hb : m.lenTy b = some t) : W.lenTy b = t := by
  cases b <;> simp only [Module.lenTy, Option.some.injEq, Option.map_eq_some_iff, Option.bind_eq_some_iff] at hb <;>
    simp only [World.lenTy]
  case tableFill i => obtain ⟨a, ha, rfl⟩ := hb; exact h.table i a ha
  case memoryFill i => obtain ⟨a, ha, rfl⟩ := hb; exact h.memory i a ha
  case tableCopy d s =>
    obtain ⟨a, ha, b, hb, rfl⟩ := hb
    rw [h.table d a ha, h.table s b hb]
    cases a <;> cases b <;> rfl
  case memoryCopy d s =>
    obtain ⟨a, ha, b, hb, rfl⟩ := hb
    rw [h.memory d a ha, h.memory s b hb]
    cases a <;> cases b <;> rfl
  all_goals exact hb

/-- Instructions that are kept, and use the locals and globals of the original function. -/
structure Keep (g L : Nat) (o : Op P) : Prop where
  bulk : ∀ b, o ≠ .bulk b
  gget : ∀ i, o = .globalGet i → i ≠ g
  gset : ∀ i, o = .globalSet i → i ≠ g
  lget : ∀ i, o = .localGet i → i < L
  lset : ∀ i, o = .localSet i → i < L
  ltee : ∀ i, o = .localTee i → i < L

/-- The second code is the first with checks. -/
inductive Inst (m : Module P) (g L : Nat) : Code P → Code P → Prop where
  | nil : Inst m g L .nil .nil
  | op {o k k'} : Keep g L o → Inst m g L k k' → Inst m g L (.op o k) (.op o k')
  | bulk32 {b t k k'} : L ≤ t → m.lenTy b = some .i32 → Inst m g L k k' →
      Inst m g L (.op (.bulk b) k) (.op (.localTee t) (checkN g t (.op (.bulk b) k')))
  | bulk64 {b t t32 k k'} : L ≤ t → L ≤ t32 → t ≠ t32 → m.lenTy b = some .i64 → Inst m g L k k' →
      Inst m g L (.op (.bulk b) k) (.op (.localTee t) (.op .wrap (.op (.localSet t32)
        (checkN g t32 (.op (.localGet t) (.op (.bulk b) k'))))))
  | ctl {c k k'} : Inst m g L k k' → Inst m g L (.ctl c k) (.ctl c k')
  | block {np nr b b' k k'} : Inst m g L b b' → Inst m g L k k' →
      Inst m g L (.block .block np nr b k) (.block .block np nr b' k')
  | tryTable {h np nr b b' k k'} : Inst m g L b b' → Inst m g L k k' →
      Inst m g L (.block (.tryTable h) np nr b k) (.block (.tryTable h) np nr b' k')
  | loop {np nr b b' k k'} : Inst m g L b b' → Inst m g L k k' →
      Inst m g L (.block .loop np nr b k) (.block .loop np nr (check1 g b') k')
  | ifThen {np nr a a' k k'} : Inst m g L a a' → Inst m g L k k' →
      Inst m g L (.ifThen np nr a k) (.ifThen np nr a' k')
  | ifElse {np nr a a' b b' k k'} : Inst m g L a a' → Inst m g L b b' → Inst m g L k k' →
      Inst m g L (.ifElse np nr a b k) (.ifElse np nr a' b' k')

/-- The temporary locals are new ones. -/
structure TempsOk (params L : Nat) (s : Temps) : Prop where
  len : L ≤ params + s.locals.length
  t32 : ∀ t, s.t32 = some t → L ≤ t ∧ t < params + s.locals.length
  t64 : ∀ t, s.t64 = some t → L ≤ t ∧ t < params + s.locals.length
  ne : ∀ t, s.t32 = some t → s.t64 ≠ some t

theorem tempI32_ok {params L : Nat} {s : Temps} (h : TempsOk params L s) :
    TempsOk params L (tempI32 params s).2 ∧ L ≤ (tempI32 params s).1 ∧
    (tempI32 params s).2.t32 = some (tempI32 params s).1 ∧ (tempI32 params s).2.t64 = s.t64 ∧
    ∃ e, (tempI32 params s).2.locals = s.locals ++ e := by
  unfold tempI32
  cases hs : s.t32 with
  | some t => exact ⟨h, (h.t32 t hs).1, hs, rfl, [], by simp⟩
  | none =>
    have := h.len
    refine ⟨⟨by simp; omega, ?_, ?_, ?_⟩, by simp only; omega, rfl, rfl, _, rfl⟩
    · intro t ht; cases ht; simp; omega
    · intro t ht; have := h.t64 t ht; simp only [List.length_append, List.length_cons, List.length_nil]; omega
    · intro t ht h64; cases ht; have := h.t64 _ h64; omega

theorem tempI64_ok {params L : Nat} {s : Temps} (h : TempsOk params L s) :
    TempsOk params L (tempI64 params s).2 ∧ L ≤ (tempI64 params s).1 ∧
    (tempI64 params s).2.t64 = some (tempI64 params s).1 ∧ (tempI64 params s).2.t32 = s.t32 ∧
    ∃ e, (tempI64 params s).2.locals = s.locals ++ e := by
  unfold tempI64
  cases hs : s.t64 with
  | some t => exact ⟨h, (h.t64 t hs).1, hs, rfl, [], by simp⟩
  | none =>
    have := h.len
    refine ⟨⟨by simp; omega, ?_, ?_, ?_⟩, by simp only; omega, rfl, rfl, _, rfl⟩
    · intro t ht; have := h.t32 t ht; simp only [List.length_append, List.length_cons, List.length_nil]; omega
    · intro t ht; cases ht; simp; omega
    · intro t ht h64; cases h64; have := h.t32 _ ht; omega

/-- What `instrument` does to a bulk instruction. -/
theorem instrument_bulk {m : Module P} {g params L : Nat} {b : Bulk} {s s' : Temps} {is : List (Instr P)}
    (hs : TempsOk params L s) (h : instrument m g params (.op (.bulk b)) s = some (is, s')) :
    TempsOk params L s' ∧ (∃ e, s'.locals = s.locals ++ e) ∧
    ∀ k k', Inst m g L k k' → ∃ c, Inst m g L (.op (.bulk b) k) c ∧ c.flatten = is ++ k'.flatten := by
  have case32 : ∀ t, m.lenTy b = some .i32 → tempI32 params s = (t, s') →
      is = [.op (.localTee t)] ++ checkFuelN g t ++ [.op (.bulk b)] →
      TempsOk params L s' ∧ (∃ e, s'.locals = s.locals ++ e) ∧
      ∀ k k', Inst m g L k k' → ∃ c, Inst m g L (.op (.bulk b) k) c ∧ c.flatten = is ++ k'.flatten := by
    intro t hb ht his
    have := tempI32_ok hs
    rw [ht] at this
    refine ⟨this.1, this.2.2.2.2, fun k k' hk => ⟨_, .bulk32 this.2.1 hb hk, ?_⟩⟩
    subst his
    simp [Code.flatten, flatten_checkN]
  have case3264 : ∀ is64, m.lenTy b = some (if is64 then .i64 else .i32) →
      charge3264 g params (.op (.bulk b)) is64 s = (is, s') →
      TempsOk params L s' ∧ (∃ e, s'.locals = s.locals ++ e) ∧
      ∀ k k', Inst m g L k k' → ∃ c, Inst m g L (.op (.bulk b) k) c ∧ c.flatten = is ++ k'.flatten := by
    intro is64 hb hc
    cases is64 with
    | false =>
      simp only [charge3264, Bool.false_eq_true, if_false, Prod.mk.injEq] at hc
      exact case32 _ hb (Prod.ext rfl hc.2) hc.1.symm
    | true =>
      simp only [charge3264, if_true, Prod.mk.injEq] at hc
      obtain ⟨h1, h2⟩ := hc
      obtain ⟨o64, l64, e64, e32, x, hx⟩ := tempI64_ok hs
      obtain ⟨o32, l32, e32', e64', y, hy⟩ := tempI32_ok o64
      subst h2
      refine ⟨o32, ⟨x ++ y, by rw [hy, hx, List.append_assoc]⟩, fun k k' hk => ⟨_, .bulk64 l64 l32 ?_ hb hk, ?_⟩⟩
      · intro he
        exact o32.ne _ e32' (by rw [e64', e64, he])
      · subst h1
        simp [Code.flatten, flatten_checkN]
  cases b <;> simp only [instrument, charge32, Option.some.injEq, Prod.mk.injEq, Option.bind_eq_bind,
    Option.bind_eq_some_iff] at h
  case tableFill i => obtain ⟨a, ha, h⟩ := h; exact case3264 a (by simp [Module.lenTy, ha]) h
  case memoryFill i => obtain ⟨a, ha, h⟩ := h; exact case3264 a (by simp [Module.lenTy, ha]) h
  case tableCopy d r =>
    obtain ⟨a, ha, c, hc, h⟩ := h
    exact case3264 (a && c) (by simp [Module.lenTy, ha, hc]) h
  case memoryCopy d r =>
    obtain ⟨a, ha, c, hc, h⟩ := h
    exact case3264 (a && c) (by simp [Module.lenTy, ha, hc]) h
  all_goals exact case32 _ rfl (Prod.ext rfl h.2) h.1.symm

theorem instrumentAll_append {m : Module P} {g params : Nat} (a b : List (Instr P)) : ∀ s,
    instrumentAll m g params (a ++ b) s =
      (instrumentAll m g params a s).bind fun x => (instrumentAll m g params b x.2).map fun y => (x.1 ++ y.1, y.2) := by
  induction a with
  | nil => intro s; simp [instrumentAll]
  | cons i a ih =>
    intro s
    simp only [List.cons_append, instrumentAll, Option.bind_eq_bind]
    cases instrument m g params i s with
    | none => rfl
    | some x =>
      simp only [Option.bind_some, ih]
      cases instrumentAll m g params a x.2 with
      | none => rfl
      | some y =>
        simp only [Option.bind_some]
        cases instrumentAll m g params b y.2 <;> simp

/-- The instructions of code that the scope conditions are about. -/
def Scoped (g L : Nat) (is : List (Instr P)) : Prop :=
  ∀ o, .op o ∈ is → (∀ b, o ≠ .bulk b) → Keep g L o

theorem instrument_keep {m : Module P} {g params : Nat} {o : Op P} (h : ∀ b, o ≠ .bulk b) (s : Temps) :
    instrument m g params (.op o) s = some ([.op o], s) := by
  cases o <;> first | rfl | exact absurd rfl (h _)

/-- What `instrument` gives for the start of a block. -/
def blockHead (g : Nat) : Kind P → Nat → Nat → List (Instr P)
  | .loop, np, nr => .block .loop np nr :: checkFuel1 g
  | kind, np, nr => [.block kind np nr]

theorem instrumentAll_flatten {m : Module P} {g params L : Nat} (c : Code P) : ∀ (is : List (Instr P)) (s s' : Temps),
    Scoped g L c.flatten → TempsOk params L s → instrumentAll m g params c.flatten s = some (is, s') →
    TempsOk params L s' ∧ (∃ e, s'.locals = s.locals ++ e) ∧ ∃ c', Inst m g L c c' ∧ is = c'.flatten := by
  induction c with
  | nil =>
    intro is s s' _ hs h
    cases h
    exact ⟨hs, ⟨[], by simp⟩, .nil, .nil, rfl⟩
  | op o k ih =>
    intro is s s' hsc hs h
    simp only [Code.flatten, instrumentAll, Option.bind_eq_bind, Option.bind_eq_some_iff, Option.some.injEq,
      Prod.mk.injEq] at h
    obtain ⟨⟨i1, s1⟩, h1, ⟨i2, s2⟩, h2, rfl, rfl⟩ := h
    have hk : Scoped g L k.flatten := fun o ho => hsc o (by simp [Code.flatten, ho])
    by_cases hb : ∃ b, o = .bulk b
    · obtain ⟨b, rfl⟩ := hb
      obtain ⟨hs1, ⟨e1, he1⟩, hc⟩ := instrument_bulk hs h1
      obtain ⟨hs2, ⟨e2, he2⟩, k', hk', rfl⟩ := ih _ _ _ hk hs1 h2
      obtain ⟨c', hc', hf⟩ := hc k k' hk'
      exact ⟨hs2, ⟨e1 ++ e2, by simp only [he2, he1, List.append_assoc]⟩, c', hc', hf.symm⟩
    · simp only [not_exists] at hb
      rw [instrument_keep hb] at h1
      cases h1
      obtain ⟨hs2, he, k', hk', rfl⟩ := ih _ _ _ hk hs h2
      exact ⟨hs2, he, .op o k', .op (hsc o (by simp [Code.flatten]) hb) hk', rfl⟩
  | ctl x k ih =>
    intro is s s' hsc hs h
    simp only [Code.flatten, instrumentAll, Option.bind_eq_bind, Option.bind_eq_some_iff, Option.some.injEq,
      Prod.mk.injEq] at h
    obtain ⟨⟨i1, s1⟩, h1, ⟨i2, s2⟩, h2, rfl, rfl⟩ := h
    cases h1
    obtain ⟨hs2, he, k', hk', rfl⟩ := ih _ _ _ (fun o ho => hsc o (by simp [Code.flatten, ho])) hs h2
    exact ⟨hs2, he, .ctl x k', .ctl hk', rfl⟩
  | block kind np nr body k ihb ihk =>
    intro is s s' hsc hs h
    rw [Code.flatten] at h
    simp only [instrumentAll, instrumentAll_append, Option.bind_eq_bind, Option.bind_eq_some_iff, Option.some.injEq,
      Prod.mk.injEq, Option.map_eq_some_iff] at h
    obtain ⟨⟨i1, s1⟩, h1, ⟨i2, s2⟩, ⟨⟨i3, s3⟩, h3, ⟨i4, s4⟩, ⟨⟨i5, s5⟩, h5, ⟨i6, s6⟩, h6, rfl, rfl⟩, rfl, rfl⟩, rfl, rfl⟩ := h
    cases h5
    simp only at h6
    have hs1 : s1 = s ∧ i1 = blockHead g kind np nr := by
      cases kind <;> cases h1 <;> exact ⟨rfl, rfl⟩
    obtain ⟨rfl, hi1⟩ := hs1
    obtain ⟨hs3, ⟨e3, he3⟩, b', hb', rfl⟩ := ihb _ _ _ (fun o ho => hsc o (by simp [Code.flatten, ho])) hs h3
    obtain ⟨hs6, ⟨e6, he6⟩, k', hk', rfl⟩ := ihk _ _ _ (fun o ho => hsc o (by simp [Code.flatten, ho])) hs3 h6
    refine ⟨hs6, ⟨e3 ++ e6, by simp only [he6, he3, List.append_assoc]⟩, ?_⟩
    cases kind with
    | block => exact ⟨_, .block hb' hk', by subst hi1; simp [blockHead, Code.flatten]⟩
    | tryTable h => exact ⟨_, .tryTable hb' hk', by subst hi1; simp [blockHead, Code.flatten]⟩
    | loop => exact ⟨_, .loop hb' hk', by subst hi1; simp [blockHead, Code.flatten, flatten_check1]⟩
  | ifThen np nr a k iha ihk =>
    intro is s s' hsc hs h
    rw [Code.flatten] at h
    simp only [instrumentAll, instrumentAll_append, Option.bind_eq_bind, Option.bind_eq_some_iff, Option.some.injEq,
      Prod.mk.injEq, Option.map_eq_some_iff] at h
    obtain ⟨⟨i1, s1⟩, h1, ⟨i2, s2⟩, ⟨⟨i3, s3⟩, h3, ⟨i4, s4⟩, ⟨⟨i5, s5⟩, h5, ⟨i6, s6⟩, h6, rfl, rfl⟩, rfl, rfl⟩, rfl, rfl⟩ := h
    cases h5; cases h1
    simp only at h6
    obtain ⟨hs3, ⟨e3, he3⟩, b', hb', rfl⟩ := iha _ _ _ (fun o ho => hsc o (by simp [Code.flatten, ho])) hs h3
    obtain ⟨hs6, ⟨e6, he6⟩, k', hk', rfl⟩ := ihk _ _ _ (fun o ho => hsc o (by simp [Code.flatten, ho])) hs3 h6
    refine ⟨hs6, ⟨e3 ++ e6, by simp only [he6, he3, List.append_assoc]⟩, ?_⟩
    exact ⟨_, .ifThen hb' hk', by simp [Code.flatten]⟩
  | ifElse np nr a b k iha ihb ihk =>
    intro is s s' hsc hs h
    rw [Code.flatten] at h
    simp only [instrumentAll, instrumentAll_append, Option.bind_eq_bind, Option.bind_eq_some_iff, Option.some.injEq,
      Prod.mk.injEq, Option.map_eq_some_iff] at h
    obtain ⟨⟨i1, s1⟩, h1, ⟨i2, s2⟩, ⟨⟨i3, s3⟩, h3, ⟨i4, s4⟩, ⟨⟨i5, s5⟩, h5, ⟨i6, s6⟩, ⟨⟨i7, s7⟩, h7, ⟨i8, s8⟩,
      ⟨⟨i9, s9⟩, h9, ⟨i10, s10⟩, h10, rfl, rfl⟩, rfl, rfl⟩, rfl, rfl⟩, rfl, rfl⟩, rfl, rfl⟩ := h
    cases h5; cases h1; cases h9
    simp only at h7 h10
    obtain ⟨hs3, ⟨e3, he3⟩, a', ha', rfl⟩ := iha _ _ _ (fun o ho => hsc o (by simp [Code.flatten, ho])) hs h3
    obtain ⟨hs7, ⟨e7, he7⟩, b', hb', rfl⟩ := ihb _ _ _ (fun o ho => hsc o (by simp [Code.flatten, ho])) hs3 h7
    obtain ⟨hs6, ⟨e6, he6⟩, k', hk', rfl⟩ := ihk _ _ _ (fun o ho => hsc o (by simp [Code.flatten, ho])) hs7 h10
    refine ⟨hs6, ⟨e3 ++ e7 ++ e6, by simp only [he6, he7, he3, List.append_assoc]⟩, ?_⟩
    exact ⟨_, .ifElse ha' hb' hk', by simp [Code.flatten]⟩

end Verif.Smith
