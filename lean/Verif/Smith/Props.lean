import Verif.Smith.TermModule
/-
The properties: C35.
-/
namespace Verif.Smith.Props

open Verif.Smith Verif.Smith.Spec

variable {S P : Type}

/-- An embedder for the examples: one memory of one page, `prim` does nothing. -/
def world : World Nat Unit where
  pages _ _ := 1
  pageSize _ := 65536
  memTy _ := .i32
  tableTy _ := .i32
  load l _ _ _ := .zero l.result
  store _ _ _ _ s := s
  bulk _ s st := some (s.drop 3, st)
  prim _ s st := some (s, st)
  brOn _ s _ := some (false, s)
  target _ s _ := some (0, s.drop 1)
  throw _ s _ := some s
  catch_ _ _ := none
  host _ s st := some (s, st + 1)
  load_ty l _ _ _ := by cases l <;> rfl

/-- A module with an imported function, one with a loop that does not end and one that calls itself. -/
def endless : Module Unit where
  globals := [.int .i64]
  definedGlobals := [(0, .i64 7)]
  table64 := []
  memory64 := [false]
  funcs := [(0, 0), (0, 0), (1, 0), (0, 0)]
  code :=
    [ ⟨[], .generated [.block .loop 0 0, .ctl (.call 0), .ctl (.br 0), .end_]⟩,
      ⟨[], .generated [.op (.localGet 0), .ctl (.call 2), .op (.const (.i64 8)), .op (.globalSet 0)]⟩,
      ⟨[.int .i32], .generated [.op (.const (.i32 5)), .op (.localTee 0), .op (.const (.i32 1)),
        .op (.const (.i32 100)), .op (.bulk (.memoryFill 0)), .ctl (.callDyn ())]⟩ ]

theorem endless_valid : Valid endless := by
  refine ⟨by decide, fun i h ty hty => ?_⟩
  match i, h with
  | 0, _ =>
    refine ⟨.block .loop 0 0 (.ctl (.call 0) (.ctl (.br 0) .nil)) .nil, rfl, ?_, ?_⟩ <;> simp [Code.flatten]
  | 1, _ =>
    cases hty
    refine ⟨.op (.localGet 0) (.ctl (.call 2) (.op (.const (.i64 8)) (.op (.globalSet 0) .nil))), rfl, ?_, ?_⟩ <;>
      simp [Code.flatten, endless]
  | 2, _ =>
    cases hty
    refine ⟨.op (.const (.i32 5)) (.op (.localTee 0) (.op (.const (.i32 1)) (.op (.const (.i32 100))
      (.op (.bulk (.memoryFill 0)) (.ctl (.callDyn ()) .nil))))), rfl, ?_, ?_⟩ <;> simp [Code.flatten, endless]

/-- **C35**, the pass succeeds on generated modules: it adds one global of type i32 with the fuel as its
initial value, at the index that is returned. -/
theorem c35_succeeds {m : Module P} (hv : Valid m) (hb : BulkInScope m) (fuel : BitVec 32) :
    ∃ m', ensureTermination m fuel = some (m', m.globals.length) ∧ m'.globals = m.globals ++ [.int .i32] ∧
      m'.definedGlobals = m.definedGlobals ++ [(m.globals.length, .i32 fuel)] ∧ m'.funcs = m.funcs ∧
      m'.table64 = m.table64 ∧ m'.memory64 = m.memory64 := by
  have hs : (instrumentFuncs (withFuel m fuel) m.globals.length (m.funcs.drop (m.funcs.length - m.code.length))
      m.code).isSome := by
    refine instrumentFuncs_isSome _ _ fun i ty code hty hco => ?_
    obtain ⟨hi, hco⟩ := List.getElem?_eq_some_iff.mp hco
    obtain ⟨body, hbody, -⟩ := hv.bodies i hi ty (by rw [List.getElem?_drop] at hty; exact hty)
    rw [hco] at hbody
    obtain ⟨x, hx⟩ := Option.isSome_iff_exists.mp (instrumentAll_isSome (m := withFuel m fuel) (g := m.globals.length)
      (params := ty.1) body.flatten (fun b hbm => by
        obtain ⟨h1, h2⟩ := hb code (hco ▸ List.getElem_mem hi) _ hbody b hbm
        cases b <;> simp only [Module.lenTy, Option.isSome_some, Option.isSome_map] <;>
          simp only [tables, memories, List.mem_cons, List.not_mem_nil, or_false, forall_eq_or_imp, forall_eq] at h1 h2
        case tableFill t => exact by simpa [withFuel] using h1
        case memoryFill t => exact by simpa [withFuel] using h2
        case tableCopy d r =>
          simp only [withFuel, List.getElem?_eq_getElem h1.1, List.getElem?_eq_getElem h1.2]; rfl
        case memoryCopy d r =>
          simp only [withFuel, List.getElem?_eq_getElem h2.1, List.getElem?_eq_getElem h2.2]; rfl) ⟨code.locals, none, none⟩)
    simp [instrumentFunc, hbody, hx]
  obtain ⟨code, hcode⟩ := Option.isSome_iff_exists.mp hs
  refine ⟨{ withFuel m fuel with code := code }, ?_, rfl, rfl, rfl, rfl, rfl⟩
  have hc := hv.counts
  unfold withFuel at hcode
  simp only [ensureTermination, if_neg (Nat.not_lt.mpr hc), hcode, Option.bind_eq_bind, Option.bind_some]
  rfl

/-- **C35**: in a module after the pass every call ends, whatever the state, the embedder and the fuel that is
left. The calls, loop iterations and processed elements are exactly the fuel that was used, or at most one
more than the fuel if there was a trap. -/
theorem c35_terminates {m m' : Module P} {fuel : BitVec 32} {g : Nat} (hv : Valid m)
    (h : ensureTermination m fuel = some (m', g)) (W : World S P) (f : Nat) (st : St S) (left : BitVec 32)
    (hst : st.globals g = .i32 left) :
    ∃ o, Ends W m' f st o ∧
      (∀ st', final? o = some st' → st'.ticks ≤ st.ticks + left.toNat + 1) ∧
      ∀ st', final? o = some st' → o ≠ .trap st' →
        ∃ left' : BitVec 32, st'.globals g = .i32 left' ∧ st'.ticks + left'.toNat = st.ticks + left.toNat := by
  obtain ⟨o, hr, hp⟩ := call_ends (W := W) (allInst hv h) (fun gas _ => ends (allInst hv h) gas) f st
    (st.ticks + left.toNat) ⟨left, hst, Nat.le_refl _, rfl⟩
  refine ⟨o, ends_of_runsCall hr, ?_, ?_⟩
  · intro st' hf
    cases o <;> simp only [final?, Option.some.injEq, reduceCtorEq] at hf <;> subst hf <;>
      first | exact hp | (obtain ⟨l, -, -, e⟩ := hp; omega)
  · intro st' hf hn
    cases o <;> simp only [final?, Option.some.injEq, reduceCtorEq] at hf <;> subst hf
    case trap => exact absurd rfl hn
    all_goals (obtain ⟨l, h1, -, h2⟩ := hp; exact ⟨l, h1, h2⟩)

/-- **C35**, nothing else changes: a call of the original module that ends (normally, with an exception or with a
trap) within the fuel ends in the same way and state after the pass. -/
theorem c35_preserves {m m' : Module P} {fuel : BitVec 32} {g : Nat} (hv : Valid m)
    (h : ensureTermination m fuel = some (m', g)) {W : World S P} (hA : Agrees W m) {f : Nat} {st st' : St S}
    (hst : SameBut g st st') {left : BitVec 32} (hleft : st'.globals g = .i32 left) {o : Out S}
    (ho : Ends W m f st o) (hw : ∃ u, final? o = some u ∧ u.ticks < st.ticks + left.toNat) :
    ∃ o', Ends W m' f st' o' ∧ SameEnd g o o' := by
  obtain ⟨hne, n, hn⟩ := ho
  have hrel := related hv h
  have hA' : Agrees W (withFuel m fuel) := ⟨hA.memory, hA.table⟩
  have hs : Sim g 0 (st.ticks + left.toNat) st st' :=
    ⟨hst.stack, hst.store, hst.globals, fun i hi => absurd hi (Nat.not_lt_zero i), hst.ticks, left, hleft, rfl⟩
  have hw' : Within (st.ticks + left.toNat) (invoke W (func m) (n + 1) f st) := by
    obtain ⟨u, hu, hlt⟩ := hw
    rw [hn (n + 1) (Nat.le_succ n)]
    cases o <;> simp only [final?, Option.some.injEq, reduceCtorEq] at hu <;> subst hu <;> exact hlt
  obtain ⟨o', hr, hso⟩ := (sim hA' hrel _ (n + 1)).2 0 f st st' hs hw'
  refine ⟨o', ends_of_runsCall hr, ?_⟩
  have hn1 := hn (n + 1) (Nat.le_succ n)
  rw [← hn1]
  have hsh := invoke_shape (W := W) (M := func m) (n + 1) f st
  generalize invoke W (func m) (n + 1) f st = x at hso hsh
  cases hso with
  | normal hb => exact .normal ⟨hb.stack, hb.store, hb.globals, hb.ticks⟩
  | exn hb => exact .exn ⟨hb.stack, hb.store, hb.globals, hb.ticks⟩
  | trap hb => exact .trap ⟨rfl, hb.store, hb.globals, hb.ticks⟩
  | branch hb => exact absurd rfl (hsh.1 _ _)
  | ret hb => exact absurd rfl (hsh.2 _)

theorem endless_bulk : BulkInScope endless := by
  intro code hc is his b hb
  simp only [endless, List.mem_cons, List.not_mem_nil, or_false] at hc
  rcases hc with rfl | rfl | rfl <;> cases his <;> simp at hb
  subst hb
  simp [tables, memories, endless]

example : ∃ m', ensureTermination endless 1000 = some (m', 1) :=
  (c35_succeeds endless_valid endless_bulk 1000).elim fun m' h => ⟨m', h.1⟩

/-- The function that loops for ever, and the one that calls itself, end. -/
example (f : Nat) (st : St Nat) (hst : st.globals 1 = .i32 1000) : ∃ m' o, ensureTermination endless 1000 = some (m', 1) ∧
    Ends world m' f st o ∧ ∀ st', final? o = some st' → st'.ticks ≤ st.ticks + 1001 := by
  obtain ⟨m', h, -⟩ := c35_succeeds endless_valid endless_bulk 1000
  obtain ⟨o, h1, h2, -⟩ := c35_terminates endless_valid h world f st 1000 hst
  exact ⟨m', o, h, h1, h2⟩

/-- A state in which a function of the examples is called. -/
def caller : St Nat := ⟨[], fun _ => .i32 0, fun i => if i = 1 then .i32 1000 else .i64 7, 0, 0⟩

/-- The function that fills a hundred bytes and calls the imported function does so after the pass. -/
example : ∃ m' o', ensureTermination endless 1000 = some (m', 1) ∧ Ends world m' 3 caller o' ∧
    SameEnd 1 (.normal { caller with store := 1, ticks := 101 }) o' := by
  obtain ⟨m', h, -⟩ := c35_succeeds endless_valid endless_bulk 1000
  have hends : Ends world endless 3 caller (.normal { caller with store := 1, ticks := 101 }) :=
    ⟨nofun, 20, fun n' hn => invoke_mono _ _ hn rfl nofun⟩
  have hA : Agrees world endless := by
    refine ⟨fun i b hb => ?_, fun i b hb => by simp [endless] at hb⟩
    match i with
    | 0 => cases hb; rfl
    | i + 1 => simp [endless] at hb
  obtain ⟨o', h1, h2⟩ := c35_preserves endless_valid h hA (st := caller) (st' := caller) ⟨rfl, rfl, fun _ _ => rfl, rfl⟩
    (left := 1000) rfl hends ⟨_, rfl, by decide⟩
  exact ⟨m', o', h, h1, h2⟩

end Verif.Smith.Props
