import Verif.Smith.TermMain
/-
The module: lemmas.
-/
namespace Verif.Smith

variable {S P : Type} {W : World S P}

open Spec

theorem instrumentFuncs_get {m : Module P} {g : Nat} : ∀ (tys : List (Nat × Nat)) (codes out : List (CodeEntry P)),
    tys.length = codes.length → instrumentFuncs m g tys codes = some out →
    out.length = codes.length ∧ ∀ (i : Nat) (ty : Nat × Nat) (code : CodeEntry P), tys[i]? = some ty → codes[i]? = some code →
      ∃ new, out[i]? = some new ∧ instrumentFunc m g ty.1 code = some new := by
  intro tys
  induction tys with
  | nil =>
    intro codes out hl h
    cases codes with
    | nil => cases h; exact ⟨rfl, nofun⟩
    | cons c cs => simp at hl
  | cons ty tys ih =>
    intro codes out hl h
    cases codes with
    | nil => simp at hl
    | cons c cs =>
      simp only [instrumentFuncs, Option.bind_eq_bind, Option.bind_eq_some_iff, Option.some.injEq] at h
      obtain ⟨new, hnew, rest, hrest, rfl⟩ := h
      obtain ⟨h1, h2⟩ := ih cs rest (by simpa using hl) hrest
      refine ⟨by simp [h1], fun i ty' code h3 h4 => ?_⟩
      cases i with
      | zero =>
        simp only [List.getElem?_cons_zero, Option.some.injEq] at h3 h4 ⊢
        subst h3 h4
        exact ⟨new, rfl, hnew⟩
      | succ i => simpa using h2 i ty' code (by simpa using h3) (by simpa using h4)

theorem scoped_of_inScope {g L : Nat} {is : List (Instr P)} (h : InScope g L is) : Scoped g L is := by
  intro o ho hb
  refine ⟨hb, ?_, ?_, ?_, ?_, ?_⟩
  · rintro i rfl; exact Nat.ne_of_lt (h.1 i (.inl ho))
  · rintro i rfl; exact Nat.ne_of_lt (h.1 i (.inr ho))
  · rintro i rfl; exact h.2 i (.inl ho)
  · rintro i rfl; exact h.2 i (.inr (.inl ho))
  · rintro i rfl; exact h.2 i (.inr (.inr ho))

theorem instrumentFunc_some {m : Module P} {g params : Nat} {code new : CodeEntry P} {body : Code P}
    (hb : code.instructions = .generated body.flatten) (hs : InScope g (params + code.locals.length) body.flatten)
    (h : instrumentFunc m g params code = some new) :
    ∃ c' e, new = ⟨code.locals ++ e, .generated (check1 g c').flatten⟩ ∧ Inst m g (params + code.locals.length) body c' := by
  simp only [instrumentFunc, hb, Option.bind_eq_bind, Option.bind_eq_some_iff, Option.some.injEq] at h
  obtain ⟨⟨is, s⟩, h1, rfl⟩ := h
  have hok : TempsOk params (params + code.locals.length) ⟨code.locals, none, none⟩ := ⟨Nat.le_refl _, nofun, nofun, nofun⟩
  obtain ⟨-, ⟨e, he⟩, c', hi, rfl⟩ := instrumentAll_flatten body _ _ _ (scoped_of_inScope hs) hok h1
  exact ⟨c', e, by simp only [he, flatten_check1], hi⟩

/-- The module after adding the global. -/
def withFuel (m : Module P) (fuel : BitVec 32) : Module P :=
  { m with globals := m.globals ++ [.int .i32], definedGlobals := m.definedGlobals ++ [(m.globals.length, .i32 fuel)] }

theorem ensure_inv {m m' : Module P} {fuel : BitVec 32} {g : Nat} (h : ensureTermination m fuel = some (m', g)) :
    g = m.globals.length ∧ m.code.length ≤ m.funcs.length ∧ ∃ code, m' = { withFuel m fuel with code := code } ∧
      instrumentFuncs (withFuel m fuel) g (m.funcs.drop (m.funcs.length - m.code.length)) m.code = some code := by
  simp only [ensureTermination] at h
  split at h
  · cases h
  · simp only [Option.bind_eq_bind, Option.bind_eq_some_iff, Option.some.injEq, Prod.mk.injEq] at h
    obtain ⟨code, h1, rfl, rfl⟩ := h
    exact ⟨rfl, by omega, code, rfl, h1⟩

theorem func_some {m : Module P} {f : Nat} {ty : Nat × Nat} {code : CodeEntry P} {body : Code P}
    (h1 : ¬ f < m.funcs.length - m.code.length) (h2 : m.funcs[f]? = some ty)
    (h3 : m.code[f - (m.funcs.length - m.code.length)]? = some code) (h4 : code.instructions = .generated body.flatten) :
    func m f = some ⟨ty.1, ty.2, code.locals, body⟩ := by
  simp only [func, if_neg h1, h2, h3, h4, Option.bind_eq_bind, Option.bind_some, parse_flatten]

theorem func_none {m : Module P} {f : Nat} (h : f < m.funcs.length - m.code.length ∨ m.funcs.length ≤ f) :
    func m f = none := by
  unfold func
  rcases h with h | h
  · simp [h]
  · by_cases h' : f < m.funcs.length - m.code.length
    · simp [h']
    · simp [h', List.getElem?_eq_none h]

theorem related {m m' : Module P} {fuel : BitVec 32} {g : Nat} (hv : Valid m)
    (h : ensureTermination m fuel = some (m', g)) : Related (withFuel m fuel) g (func m) (func m') := by
  obtain ⟨rfl, hc, code, rfl, hcode⟩ := ensure_inv h
  obtain ⟨hlen, hget⟩ := instrumentFuncs_get _ _ _ (by simp; omega) hcode
  intro f
  by_cases hf : f < m.funcs.length - m.code.length ∨ m.funcs.length ≤ f
  · exact .inl ⟨func_none hf, func_none (by simp only [withFuel, hlen]; exact hf)⟩
  · right
    simp only [not_or, Nat.not_lt, Nat.not_le] at hf
    have hi : f - (m.funcs.length - m.code.length) < m.code.length := by omega
    have hty : m.funcs[f]? = some m.funcs[f] := List.getElem?_eq_getElem hf.2
    have hco := List.getElem?_eq_getElem hi
    obtain ⟨body, hb, hs⟩ := hv.bodies _ hi m.funcs[f] (by rw [Nat.add_sub_cancel' hf.1]; exact hty)
    obtain ⟨new, hn, hin⟩ := hget _ m.funcs[f] _ (by rw [List.getElem?_drop, Nat.add_sub_cancel' hf.1]; exact hty) hco
    obtain ⟨c', e, rfl, hinst⟩ := instrumentFunc_some hb hs hin
    refine ⟨_, ⟨m.funcs[f].1, m.funcs[f].2, _ ++ e, check1 m.globals.length c'⟩, c', e, func_some (by omega) hty hco hb,
      ?_, rfl, rfl, rfl, rfl, hinst⟩
    exact func_some (m := { withFuel m fuel with code := code }) (by simp only [withFuel, hlen]; omega) hty
      (by simp only [withFuel, hlen]; exact hn) rfl

theorem allInst {m m' : Module P} {fuel : BitVec 32} {g : Nat} (hv : Valid m)
    (h : ensureTermination m fuel = some (m', g)) : AllInst (withFuel m fuel) g (func m') := by
  intro f fn hf
  rcases related hv h f with ⟨-, h2⟩ | ⟨fn1, fn', c', e, -, h2, -, -, -, hb, hi⟩
  · rw [h2] at hf; cases hf
  · rw [h2] at hf
    cases hf
    exact ⟨_, _, c', hb, hi⟩

theorem ends_of_runsCall {m : Module P} {f : Nat} {st : St S} {o : Out S} (h : RunsCall W (func m) f st o) :
    Ends W m f st o := by
  obtain ⟨ho, n, hn⟩ := h
  exact ⟨ho, n, fun n' hn' => invoke_mono W _ hn' hn ho⟩

theorem invoke_shape {M : Nat → Option (Func P)} (n f : Nat) (st : St S) :
    (∀ l u, invoke W M n f st ≠ .branch l u) ∧ ∀ u, invoke W M n f st ≠ .ret u := by
  cases n with
  | zero => simp [invoke]
  | succ n =>
    simp only [invoke]
    cases M f with
    | none => cases W.host f st.stack st.store <;> simp [hostRes]
    | some fn =>
      simp only
      cases exec W M n fn.body (fn.start st) with
      | branch l u => cases l <;> simp [Func.finish]
      | _ => simp [Func.finish]

/-- The instrumentation succeeds. -/
theorem instrument_isSome {m : Module P} {g params : Nat} {i : Instr P}
    (h : ∀ b, i = .op (.bulk b) → (m.lenTy b).isSome) (s : Temps) : (instrument m g params i s).isSome := by
  cases i with
  | op o =>
    by_cases hb : ∃ b, o = .bulk b
    · obtain ⟨b, rfl⟩ := hb
      have := h b rfl
      cases b <;> simp only [instrument, Option.isSome_some, Option.bind_eq_bind] <;>
        simp only [Module.lenTy, Option.isSome_map] at this
      case tableFill t => obtain ⟨x, hx⟩ := Option.isSome_iff_exists.mp this; simp [hx]
      case memoryFill t => obtain ⟨x, hx⟩ := Option.isSome_iff_exists.mp this; simp [hx]
      case tableCopy d r =>
        cases hd : m.table64[d]? with
        | none => simp [hd] at this
        | some x => cases hr : m.table64[r]? with
          | none => simp [hd, hr] at this
          | some y => simp
      case memoryCopy d r =>
        cases hd : m.memory64[d]? with
        | none => simp [hd] at this
        | some x => cases hr : m.memory64[r]? with
          | none => simp [hd, hr] at this
          | some y => simp
    · rw [instrument_keep (fun b hb' => hb ⟨b, hb'⟩)]; rfl
  | block k np nr => cases k <;> rfl
  | _ => rfl

theorem instrumentAll_isSome {m : Module P} {g params : Nat} (is : List (Instr P))
    (h : ∀ b, .op (.bulk b) ∈ is → (m.lenTy b).isSome) : ∀ s, (instrumentAll m g params is s).isSome := by
  induction is with
  | nil => intro s; rfl
  | cons i is ih =>
    intro s
    obtain ⟨x, hx⟩ := Option.isSome_iff_exists.mp
      (instrument_isSome (g := g) (params := params) (i := i) (fun b hb => h b (by simp [hb])) s)
    obtain ⟨y, hy⟩ := Option.isSome_iff_exists.mp (ih (fun b hb => h b (by simp [hb])) x.2)
    simp only [instrumentAll, Option.bind_eq_bind, hx, Option.bind_some, hy]
    rfl

theorem instrumentFuncs_isSome {m : Module P} {g : Nat} : ∀ (tys : List (Nat × Nat)) (codes : List (CodeEntry P)),
    (∀ (i : Nat) (ty : Nat × Nat) (code : CodeEntry P), tys[i]? = some ty → codes[i]? = some code → (instrumentFunc m g ty.1 code).isSome) →
    (instrumentFuncs m g tys codes).isSome := by
  intro tys
  induction tys with
  | nil => intro codes _; cases codes <;> rfl
  | cons ty tys ih =>
    intro codes h
    cases codes with
    | nil => rfl
    | cons c cs =>
      obtain ⟨x, hx⟩ := Option.isSome_iff_exists.mp (h 0 ty c rfl rfl)
      obtain ⟨y, hy⟩ := Option.isSome_iff_exists.mp (ih cs fun i ty' code h1 h2 => h (i + 1) ty' code h1 h2)
      simp [instrumentFuncs, hx, hy]

end Verif.Smith
