import Verif.Peephole.Spec
/-
Helper lemmas for the peephole rules.
-/
namespace Verif.Peephole

open Spec

variable {W : Type}

/-! ## Types -/

theorem ty_i {v : Val} {t : ITy} (h : v.ty = .i t) : ∃ x, v = .i t x := by
  cases v with
  | i t' x => simp only [Val.ty, Ty.i.injEq] at h; subst h; exact ⟨x, rfl⟩
  | f t' x => simp [Val.ty] at h
  | other k n => simp [Val.ty] at h

theorem ty_f {v : Val} {t : FTy} (h : v.ty = .f t) : ∃ x, v = .f t x := by
  cases v with
  | f t' x => simp only [Val.ty, Ty.f.injEq] at h; subst h; exact ⟨x, rfl⟩
  | i t' x => simp [Val.ty] at h
  | other k n => simp [Val.ty] at h

theorem map_one {vs : List Val} {t : Ty} (h : vs.map Val.ty = [t]) : ∃ v, vs = [v] ∧ v.ty = t := by
  match vs, h with
  | [v], h => exact ⟨v, rfl, by simpa using h⟩

theorem map_two {vs : List Val} {t u : Ty} (h : vs.map Val.ty = [t, u]) :
    ∃ v v', vs = [v, v'] ∧ v.ty = t ∧ v'.ty = u := by
  match vs, h with
  | [v, v'], h => simp only [List.map_cons, List.map_nil, List.cons.injEq, and_true] at h; exact ⟨v, v', rfl, h.1, h.2⟩

theorem map_three {vs : List Val} {t u x : Ty} (h : vs.map Val.ty = [t, u, x]) :
    ∃ v v' v'', vs = [v, v', v''] ∧ v.ty = t ∧ v'.ty = u ∧ v''.ty = x := by
  match vs, h with
  | [v, v', v''], h =>
    simp only [List.map_cons, List.map_nil, List.cons.injEq, and_true] at h
    exact ⟨v, v', v'', rfl, h.1, h.2.1, h.2.2⟩

theorem flatten_single (ts : List Ty) : (ts.map (fun t => [t])).flatten = ts := by
  induction ts with
  | nil => rfl
  | cons t ts ih => simp [ih]

theorem apply_ibin (E : Engine W) (t : ITy) (o : IBin) (a b : BitVec t.bits) (w : W) :
    apply E (.ibin t o) [.i t a, .i t b] w = .ok [.i t (ibin o a b)] w := by
  simp only [apply, and_self, dite_true]

theorem apply_fbin (E : Engine W) (t : FTy) (o : FBin) (a b : BitVec t.bits) (w : W) :
    apply E (.fbin t o) [.f t a, .f t b] w = .ok [.f t (E.fbin t o a b)] w := by
  simp only [apply, and_self, dite_true]

theorem apply_eq (E : Engine W) (t : ITy) (a b : BitVec t.bits) (w : W) :
    apply E (.eq t) [.i t a, .i t b] w = .ok [bool (a == b)] w := by
  simp only [apply, and_self, dite_true]

theorem apply_eqz (E : Engine W) (t : ITy) (a : BitVec t.bits) (w : W) :
    apply E (.eqz t) [.i t a] w = .ok [bool (a == 0)] w := by
  simp only [apply, if_true]

/-- Operators are type safe. -/
theorem apply_safe {E : Engine W} (hs : E.Safe) {o : Lang} {tss : List (List Ty)} {ts : List Ty}
    (h : result E o tss = some ts) {vs : List Val} (hv : vs.map Val.ty = tss.flatten) (w : W) :
    (∃ k, o = .other k ∧ apply E o vs w = .trap) ∨
      ∃ vs' w', apply E o vs w = .ok vs' w' ∧ vs'.map Val.ty = ts ∧ ((∀ k, o ≠ .other k) → w' = w) := by
  unfold result at h
  split at h
  · cases h; simp only [List.flatten_nil, List.map_eq_nil_iff] at hv; subst hv
    exact .inr ⟨_, _, rfl, rfl, fun _ => rfl⟩
  · cases h; simp only [List.flatten_nil, List.map_eq_nil_iff] at hv; subst hv
    exact .inr ⟨_, _, rfl, rfl, fun _ => rfl⟩
  · split at h
    · next hab =>
      cases h; obtain ⟨rfl, rfl⟩ := hab
      obtain ⟨v, v', rfl, h1, h2⟩ := map_two hv
      obtain ⟨x, rfl⟩ := ty_i h1
      obtain ⟨y, rfl⟩ := ty_i h2
      exact .inr ⟨_, w, apply_ibin E _ _ x y w, rfl, fun _ => rfl⟩
    · cases h
  · split at h
    · next hab =>
      cases h; obtain ⟨rfl, rfl⟩ := hab
      obtain ⟨v, v', rfl, h1, h2⟩ := map_two hv
      obtain ⟨x, rfl⟩ := ty_f h1
      obtain ⟨y, rfl⟩ := ty_f h2
      exact .inr ⟨_, w, apply_fbin E _ _ x y w, rfl, fun _ => rfl⟩
    · cases h
  · split at h
    · next hab =>
      cases h; obtain ⟨rfl, rfl⟩ := hab
      obtain ⟨v, v', rfl, h1, h2⟩ := map_two hv
      obtain ⟨x, rfl⟩ := ty_i h1
      obtain ⟨y, rfl⟩ := ty_i h2
      exact .inr ⟨_, w, apply_eq E _ x y w, rfl, fun _ => rfl⟩
    · cases h
  · split at h
    · next hab =>
      cases h; subst hab
      obtain ⟨v, rfl, h1⟩ := map_one hv
      obtain ⟨x, rfl⟩ := ty_i h1
      exact .inr ⟨_, w, apply_eqz E _ x w, rfl, fun _ => rfl⟩
    · cases h
  · split at h
    · next hab =>
      cases h; obtain ⟨rfl, rfl⟩ := hab
      obtain ⟨v, v', v'', rfl, h1, h2, h3⟩ := map_three hv
      obtain ⟨x, rfl⟩ := ty_i h3
      refine .inr ⟨_, w, rfl, ?_, fun _ => rfl⟩
      simp only [List.map_cons, List.map_nil]
      split
      · rw [h2]
      · rw [h1]
    · cases h
  · cases h
    obtain ⟨v, rfl, h1⟩ := map_one hv
    exact .inr ⟨_, _, rfl, rfl, fun _ => rfl⟩
  · cases h; simp only [List.flatten_nil, List.map_eq_nil_iff] at hv; subst hv
    exact .inr ⟨_, _, rfl, rfl, fun _ => rfl⟩
  · cases h
    refine .inr ⟨vs, w, ?_, hv, fun _ => rfl⟩
    cases vs <;> rfl
  · split at h
    · next hab =>
      cases h; subst hab
      obtain ⟨v, rfl, h1⟩ := map_one hv
      exact .inr ⟨_, _, rfl, by simp [h1], fun _ => rfl⟩
    · cases h
  · split at h
    · next hab =>
      cases h; subst hab
      obtain ⟨v, rfl, h1⟩ := map_one hv
      exact .inr ⟨_, _, rfl, by simp [h1], fun _ => rfl⟩
    · cases h
  · next tss' k =>
    split at h
    · next ins outs hk =>
      split at h
      · next hts =>
        cases h
        rw [hts, flatten_single] at hv
        have happ : apply E (.other k) vs w = E.run k vs w := by cases vs <;> rfl
        rw [happ]
        rcases hs k ins _ hk vs hv w with h1 | ⟨vs', w', h1, h2⟩
        · exact .inl ⟨k, rfl, h1⟩
        · exact .inr ⟨vs', w', h1, h2, fun hn => absurd rfl (hn k)⟩
      · cases h
    · cases h
  · cases h

/-- What a valid expression evaluates to. -/
def Evaluates (E : Engine W) (r : W → Out W) (ts : List Ty) : Prop :=
  ∀ w, r w = .trap ∨ ∃ vs w', r w = .ok vs w' ∧ vs.map Val.ty = ts

theorem isRand_eq {e : Expr} (h : isRand e = true) : ∃ t, e = .node (.rand t) [] := by
  unfold isRand at h
  split at h
  · exact ⟨_, rfl⟩
  · cases h

/-- The case of `typeOf` for a dropped random constant. -/
theorem typeOf_node {E : Engine W} {o : Lang} {args : List Expr} {ts : List Ty} (h : typeOf E (.node o args) = some ts) :
    (∃ t, o = .drop ∧ args = [.node (.rand t) []] ∧ ts = []) ∨
      ∃ tss, typesOf E args = some tss ∧ result E o tss = some ts := by
  rw [typeOf.eq_def] at h
  dsimp only at h
  split at h
  · next h1 h2 =>
    left
    match args, h2 with
    | [a], h2 =>
      simp only [List.map_cons, List.map_nil, List.cons.injEq, and_true] at h2
      obtain ⟨t, rfl⟩ := isRand_eq h2
      cases h
      exact ⟨t, rfl, rfl, rfl⟩
    | _ :: _ :: _, h2 => simp at h2
  · right
    rw [Option.bind_eq_some_iff] at h
    exact h

theorem typesOf_cons {E : Engine W} {a : Expr} {as : List Expr} {tss : List (List Ty)}
    (h : typesOf E (a :: as) = some tss) :
    ∃ ts tss', typeOf E a = some ts ∧ typesOf E as = some tss' ∧ tss = ts :: tss' := by
  rw [typesOf, Option.bind_eq_some_iff] at h
  obtain ⟨ts, h1, h2⟩ := h
  rw [Option.map_eq_some_iff] at h2
  obtain ⟨tss', h2, rfl⟩ := h2
  exact ⟨ts, tss', h1, h2, rfl⟩

mutual
theorem eval_safe {E : Engine W} (hs : E.Safe) :
    ∀ (e : Expr) (ts : List Ty), typeOf E e = some ts → ∀ w,
      eval E e w = .trap ∨ ∃ vs w', eval E e w = .ok vs w' ∧ vs.map Val.ty = ts
  | .var v => nomatch v
  | .node o args => by
    intro ts h w
    rcases typeOf_node h with ⟨t, rfl, rfl, rfl⟩ | ⟨tss, h1, h2⟩
    · exact .inr ⟨[], w, rfl, rfl⟩
    · rw [eval.eq_def]
      dsimp only
      rcases evalArgs_safe hs args _ h1 w with h3 | ⟨vs, w', h3, h4⟩
      · rw [h3]; exact .inl rfl
      · rw [h3]
        rcases apply_safe hs h2 h4 w' with ⟨k, -, h5⟩ | ⟨vs', w'', h5, h6, -⟩
        · exact .inl h5
        · exact .inr ⟨vs', w'', h5, h6⟩
theorem evalArgs_safe {E : Engine W} (hs : E.Safe) :
    ∀ (as : List Expr) (tss : List (List Ty)), typesOf E as = some tss → ∀ w,
      evalArgs E as w = .trap ∨ ∃ vs w', evalArgs E as w = .ok vs w' ∧ vs.map Val.ty = tss.flatten
  | [] => by
    intro tss h w
    cases h
    exact .inr ⟨[], w, rfl, rfl⟩
  | a :: as => by
    intro tss h w
    obtain ⟨ts, tss', h1, h2, rfl⟩ := typesOf_cons h
    rw [evalArgs.eq_def]
    dsimp only
    rcases eval_safe hs a _ h1 w with h3 | ⟨vs, w', h3, h4⟩
    · rw [h3]; exact .inl rfl
    · rw [h3]
      dsimp only
      rcases evalArgs_safe hs as _ h2 w' with h5 | ⟨vs', w'', h5, h6⟩
      · rw [h5]; exact .inl rfl
      · rw [h5]
        exact .inr ⟨_, _, rfl, by rw [List.map_append, h4, h6, List.flatten_cons]⟩
end

/-- Operators other than the ones that are not modelled leave the world alone. -/
theorem apply_pure {E : Engine W} (hp : E.Pure) {o : Lang} {tss : List (List Ty)} {ts : List Ty}
    (h : result E o tss = some ts) {vs vs' : List Val} {w w' : W} (ha : apply E o vs w = .ok vs' w') : w' = w := by
  unfold apply at ha
  split at ha
  case h_14 w'' k =>
    simp only [result] at h
    split at h
    · next hk => exact hp k _ _ hk _ _ _ _ ha
    · cases h
  all_goals first
    | (cases ha; done)
    | (cases ha; rfl)
    | (split at ha <;> first | (cases ha; rfl) | cases ha)

mutual
theorem eval_pure {E : Engine W} (hp : E.Pure) :
    ∀ (e : Expr) (ts : List Ty), typeOf E e = some ts → ∀ (w : W) (vs : List Val) (w' : W),
      eval E e w = .ok vs w' → w' = w
  | .var v => nomatch v
  | .node o args => by
    intro ts h w vs w' he
    rcases typeOf_node h with ⟨t, rfl, rfl, rfl⟩ | ⟨tss, h1, h2⟩
    · cases he; rfl
    · rw [eval.eq_def] at he
      dsimp only at he
      split at he
      · next vs1 w1 h3 =>
        rw [apply_pure hp h2 he]
        exact evalArgs_pure hp args _ h1 _ _ _ h3
      · cases he
      · cases he
theorem evalArgs_pure {E : Engine W} (hp : E.Pure) :
    ∀ (as : List Expr) (tss : List (List Ty)), typesOf E as = some tss → ∀ (w : W) (vs : List Val) (w' : W),
      evalArgs E as w = .ok vs w' → w' = w
  | [] => by
    intro tss h w vs w' he
    cases he; rfl
  | a :: as => by
    intro tss h w vs w' he
    obtain ⟨ts, tss', h1, h2, rfl⟩ := typesOf_cons h
    rw [evalArgs.eq_def] at he
    dsimp only at he
    split at he
    · next vs1 w1 h3 =>
      have e1 := eval_pure hp a _ h1 _ _ _ h3
      subst e1
      split at he
      · next vs2 w2 h4 =>
        cases he
        exact evalArgs_pure hp as _ h2 _ _ _ h4
      · cases he
      · cases he
    · cases he
    · cases he
end

theorem apply_total {E : Engine W} (ht : E.Total) {o : Lang} {tss : List (List Ty)} {ts : List Ty}
    (h : result E o tss = some ts) {vs : List Val} {w : W} : apply E o vs w ≠ .trap := by
  intro ha
  unfold apply at ha
  split at ha
  case h_14 w'' k =>
    simp only [result] at h
    split at h
    · next hk => exact ht k _ _ hk _ _ ha
    · cases h
  all_goals first
    | cases ha
    | (split at ha <;> cases ha)

mutual
theorem eval_total {E : Engine W} (ht : E.Total) :
    ∀ (e : Expr) (ts : List Ty), typeOf E e = some ts → ∀ (w : W), eval E e w ≠ .trap
  | .var v => nomatch v
  | .node o args => by
    intro ts h w he
    rcases typeOf_node h with ⟨t, rfl, rfl, rfl⟩ | ⟨tss, h1, h2⟩
    · cases he
    · rw [eval.eq_def] at he
      dsimp only at he
      split at he
      · exact apply_total ht h2 he
      · next h3 => exact evalArgs_total ht args _ h1 _ h3
      · cases he
theorem evalArgs_total {E : Engine W} (ht : E.Total) :
    ∀ (as : List Expr) (tss : List (List Ty)), typesOf E as = some tss → ∀ (w : W), evalArgs E as w ≠ .trap
  | [] => by
    intro tss h w he
    cases he
  | a :: as => by
    intro tss h w he
    obtain ⟨ts, tss', h1, h2, rfl⟩ := typesOf_cons h
    rw [evalArgs.eq_def] at he
    dsimp only at he
    split at he
    · split at he
      · cases he
      · next h4 => exact evalArgs_total ht as _ h2 _ h4
      · cases he
    · next h3 => exact eval_total ht a _ h1 _ h3
    · cases he
end

/-- What a valid expression with one value evaluates to if nothing changes the world. -/
theorem eval_one {E : Engine W} (hs : E.Safe) (hp : E.Pure) {e : Expr} {t : Ty} (h : typeOf E e = some [t]) (w : W) :
    eval E e w = .trap ∨ ∃ v, eval E e w = .ok [v] w ∧ v.ty = t := by
  rcases eval_safe hs e _ h w with h1 | ⟨vs, w', h1, h2⟩
  · exact .inl h1
  · obtain ⟨v, rfl, h3⟩ := map_one h2
    have := eval_pure hp e _ h _ _ _ h1
    subst this
    exact .inr ⟨v, h1, h3⟩

theorem eval_i {E : Engine W} (hs : E.Safe) (hp : E.Pure) {e : Expr} {t : ITy} (h : typeOf E e = some [.i t]) (w : W) :
    eval E e w = .trap ∨ ∃ x, eval E e w = .ok [.i t x] w := by
  rcases eval_one hs hp h w with h1 | ⟨v, h1, h2⟩
  · exact .inl h1
  · obtain ⟨x, rfl⟩ := ty_i h2
    exact .inr ⟨x, h1⟩

theorem eval_f {E : Engine W} (hs : E.Safe) (hp : E.Pure) {e : Expr} {t : FTy} (h : typeOf E e = some [.f t]) (w : W) :
    eval E e w = .trap ∨ ∃ x, eval E e w = .ok [.f t x] w := by
  rcases eval_one hs hp h w with h1 | ⟨v, h1, h2⟩
  · exact .inl h1
  · obtain ⟨x, rfl⟩ := ty_f h2
    exact .inr ⟨x, h1⟩

/-- What a valid expression with one value evaluates to. -/
theorem eval_one' {E : Engine W} (hs : E.Safe) {e : Expr} {t : Ty} (h : typeOf E e = some [t]) (w : W) :
    eval E e w = .trap ∨ ∃ v w', eval E e w = .ok [v] w' ∧ v.ty = t := by
  rcases eval_safe hs e _ h w with h1 | ⟨vs, w', h1, h2⟩
  · exact .inl h1
  · obtain ⟨v, rfl, h3⟩ := map_one h2
    exact .inr ⟨v, w', h1, h3⟩

theorem eval_i' {E : Engine W} (hs : E.Safe) {e : Expr} {t : ITy} (h : typeOf E e = some [.i t]) (w : W) :
    eval E e w = .trap ∨ ∃ x w', eval E e w = .ok [.i t x] w' := by
  rcases eval_one' hs h w with h1 | ⟨v, w', h1, h2⟩
  · exact .inl h1
  · obtain ⟨x, rfl⟩ := ty_i h2
    exact .inr ⟨x, w', h1⟩

end Verif.Peephole
