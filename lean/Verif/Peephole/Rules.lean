import Verif.Peephole.Lemmas
/-
Helper lemmas for the peephole rules: each rule by itself.
-/
namespace Verif.Peephole

open Spec

variable {W : Type} {E : Engine W}

/-- A valid expression may be replaced by another one. -/
def Repl (E : Engine W) (a b : Expr) : Prop :=
  ∀ ts, typeOf E a = some ts → typeOf E b = some ts ∧ eval E a = eval E b

/-! ## Types of the shapes in rules -/

theorem typeOf_ib (t : ITy) (o : IBin) (a b : Expr) (ts : List Ty) :
    typeOf E (ib t o a b) = some ts ↔ typeOf E a = some [.i t] ∧ typeOf E b = some [.i t] ∧ ts = [.i t] := by
  simp only [ib, typeOf, typesOf]
  cases ha : typeOf E a with
  | none => simp
  | some ta =>
    cases hb : typeOf E b with
    | none => simp
    | some tb =>
      simp only [Option.bind_some, Option.map_some, Option.some.injEq]
      constructor
      · intro h
        unfold result at h
        split at h <;> simp_all
      · rintro ⟨rfl, rfl, rfl⟩
        simp [result]

theorem typeOf_fb (t : FTy) (o : FBin) (a b : Expr) (ts : List Ty) :
    typeOf E (fb t o a b) = some ts ↔ typeOf E a = some [.f t] ∧ typeOf E b = some [.f t] ∧ ts = [.f t] := by
  simp only [fb, typeOf, typesOf]
  cases ha : typeOf E a with
  | none => simp
  | some ta =>
    cases hb : typeOf E b with
    | none => simp
    | some tb =>
      simp only [Option.bind_some, Option.map_some, Option.some.injEq]
      constructor
      · intro h
        unfold result at h
        split at h <;> simp_all
      · rintro ⟨rfl, rfl, rfl⟩
        simp [result]

theorem typeOf_ieq (t : ITy) (a b : Expr) (ts : List Ty) :
    typeOf E (ieq t a b) = some ts ↔ typeOf E a = some [.i t] ∧ typeOf E b = some [.i t] ∧ ts = [.i .i32] := by
  simp only [ieq, typeOf, typesOf]
  cases ha : typeOf E a with
  | none => simp
  | some ta =>
    cases hb : typeOf E b with
    | none => simp
    | some tb =>
      simp only [Option.bind_some, Option.map_some, Option.some.injEq]
      constructor
      · intro h
        unfold result at h
        split at h <;> simp_all
      · rintro ⟨rfl, rfl, rfl⟩
        simp [result]

theorem typeOf_ieqz (t : ITy) (a : Expr) (ts : List Ty) :
    typeOf E (ieqz t a) = some ts ↔ typeOf E a = some [.i t] ∧ ts = [.i .i32] := by
  simp only [ieqz, typeOf, typesOf]
  cases ha : typeOf E a with
  | none => simp
  | some ta =>
    simp only [Option.bind_some, Option.map_some, Option.some.injEq]
    constructor
    · intro h
      unfold result at h
      split at h <;> simp_all
    · rintro ⟨rfl, rfl⟩
      simp [result]

theorem typeOf_sel (a b c : Expr) (ts : List Ty) :
    typeOf E (sel a b c) = some ts ↔
      ∃ t, typeOf E a = some [t] ∧ typeOf E b = some [t] ∧ typeOf E c = some [.i .i32] ∧ ts = [t] := by
  simp only [sel, typeOf, typesOf]
  cases ha : typeOf E a with
  | none => simp
  | some ta =>
    cases hb : typeOf E b with
    | none => simp
    | some tb =>
      cases hc : typeOf E c with
      | none => simp
      | some tc =>
        simp only [Option.bind_some, Option.map_some, Option.some.injEq]
        constructor
        · intro h
          unfold result at h
          split at h <;> simp_all
          exact ⟨_, h.2.symm⟩
        · rintro ⟨t, rfl, rfl, rfl, rfl⟩
          simp [result]

theorem typeOf_ic (t : ITy) (v : Int) : typeOf E (ic t v) = some [.i t] := rfl

theorem eval_ic (t : ITy) (v : Int) (w : W) : eval E (ic t v) w = .ok [.i t (BitVec.ofInt t.bits v)] w := rfl

/-! ## Meaning of the shapes in rules -/

theorem eval_two (o : Lang) (a b : Expr) (w : W) : eval E (.node o [a, b]) w =
    match eval E a w with
    | .ok vs w =>
      match eval E b w with
      | .ok vs' w => apply E o (vs ++ vs') w
      | .trap => .trap
      | .stuck => .stuck
    | .trap => .trap
    | .stuck => .stuck := by
  simp only [eval, evalArgs]
  cases eval E a w with
  | trap => rfl
  | stuck => rfl
  | ok vs w =>
    dsimp only
    cases eval E b w with
    | trap => rfl
    | stuck => rfl
    | ok vs' w' => simp

theorem eval_single (o : Lang) (a : Expr) (w : W) : eval E (.node o [a]) w =
    match eval E a w with
    | .ok vs w => apply E o vs w
    | .trap => .trap
    | .stuck => .stuck := by
  simp only [eval, evalArgs]
  cases eval E a w with
  | trap => rfl
  | stuck => rfl
  | ok vs w => simp

theorem eval_three (o : Lang) (a b c : Expr) (w : W) : eval E (.node o [a, b, c]) w =
    match eval E a w with
    | .ok vs w =>
      match eval E b w with
      | .ok vs' w =>
        match eval E c w with
        | .ok vs'' w => apply E o (vs ++ (vs' ++ vs'')) w
        | .trap => .trap
        | .stuck => .stuck
      | .trap => .trap
      | .stuck => .stuck
    | .trap => .trap
    | .stuck => .stuck := by
  simp only [eval, evalArgs]
  cases eval E a w with
  | trap => rfl
  | stuck => rfl
  | ok vs w =>
    dsimp only
    cases eval E b w with
    | trap => rfl
    | stuck => rfl
    | ok vs' w' =>
      dsimp only
      cases eval E c w' with
      | trap => rfl
      | stuck => rfl
      | ok vs'' w'' => simp

/-! ## Integers -/

theorem bits_pos (t : ITy) : 4 ≤ t.bits := by cases t <;> decide

/-- A unary function written with one operator and a constant. -/
theorem repl_const {t : ITy} {o : IBin} {c : Int} (x : Expr)
    (h : ∀ v : BitVec t.bits, ibin o v (BitVec.ofInt t.bits c) = v) (hx : typeOf E x = some [.i t])
    (hs : E.Safe) : eval E (ib t o x (ic t c)) = eval E x := by
  funext w
  rw [ib, eval_two]
  rcases eval_i' hs hx w with h1 | ⟨v, w', h1⟩
  · rw [h1]
  · rw [h1]
    dsimp only
    rw [eval_ic]
    exact (apply_ibin E t o v _ w').trans (by rw [h])

theorem repl_same {t : ITy} {o : IBin} (x : Expr) (h : ∀ v : BitVec t.bits, ibin o v v = v)
    (hx : typeOf E x = some [.i t]) (hs : E.Safe) (hp : E.Pure) : eval E (ib t o x x) = eval E x := by
  funext w
  rw [ib, eval_two]
  rcases eval_i hs hp hx w with h1 | ⟨v, h1⟩
  · rw [h1]
  · rw [h1]
    dsimp only
    rw [h1]
    exact (apply_ibin E t o v _ w).trans (by rw [h])

theorem repl_comm {t : ITy} {o : IBin} (x y : Expr) (h : ∀ a b : BitVec t.bits, ibin o a b = ibin o b a)
    (hx : typeOf E x = some [.i t]) (hy : typeOf E y = some [.i t]) (hs : E.Safe) (hp : E.Pure) :
    eval E (ib t o x y) = eval E (ib t o y x) := by
  funext w
  rw [ib, ib, eval_two, eval_two]
  rcases eval_i hs hp hx w with h1 | ⟨v, h1⟩ <;> rcases eval_i hs hp hy w with h2 | ⟨u, h2⟩
  · rw [h1, h2]
  · rw [h1, h2]; dsimp only; rw [h1]
  · rw [h1, h2]; dsimp only; rw [h2]
  · rw [h1, h2]
    dsimp only
    rw [h1, h2]
    exact (apply_ibin E t o v u w).trans (by rw [h]; exact (apply_ibin E t o u v w).symm)

theorem eval_ib {t : ITy} {o : IBin} {x y : Expr} {a b : BitVec t.bits} {w w' w'' : W}
    (hx : eval E x w = .ok [.i t a] w') (hy : eval E y w' = .ok [.i t b] w'') :
    eval E (ib t o x y) w = .ok [.i t (ibin o a b)] w'' := by
  rw [ib, eval_two, hx]
  dsimp only
  rw [hy]
  exact apply_ibin E t o a b w''

theorem eval_ib_trap {t : ITy} {o : IBin} {x y : Expr} {w : W} (h : eval E x w = .trap) :
    eval E (ib t o x y) w = .trap := by
  rw [ib, eval_two, h]

theorem eval_ib_trap' {t : ITy} {o : IBin} {x y : Expr} {w w' : W} {a : BitVec t.bits}
    (hx : eval E x w = .ok [.i t a] w') (h : eval E y w' = .trap) : eval E (ib t o x y) w = .trap := by
  rw [ib, eval_two, hx]
  dsimp only
  rw [h]

theorem repl_assoc {t : ITy} {o : IBin} (x y z : Expr)
    (h : ∀ a b c : BitVec t.bits, ibin o a (ibin o b c) = ibin o (ibin o a b) c)
    (hx : typeOf E x = some [.i t]) (hy : typeOf E y = some [.i t]) (hz : typeOf E z = some [.i t])
    (hs : E.Safe) :
    eval E (ib t o x (ib t o y z)) = eval E (ib t o (ib t o x y) z) := by
  funext w
  rcases eval_i' hs hx w with h1 | ⟨a, w1, h1⟩
  · rw [eval_ib_trap h1, eval_ib_trap (eval_ib_trap h1)]
  rcases eval_i' hs hy w1 with h2 | ⟨b, w2, h2⟩
  · rw [eval_ib_trap' h1 (eval_ib_trap h2), eval_ib_trap (eval_ib_trap' h1 h2)]
  rcases eval_i' hs hz w2 with h3 | ⟨c, w3, h3⟩
  · rw [eval_ib_trap' h1 (eval_ib_trap' h2 h3), eval_ib_trap' (eval_ib h1 h2) h3]
  rw [eval_ib h1 (eval_ib h2 h3), eval_ib (eval_ib h1 h2) h3, h]

/-- Two ways to write a function of one operand. -/
theorem repl_fun {t : ITy} {o o' : IBin} {c c' : Int} (x : Expr)
    (h : ∀ v : BitVec t.bits, ibin o v (BitVec.ofInt t.bits c) = ibin o' v (BitVec.ofInt t.bits c'))
    (hx : typeOf E x = some [.i t]) (hs : E.Safe) :
    eval E (ib t o x (ic t c)) = eval E (ib t o' x (ic t c')) := by
  funext w
  rcases eval_i' hs hx w with h1 | ⟨v, w', h1⟩
  · rw [eval_ib_trap h1, eval_ib_trap h1]
  · rw [eval_ib h1 (eval_ic t c w'), eval_ib h1 (eval_ic t c' w'), h]

theorem repl_double {t : ITy} (x : Expr) (hx : typeOf E x = some [.i t]) (hs : E.Safe) (hp : E.Pure) :
    eval E (ib t .add x x) = eval E (ib t .mul x (ic t 2)) := by
  funext w
  rcases eval_i hs hp hx w with h1 | ⟨v, h1⟩
  · rw [eval_ib_trap h1, eval_ib_trap h1]
  · rw [eval_ib h1 h1, eval_ib h1 (eval_ic t 2 w)]
    congr 3
    show v + v = v * BitVec.ofInt t.bits 2
    have : BitVec.ofInt t.bits 2 = 2#t.bits := rfl
    rw [this, BitVec.mul_two]

theorem repl_eq_comm {t : ITy} (x y : Expr) (hx : typeOf E x = some [.i t]) (hy : typeOf E y = some [.i t])
    (hs : E.Safe) (hp : E.Pure) : eval E (ieq t x y) = eval E (ieq t y x) := by
  funext w
  rw [ieq, ieq, eval_two, eval_two]
  rcases eval_i hs hp hx w with h1 | ⟨v, h1⟩ <;> rcases eval_i hs hp hy w with h2 | ⟨u, h2⟩
  · rw [h1, h2]
  · rw [h1, h2]; dsimp only; rw [h1]
  · rw [h1, h2]; dsimp only; rw [h2]
  · rw [h1, h2]
    dsimp only
    rw [h1, h2]
    exact (apply_eq E t v u w).trans (by rw [Bool.beq_comm]; exact (apply_eq E t u v w).symm)

theorem repl_eqz {t : ITy} (x : Expr) (hx : typeOf E x = some [.i t]) (hs : E.Safe) :
    eval E (ieq t x (ic t 0)) = eval E (ieqz t x) := by
  funext w
  rw [ieq, ieqz, eval_two, eval_single]
  rcases eval_i' hs hx w with h1 | ⟨v, w', h1⟩
  · rw [h1]
  · rw [h1]
    dsimp only
    rw [eval_ic]
    exact (apply_eq E t v _ w').trans (apply_eqz E t v w').symm

theorem repl_or_ones {t : ITy} (x : Expr) (hx : typeOf E x = some [.i t]) (hs : E.Safe) (hp : E.Pure)
    (ht : E.Total) : eval E (ib t .or x (ic t (-1))) = eval E (ic t (-1)) := by
  funext w
  rcases eval_i hs hp hx w with h1 | ⟨v, h1⟩
  · exact absurd h1 (eval_total ht x _ hx w)
  · rw [eval_ib h1 (eval_ic t (-1) w), eval_ic]
    congr 3
    show v ||| BitVec.ofInt t.bits (-1) = _
    have : BitVec.ofInt t.bits (-1) = BitVec.allOnes t.bits := by cases t <;> decide
    rw [this, BitVec.or_allOnes]

theorem repl_select_same (x y : Expr) {t : Ty} (hy : typeOf E y = some [t]) (hx : typeOf E x = some [.i .i32])
    (hs : E.Safe) (hp : E.Pure) (ht : E.Total) : eval E (sel y y x) = eval E y := by
  funext w
  rw [sel, eval_three]
  rcases eval_one hs hp hy w with h1 | ⟨v, h1, -⟩
  · exact absurd h1 (eval_total ht y _ hy w)
  rcases eval_i hs hp hx w with h2 | ⟨u, h2⟩
  · exact absurd h2 (eval_total ht x _ hx w)
  rw [h1]
  dsimp only
  rw [h1]
  dsimp only
  rw [h2]
  show Out.ok [if u = 0 then v else v] w = _
  rw [ite_self]

theorem repl_select_invert (x y z : Expr) {t : Ty} (hx : typeOf E x = some [t]) (hy : typeOf E y = some [t])
    (hz : typeOf E z = some [.i .i32]) (hs : E.Safe) (hp : E.Pure) :
    eval E (sel x y z) = eval E (sel y x (ieqz .i32 z)) := by
  funext w
  rw [sel, sel, eval_three, eval_three, ieqz]
  rcases eval_one hs hp hx w with h1 | ⟨v, h1, -⟩ <;> rcases eval_one hs hp hy w with h2 | ⟨u, h2, -⟩
  · rw [h1, h2]
  · rw [h1, h2]; dsimp only; rw [h1]
  · rw [h1, h2]; dsimp only; rw [h2]
  · rw [h1, h2]
    dsimp only
    rw [h1, h2]
    dsimp only
    rw [eval_single]
    rcases eval_i hs hp hz w with h3 | ⟨c, h3⟩
    · rw [h3]
    · rw [h3]
      dsimp only
      have := apply_eqz E .i32 c w
      rw [this]
      by_cases hc : c = 0
      · subst hc; rfl
      · have h0 : (c == 0) = false := by simpa using hc
        rw [h0]
        show Out.ok [if c = 0 then u else v] w = Out.ok [if (0 : BitVec 32) = 0 then v else u] w
        rw [if_neg hc, if_pos rfl]

theorem typeOf_container (a b : Expr) (ts : List Ty) (ha : typeOf E a = some []) (hb : typeOf E b = some ts) :
    typeOf E (.node .container [a, b]) = some ts ∧ typeOf E (.node .container [b, a]) = some ts := by
  simp [typeOf, typesOf, ha, hb, result]

theorem eval_container (a b : Expr) (ha : ∀ w, eval E a w = .ok [] w) :
    eval E (.node .container [a, b]) = eval E b ∧ eval E (.node .container [b, a]) = eval E b := by
  constructor
  · funext w
    rw [eval_two, ha]
    dsimp only
    cases eval E b w with
    | trap => rfl
    | stuck => rfl
    | ok vs w' => cases vs <;> rfl
  · funext w
    rw [eval_two]
    cases eval E b w with
    | trap => rfl
    | stuck => rfl
    | ok vs w' =>
      dsimp only
      rw [ha]
      simp [apply]

theorem typeOf_dropRand (t : ITy) : typeOf E (dropRand t) = some [] := rfl

theorem typeOf_id {o : Lang} (x : Expr) {t : Ty} (hx : typeOf E x = some [t])
    (ho : (∃ u, o = .unfold u ∧ t = .i u) ∨ o = .useGlobal t) : typeOf E (.node o [x]) = some [t] := by
  rcases ho with ⟨u, rfl, rfl⟩ | rfl <;> simp [typeOf, typesOf, hx, result]

theorem eval_id {o : Lang} (x : Expr) {t : Ty} (hx : typeOf E x = some [t]) (hs : E.Safe)
    (ho : (∃ u, o = .unfold u ∧ t = .i u) ∨ o = .useGlobal t) : eval E (.node o [x]) = eval E x := by
  funext w
  rw [eval_single]
  rcases eval_one' hs hx w with h1 | ⟨v, w', h1, -⟩
  · rw [h1]
  · rw [h1]
    rcases ho with ⟨u, rfl, rfl⟩ | rfl <;> rfl

end Verif.Peephole
