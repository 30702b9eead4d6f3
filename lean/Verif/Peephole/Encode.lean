import Verif.Peephole.Sound
/-
Helper lemmas for the peephole rules: the congruence that rules generate, and the instructions that
are written for expressions.
-/
namespace Verif.Peephole

open Spec

variable {W : Type} {E : Engine W}

/-! ## The congruence -/

/-- What rewriting preserves. -/
structure Equiv (E : Engine W) (a b : Expr) : Prop where
  type : typeOf E a = typeOf E b
  rand : isRand a = isRand b
  meaning : typeOf E a ≠ none → eval E a = eval E b

theorem not_rand {a : Expr} (h : typeOf E a ≠ none) : isRand a = false := by
  cases hr : isRand a with
  | false => rfl
  | true =>
    obtain ⟨t, rfl⟩ := isRand_eq hr
    exact absurd rfl h

theorem equiv_args : ∀ {as bs : List Expr}, as.length = bs.length → (∀ p ∈ as.zip bs, Equiv E p.1 p.2) →
    typesOf E as = typesOf E bs ∧ as.map isRand = bs.map isRand ∧
      (typesOf E as ≠ none → evalArgs E as = evalArgs E bs)
  | [], [], _, _ => ⟨rfl, rfl, fun _ => rfl⟩
  | a :: as, b :: bs, hl, h => by
    obtain ⟨h1, h2, h3⟩ := equiv_args (as := as) (bs := bs) (by simpa using hl) fun p hp => h p (by simp [hp])
    have h0 : Equiv E a b := h (a, b) (by simp)
    refine ⟨by simp only [typesOf, h0.type, h1], by simp only [List.map_cons, h0.rand, h2], ?_⟩
    intro hn
    have ha : typeOf E a ≠ none := fun hc => hn (by simp only [typesOf, hc, Option.bind_none])
    have hb : typesOf E as ≠ none := fun hc => hn (by
      cases hta : typeOf E a with
      | none => simp only [typesOf, hta, Option.bind_none]
      | some t => simp only [typesOf, hta, hc, Option.map_none, Option.bind_some])
    funext w
    simp only [evalArgs, h0.meaning ha, h3 hb]

theorem equiv_of_rewrites (hs : E.Safe) {reduce : Bool} {n : Nat} {a b : Expr}
    (h : Rewrites E (Good E reduce n) a b) : Equiv E a b := by
  induction h with
  | rule hr hc hn =>
    obtain ⟨h1, h2, h3, h4, h5⟩ := hr
    have hrepl := getRules_ok hs reduce n _ h1 h2 h3 h4 h5 _ hc
    obtain ⟨ts, hts⟩ := Option.ne_none_iff_exists'.1 hn
    obtain ⟨e1, e2⟩ := hrepl ts hts
    exact ⟨hts.trans e1.symm, (not_rand hn).trans (not_rand (by rw [e1]; simp)).symm, fun _ => e2⟩
  | refl e => exact ⟨rfl, rfl, fun _ => rfl⟩
  | symm _ ih => exact ⟨ih.type.symm, ih.rand.symm, fun hn => (ih.meaning (by rw [ih.type]; exact hn)).symm⟩
  | trans _ _ ih1 ih2 =>
    exact ⟨ih1.type.trans ih2.type, ih1.rand.trans ih2.rand,
      fun hn => (ih1.meaning hn).trans (ih2.meaning (by rw [← ih1.type]; exact hn))⟩
  | @congr o as bs hl _ ih =>
    obtain ⟨h1, h2, h3⟩ := equiv_args hl ih
    have ht : typeOf E (.node o as) = typeOf E (.node o bs) := by
      rw [typeOf.eq_def, typeOf.eq_def]
      dsimp only
      rw [h1, h2]
    refine ⟨ht, ?_, ?_⟩
    · cases as with
      | nil => cases bs with
        | nil => rfl
        | cons _ _ => cases hl
      | cons _ _ => cases bs with
        | nil => cases hl
        | cons _ _ => cases o <;> rfl
    · intro hn
      obtain ⟨ts, hts⟩ := Option.ne_none_iff_exists'.1 hn
      rcases typeOf_node hts with ⟨t, rfl, rfl, rfl⟩ | ⟨tss, h4, h5⟩
      · rcases typeOf_node (ht ▸ hts) with ⟨t', -, rfl, -⟩ | ⟨tss, h4, h5⟩
        · rfl
        · rw [← h1] at h4; cases h4
      · funext w
        rw [eval, eval, h3 (by rw [h4]; simp)]

/-! ## Writing -/

theorem exec_append (is js : List Instr) (st : State W) : exec E (is ++ js) st =
    match exec E is st with
    | .done s => exec E js s
    | .trap => .trap
    | .stuck => .stuck := by
  induction is generalizing st with
  | nil => rfl
  | cons i is ih =>
    simp only [List.cons_append, exec]
    cases step E i st with
    | done s => exact ih s
    | trap => rfl
    | stuck => rfl

/-- Running instructions has this effect. -/
def Runs (o : Out W) (st : State W) (r : Res W) : Prop :=
  match o with
  | .ok vs w => ∃ sp, r = .done ⟨vs.reverse ++ st.stack, w, sp⟩
  | .trap => r = .trap
  | .stuck => False

/-- The operators that are written as such. -/
def plain : Lang → Bool
  | .container | .rand _ | .unfold _ | .useGlobal _ => false
  | _ => true

theorem arity_result {o : Lang} {tss : List (List Ty)} {ts : List Ty} (ho : plain o = true)
    (h : result E o tss = some ts) : arity E o = tss.flatten.length := by
  unfold result at h
  split at h <;> first | rfl | (cases ho; done) | skip
  · next k =>
    simp only [arity]
    split at h
    · next hk =>
      split at h
      · next hts => simp only [hk, hts, flatten_single]
      · cases h
    · cases h
  · cases h

theorem step_op {o : Lang} {vs rest : List Val} {w : W} {sp : Nat → Val} (h : arity E o = vs.length) :
    step E (.op o) ⟨vs.reverse ++ rest, w, sp⟩ =
      match apply E o vs w with
      | .ok vs' w => .done ⟨vs'.reverse ++ rest, w, sp⟩
      | .trap => .trap
      | .stuck => .stuck := by
  have h1 : ¬ (vs.reverse ++ rest).length < arity E o := by simp; omega
  have h2 : (vs.reverse ++ rest).take (arity E o) = vs.reverse := by
    rw [h, ← List.length_reverse]; exact List.take_left
  have h3 : (vs.reverse ++ rest).drop (arity E o) = rest := by
    rw [h, ← List.length_reverse]; exact List.drop_left
  simp only [step, if_neg h1, h2, h3, List.reverse_reverse]
  cases apply E o vs w <;> rfl

theorem exec_single (i : Instr) (st : State W) : exec E [i] st = step E i st := by
  simp only [exec]
  cases step E i st <;> rfl

theorem constOf_eq {t : ITy} {args : List Expr} {v : BitVec t.bits} (h : constOf t args = some v) :
    args = [.node (.iconst t v) []] := by
  unfold constOf at h
  split at h
  · split at h
    · next ht => subst ht; cases h; rfl
    · cases h
  · cases h

theorem encode_node {o : Lang} {args : List Expr} {s : EncSt} (h : ∀ t, o ≠ .unfold t) :
    encode (.node o args) s =
      match encodeArgs args s with
      | some (is, s) => some (is ++ (exitInstrs o s).1, (exitInstrs o s).2)
      | none => none := by
  rw [encode.eq_def]
  cases o with
  | unfold t => exact absurd rfl (h t)
  | _ => rfl

theorem exit_runs (hs : E.Safe) {o : Lang} (hu : ∀ t, o ≠ .unfold t) {tss : List (List Ty)} {ts : List Ty}
    (h : result E o tss = some ts) {vs : List Val} (hv : vs.map Val.ty = tss.flatten) (w : W) (st : State W)
    (sp : Nat → Val) (s : EncSt) :
    Runs (apply E o vs w) st (exec E (exitInstrs o s).1 ⟨vs.reverse ++ st.stack, w, sp⟩) := by
  by_cases ho : plain o = true
  · have hx : (exitInstrs o s).1 = [.op o] := by cases o <;> first | rfl | cases ho
    rw [hx, exec_single, step_op (by rw [arity_result ho h, ← hv, List.length_map])]
    rcases apply_safe hs h hv w with ⟨k, -, h5⟩ | ⟨vs', w'', h5, h6, -⟩
    · rw [h5]; rfl
    · rw [h5]; exact ⟨sp, rfl⟩
  · cases o with
    | container =>
      have : apply E .container vs w = .ok vs w := by cases vs <;> rfl
      rw [this]
      exact ⟨sp, rfl⟩
    | rand t => cases tss <;> cases h
    | unfold t => exact absurd rfl (hu t)
    | useGlobal t =>
      unfold result at h
      split at h <;> first | (exact absurd rfl ho) | skip
      all_goals try (rename_i heq; first | (cases heq; done) | skip)
      · split at h
        · obtain ⟨v, rfl, h1⟩ := map_one hv
          refine ⟨fun i => if i = s.next then v else sp i, ?_⟩
          simp [exitInstrs, exec, step]
        · cases h
      · cases h
    | _ => exact absurd rfl ho

mutual
theorem encode_runs (hs : E.Safe) : ∀ (e : Expr) (ts : List Ty), typeOf E e = some ts →
    ∀ (s s' : EncSt) (is : List Instr), encode e s = some (is, s') →
      ∀ st : State W, Runs (eval E e st.world) st (exec E is st)
  | .var v => nomatch v
  | .node o args => by
    intro ts h s s' is he st
    by_cases hu : ∃ t, o = .unfold t
    · obtain ⟨t, rfl⟩ := hu
      rw [encode] at he
      split at he
      · next v hv =>
        obtain rfl := constOf_eq hv
        simp only [Option.some.injEq, Prod.mk.injEq] at he
        obtain ⟨rfl, rfl⟩ := he
        have h1 : eval E (.node (.unfold t) [.node (.iconst t v) []]) st.world = .ok [.i t v] st.world := rfl
        rw [h1]
        refine ⟨st.spilled, ?_⟩
        have h2 : ibin .add (s.draw t).1 (v - (s.draw t).1) = v := by
          show (s.draw t).1 + (v - (s.draw t).1) = v
          rw [BitVec.add_comm, BitVec.sub_add_cancel]
        have e1 : step E (.op (.iconst t (s.draw t).1)) st =
            .done ⟨.i t (s.draw t).1 :: st.stack, st.world, st.spilled⟩ := step_op (vs := []) rfl
        have e2 : step E (.op (.iconst t (v - (s.draw t).1))) ⟨.i t (s.draw t).1 :: st.stack, st.world, st.spilled⟩ =
            .done ⟨.i t (v - (s.draw t).1) :: .i t (s.draw t).1 :: st.stack, st.world, st.spilled⟩ :=
          step_op (vs := []) rfl
        have e3 : step E (.op (.ibin t .add))
            ⟨.i t (v - (s.draw t).1) :: .i t (s.draw t).1 :: st.stack, st.world, st.spilled⟩ =
            .done ⟨.i t v :: st.stack, st.world, st.spilled⟩ := by
          refine (step_op (vs := [.i t (s.draw t).1, .i t (v - (s.draw t).1)]) rfl).trans ?_
          rw [apply_ibin, h2]
          rfl
        simp only [exec, e1, e2, e3]
        rfl
      · cases he
    · have hu' : ∀ t, o ≠ .unfold t := fun t ht => hu ⟨t, ht⟩
      rw [encode_node hu'] at he
      split at he
      · next js s1 hj =>
        simp only [Option.some.injEq, Prod.mk.injEq] at he
        obtain ⟨rfl, rfl⟩ := he
        rcases typeOf_node h with ⟨t, rfl, rfl, rfl⟩ | ⟨tss, h1, h2⟩
        · refine ⟨st.spilled, ?_⟩
          rw [encodeArgs, encode_node (fun t => by simp)] at hj
          simp only [encodeArgs, exitInstrs, List.nil_append, List.append_nil, Option.some.injEq, Prod.mk.injEq] at hj
          obtain ⟨rfl, rfl⟩ := hj
          have e1 : step E (.op (.iconst t (s.draw t).1)) st =
              .done ⟨.i t (s.draw t).1 :: st.stack, st.world, st.spilled⟩ := step_op (vs := []) rfl
          have e2 : step E (.op .drop) ⟨.i t (s.draw t).1 :: st.stack, st.world, st.spilled⟩ =
              .done ⟨st.stack, st.world, st.spilled⟩ := step_op (vs := [.i t (s.draw t).1]) rfl
          simp only [exitInstrs, List.cons_append, List.nil_append, exec, e1, e2]
          rfl
        · have hr := encodeArgs_runs hs args _ h1 s s1 js hj st
          rw [exec_append, eval]
          rcases evalArgs_safe hs args _ h1 st.world with h3 | ⟨vs, w', h3, h4⟩
          · rw [h3] at hr ⊢
            have hr' : exec E js st = .trap := hr
            rw [hr']
            rfl
          · rw [h3] at hr ⊢
            obtain ⟨sp, hr⟩ := hr
            rw [hr]
            exact exit_runs hs hu' h2 h4 w' st sp s1
      · cases he
theorem encodeArgs_runs (hs : E.Safe) : ∀ (as : List Expr) (tss : List (List Ty)), typesOf E as = some tss →
    ∀ (s s' : EncSt) (is : List Instr), encodeArgs as s = some (is, s') →
      ∀ st : State W, Runs (evalArgs E as st.world) st (exec E is st)
  | [] => by
    intro tss h s s' is he st
    rw [encodeArgs] at he
    cases he
    exact ⟨st.spilled, rfl⟩
  | a :: as => by
    intro tss h s s' is he st
    obtain ⟨ts, tss', h1, h2, rfl⟩ := typesOf_cons h
    rw [encodeArgs] at he
    split at he
    · next is1 s1 hi =>
      split at he
      · next js s2 hj =>
        simp only [Option.some.injEq, Prod.mk.injEq] at he
        obtain ⟨rfl, rfl⟩ := he
        have hr := encode_runs hs a _ h1 s s1 is1 hi st
        rw [exec_append, evalArgs]
        rcases eval_safe hs a _ h1 st.world with h3 | ⟨vs, w', h3, h4⟩
        · rw [h3] at hr ⊢
          have hr' : exec E is1 st = .trap := hr
          rw [hr']
          rfl
        · rw [h3] at hr ⊢
          obtain ⟨sp, hr⟩ := hr
          rw [hr]
          have hr2 := encodeArgs_runs hs as _ h2 s1 s2 js hj ⟨vs.reverse ++ st.stack, w', sp⟩
          dsimp only at hr2 ⊢
          rcases evalArgs_safe hs as _ h2 w' with h5 | ⟨vs', w'', h5, h6⟩
          · rw [h5] at hr2 ⊢
            exact hr2
          · rw [h5] at hr2 ⊢
            obtain ⟨sp', hr2⟩ := hr2
            exact ⟨sp', by rw [hr2]; simp⟩
      · cases he
    · cases he
end

end Verif.Peephole
