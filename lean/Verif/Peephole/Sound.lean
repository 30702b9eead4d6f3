import Verif.Peephole.Rules
import Verif.Peephole.Floats
/-
Helper lemmas for the peephole rules: all rules but the excluded ones, and the congruence they
generate.
-/
namespace Verif.Peephole

open Spec

variable {W : Type} {E : Engine W}

def Sound (E : Engine W) (r : Rule) : Prop :=
  ∀ σ, (∀ c ∈ r.conds, Holds E σ c) → Repl E (r.lhs.subst σ) (r.rhs.subst σ)

/-- Right unless it is excluded. -/
def Ok (E : Engine W) (r : Rule) : Prop :=
  r.name ∉ wrong → (r.name ∈ dropping → E.Total) → (r.name ∈ floating → E.Ieee ∧ E.OneNan) →
    (r.name ∈ reordering → E.Pure) → Sound E r

theorem one_ok {name : String} {a b : Term Var} {cs : List Cond}
    (h : ∀ σ, (∀ c ∈ cs, Holds E σ c) → Repl E (a.subst σ) (b.subst σ)) :
    ∀ r ∈ rewrite name a b cs, Ok E r := by
  intro r hr
  simp only [rewrite, List.mem_singleton] at hr
  subst hr
  exact fun _ _ _ _ => h

theorem one_pure {name : String} {a b : Term Var} {cs : List Cond} (hn : name ∈ reordering)
    (h : E.Pure → (name ∈ dropping → E.Total) → ∀ σ, (∀ c ∈ cs, Holds E σ c) → Repl E (a.subst σ) (b.subst σ)) :
    ∀ r ∈ rewrite name a b cs, Ok E r := by
  intro r hr
  simp only [rewrite, List.mem_singleton] at hr
  subst hr
  exact fun _ hd _ hp => h (hp hn) hd

theorem both_ok {name : String} {a b : Term Var} {cs : List Cond}
    (h : ∀ σ, (∀ c ∈ cs, Holds E σ c) → Repl E (a.subst σ) (b.subst σ) ∧ Repl E (b.subst σ) (a.subst σ)) :
    ∀ r ∈ rewriteBoth name a b cs, Ok E r := by
  intro r hr
  simp only [rewriteBoth, List.mem_cons, List.not_mem_nil, or_false] at hr
  rcases hr with rfl | rfl
  · exact fun _ _ _ _ σ hc => (h σ hc).1
  · exact fun _ _ _ _ σ hc => (h σ hc).2

theorem both_pure {name : String} {a b : Term Var} {cs : List Cond} (hn : name ∈ reordering)
    (hr : name ++ "-rev" ∈ reordering)
    (h : E.Pure → ∀ σ, (∀ c ∈ cs, Holds E σ c) → Repl E (a.subst σ) (b.subst σ) ∧ Repl E (b.subst σ) (a.subst σ)) :
    ∀ r ∈ rewriteBoth name a b cs, Ok E r := by
  intro r hmem
  simp only [rewriteBoth, List.mem_cons, List.not_mem_nil, or_false] at hmem
  rcases hmem with rfl | rfl
  · exact fun _ _ _ hp σ hc => (h (hp hn) σ hc).1
  · exact fun _ _ _ hp σ hc => (h (hp hr) σ hc).2

theorem both_float {name : String} {a b : Term Var} {cs : List Cond} (hn : name ∈ floating)
    (hr : name ++ "-rev" ∈ floating)
    (h : E.Pure → E.Ieee → E.OneNan → ∀ σ,
      Repl E (a.subst σ) (b.subst σ) ∧ Repl E (b.subst σ) (a.subst σ)) :
    ∀ r ∈ rewriteBoth name a b cs, Ok E r := by
  have hsub : ∀ n, n ∈ floating → n ∈ reordering := fun n hn =>
    List.mem_append_left _ (List.mem_append_right _ hn)
  intro r hmem
  simp only [rewriteBoth, List.mem_cons, List.not_mem_nil, or_false] at hmem
  rcases hmem with rfl | rfl
  · exact fun _ _ hf hp σ _ => (h (hp (hsub _ hn)) (hf hn).1 (hf hn).2 σ).1
  · exact fun _ _ hf hp σ _ => (h (hp (hsub _ hr)) (hf hr).1 (hf hr).2 σ).2

theorem excluded_ok {name : String} {a b : Term Var} {cs : List Cond} (h1 : name ∈ wrong) :
    ∀ r ∈ rewrite name a b cs, Ok E r := by
  intro r hr
  simp only [rewrite, List.mem_singleton] at hr
  subst hr
  exact fun hx => absurd h1 hx

theorem excluded_both {name : String} {a b : Term Var} {cs : List Cond} (h1 : name ∈ wrong)
    (h2 : name ++ "-rev" ∈ wrong) : ∀ r ∈ rewriteBoth name a b cs, Ok E r := by
  intro r hr
  simp only [rewriteBoth, List.mem_cons, List.not_mem_nil, or_false] at hr
  rcases hr with rfl | rfl
  · exact fun hx => absurd h1 hx
  · exact fun hx => absurd h2 hx

theorem append_ok {l l' : List Rule} (h : ∀ r ∈ l, Ok E r) (h' : ∀ r ∈ l', Ok E r) : ∀ r ∈ l ++ l', Ok E r := by
  intro r hr
  rcases List.mem_append.1 hr with hr | hr
  · exact h r hr
  · exact h' r hr

variable (hs : E.Safe)
include hs

/-! ## Identities -/

theorem id_fwd {t : ITy} {o : IBin} {c : Int} (h : ∀ v : BitVec t.bits, ibin o v (BitVec.ofInt t.bits c) = v)
    (x : Expr) : Repl E (ib t o x (ic t c)) x := by
  intro ts hts
  rw [typeOf_ib] at hts
  obtain ⟨h1, -, rfl⟩ := hts
  exact ⟨h1, repl_const x h h1 hs⟩

theorem id_bwd {t : ITy} {o : IBin} {c : Int} (h : ∀ v : BitVec t.bits, ibin o v (BitVec.ofInt t.bits c) = v)
    (x : Expr) (hx : typeOf E x = some [.i t]) : Repl E x (ib t o x (ic t c)) := by
  intro ts hts
  rw [hx] at hts
  cases hts
  exact ⟨(typeOf_ib ..).2 ⟨hx, typeOf_ic t c, rfl⟩, (repl_const x h hx hs).symm⟩

theorem same_fwd {t : ITy} {o : IBin} (hp : E.Pure) (h : ∀ v : BitVec t.bits, ibin o v v = v) (x : Expr) :
    Repl E (ib t o x x) x := by
  intro ts hts
  rw [typeOf_ib] at hts
  obtain ⟨h1, -, rfl⟩ := hts
  exact ⟨h1, repl_same x h h1 hs hp⟩

theorem same_bwd {t : ITy} {o : IBin} (hp : E.Pure) (h : ∀ v : BitVec t.bits, ibin o v v = v) (x : Expr)
    (hx : typeOf E x = some [.i t]) : Repl E x (ib t o x x) := by
  intro ts hts
  rw [hx] at hts
  cases hts
  exact ⟨(typeOf_ib ..).2 ⟨hx, hx, rfl⟩, (repl_same x h hx hs hp).symm⟩

theorem eqz_fwd {t : ITy} (x : Expr) : Repl E (ieq t x (ic t 0)) (ieqz t x) := by
  intro ts hts
  rw [typeOf_ieq] at hts
  obtain ⟨h1, -, rfl⟩ := hts
  exact ⟨(typeOf_ieqz ..).2 ⟨h1, rfl⟩, repl_eqz x h1 hs⟩

theorem eqz_bwd {t : ITy} (x : Expr) : Repl E (ieqz t x) (ieq t x (ic t 0)) := by
  intro ts hts
  rw [typeOf_ieqz] at hts
  obtain ⟨h1, rfl⟩ := hts
  exact ⟨(typeOf_ieq ..).2 ⟨h1, typeOf_ic t 0, rfl⟩, (repl_eqz x h1 hs).symm⟩

theorem or_ones {t : ITy} (hp : E.Pure) (ht : E.Total) (x : Expr) : Repl E (ib t .or x (ic t (-1))) (ic t (-1)) := by
  intro ts hts
  rw [typeOf_ib] at hts
  obtain ⟨h1, -, rfl⟩ := hts
  exact ⟨rfl, repl_or_ones x h1 hs hp ht⟩

omit hs in
theorem ofInt_zero (t : ITy) : BitVec.ofInt t.bits 0 = 0#t.bits := by cases t <;> rfl

omit hs in
theorem ofInt_one (t : ITy) : BitVec.ofInt t.bits 1 = 1#t.bits := by cases t <;> rfl

omit hs in
theorem sub_zero_id {t : ITy} (v : BitVec t.bits) : ibin .sub v (BitVec.ofInt t.bits 0) = v := by
  rw [ofInt_zero]; exact BitVec.sub_zero v

omit hs in
theorem mul_one_id {t : ITy} (v : BitVec t.bits) : ibin .mul v (BitVec.ofInt t.bits 1) = v := by
  rw [ofInt_one]; exact BitVec.mul_one v

omit hs in
theorem add_zero_id {t : ITy} (v : BitVec t.bits) : ibin .add v (BitVec.ofInt t.bits 0) = v := by
  rw [ofInt_zero]; exact BitVec.add_zero v

omit hs in
theorem xor_zero_id {t : ITy} (v : BitVec t.bits) : ibin .xor v (BitVec.ofInt t.bits 0) = v := by
  rw [ofInt_zero]; exact BitVec.xor_zero

omit hs in
theorem shl_zero_id {t : ITy} (v : BitVec t.bits) : ibin .shl v (BitVec.ofInt t.bits 0) = v := by
  rw [ofInt_zero]; simp [ibin]

omit hs in
theorem shrU_zero_id {t : ITy} (v : BitVec t.bits) : ibin .shrU v (BitVec.ofInt t.bits 0) = v := by
  rw [ofInt_zero]; simp [ibin]

omit hs in
theorem shrS_zero_id {t : ITy} (v : BitVec t.bits) : ibin .shrS v (BitVec.ofInt t.bits 0) = v := by
  rw [ofInt_zero]; simp [ibin]

omit hs in
theorem or_self_id {t : ITy} (v : BitVec t.bits) : ibin .or v v = v := BitVec.or_self

omit hs in
theorem and_self_id {t : ITy} (v : BitVec t.bits) : ibin .and v v = v := BitVec.and_self

omit hs in
theorem or_dropping (t : ITy) : t.name ++ ".or--1" ∈ dropping := by cases t <;> decide

omit hs in
theorem or_reordering (t : ITy) : t.name ++ ".or--1" ∈ reordering := by cases t <;> decide

theorem reduceIdentities_ok (t : ITy) : ∀ r ∈ reduceIdentities t, Ok E r := by
  unfold reduceIdentities
  refine append_ok (append_ok (append_ok (append_ok (append_ok (append_ok (append_ok (append_ok (append_ok (append_ok
    ?_ ?_) ?_) ?_) ?_) ?_) ?_) ?_) ?_) ?_) ?_
  · exact one_pure (or_reordering t) fun hp hd σ _ => or_ones hs hp (hd (or_dropping t)) (σ .x)
  · exact one_pure (by cases t <;> decide) fun hp _ σ _ => same_fwd hs hp or_self_id (σ .x)
  · exact one_pure (by cases t <;> decide) fun hp _ σ _ => same_fwd hs hp and_self_id (σ .x)
  · exact one_ok fun σ _ => id_fwd hs sub_zero_id (σ .x)
  · exact one_ok fun σ _ => id_fwd hs mul_one_id (σ .x)
  · exact one_ok fun σ _ => id_fwd hs add_zero_id (σ .x)
  · exact one_ok fun σ _ => id_fwd hs xor_zero_id (σ .x)
  · exact one_ok fun σ _ => eqz_fwd hs (σ .x)
  · exact one_ok fun σ _ => id_fwd hs shl_zero_id (σ .x)
  · exact one_ok fun σ _ => id_fwd hs shrU_zero_id (σ .x)
  · exact one_ok fun σ _ => id_fwd hs shrS_zero_id (σ .x)

theorem identities_ok (t : ITy) : ∀ r ∈ identities t, Ok E r := by
  unfold identities
  refine append_ok (append_ok (append_ok (append_ok (append_ok (append_ok (append_ok (append_ok (append_ok (append_ok
    ?_ ?_) ?_) ?_) ?_) ?_) ?_) ?_) ?_) ?_) ?_
  · exact one_pure (or_reordering t) fun hp hd σ _ => or_ones hs hp (hd (or_dropping t)) (σ .x)
  · exact both_pure (by cases t <;> decide) (by cases t <;> decide) fun hp σ hc => ⟨same_fwd hs hp or_self_id (σ .x), same_bwd hs hp or_self_id (σ .x) (hc _ (.head _))⟩
  · exact both_pure (by cases t <;> decide) (by cases t <;> decide) fun hp σ hc => ⟨same_fwd hs hp and_self_id (σ .x), same_bwd hs hp and_self_id (σ .x) (hc _ (.head _))⟩
  · exact both_ok fun σ hc => ⟨id_fwd hs sub_zero_id (σ .x), id_bwd hs sub_zero_id (σ .x) (hc _ (.head _))⟩
  · exact both_ok fun σ hc => ⟨id_bwd hs mul_one_id (σ .x) (hc _ (.head _)), id_fwd hs mul_one_id (σ .x)⟩
  · exact both_ok fun σ hc => ⟨id_bwd hs add_zero_id (σ .x) (hc _ (.head _)), id_fwd hs add_zero_id (σ .x)⟩
  · exact both_ok fun σ hc => ⟨id_bwd hs xor_zero_id (σ .x) (hc _ (.head _)), id_fwd hs xor_zero_id (σ .x)⟩
  · exact both_ok fun σ _ => ⟨eqz_fwd hs (σ .x), eqz_bwd hs (σ .x)⟩
  · exact both_ok fun σ hc => ⟨id_fwd hs shl_zero_id (σ .x), id_bwd hs shl_zero_id (σ .x) (hc _ (.head _))⟩
  · exact both_ok fun σ hc => ⟨id_fwd hs shrU_zero_id (σ .x), id_bwd hs shrU_zero_id (σ .x) (hc _ (.head _))⟩
  · exact both_ok fun σ hc => ⟨id_fwd hs shrS_zero_id (σ .x), id_bwd hs shrS_zero_id (σ .x) (hc _ (.head _))⟩

theorem selectSame_ok : ∀ r ∈ selectSame, Ok E r := by
  refine one_pure (by decide) fun hp hd σ _ => ?_
  intro ts hts
  have hts' : typeOf E (sel (σ .y) (σ .y) (σ .x)) = some ts := hts
  rw [typeOf_sel] at hts'
  obtain ⟨t, h1, -, h3, rfl⟩ := hts'
  exact ⟨h1, repl_select_same (σ .x) (σ .y) h1 h3 hs hp (hd (by decide))⟩

/-! ## Algebra -/

theorem comm_ok {name : String} {t : ITy} {o : IBin} (hn : name ∈ reordering)
    (hr : name ++ "-rev" ∈ reordering) (h : ∀ a b : BitVec t.bits, ibin o a b = ibin o b a) :
    ∀ r ∈ rewriteBoth name (ib t o vx vy) (ib t o vy vx), Ok E r := by
  have key : E.Pure → ∀ x y : Expr, Repl E (ib t o x y) (ib t o y x) := by
    intro hp x y ts hts
    rw [typeOf_ib] at hts
    obtain ⟨h1, h2, rfl⟩ := hts
    exact ⟨(typeOf_ib ..).2 ⟨h2, h1, rfl⟩, repl_comm x y h h1 h2 hs hp⟩
  exact both_pure hn hr fun hp σ _ => ⟨key hp (σ .x) (σ .y), key hp (σ .y) (σ .x)⟩

theorem assoc_ok {name : String} {t : ITy} {o : IBin}
    (h : ∀ a b c : BitVec t.bits, ibin o a (ibin o b c) = ibin o (ibin o a b) c) :
    ∀ r ∈ rewriteBoth name (ib t o vx (ib t o vy vz)) (ib t o (ib t o vx vy) vz), Ok E r := by
  refine both_ok fun σ _ => ⟨?_, ?_⟩
  · intro ts hts
    have hts' : typeOf E (ib t o (σ .x) (ib t o (σ .y) (σ .z))) = some ts := hts
    rw [typeOf_ib, typeOf_ib] at hts'
    obtain ⟨h1, ⟨h2, h3, -⟩, rfl⟩ := hts'
    exact ⟨(typeOf_ib ..).2 ⟨(typeOf_ib ..).2 ⟨h1, h2, rfl⟩, h3, rfl⟩, repl_assoc _ _ _ h h1 h2 h3 hs⟩
  · intro ts hts
    have hts' : typeOf E (ib t o (ib t o (σ .x) (σ .y)) (σ .z)) = some ts := hts
    rw [typeOf_ib, typeOf_ib] at hts'
    obtain ⟨⟨h1, h2, -⟩, h3, rfl⟩ := hts'
    exact ⟨(typeOf_ib ..).2 ⟨h1, (typeOf_ib ..).2 ⟨h2, h3, rfl⟩, rfl⟩, (repl_assoc _ _ _ h h1 h2 h3 hs).symm⟩

theorem algebra_ok (t : ITy) : ∀ r ∈ algebra t, Ok E r := by
  unfold algebra
  refine append_ok (append_ok (append_ok (append_ok (append_ok (append_ok (append_ok (append_ok (append_ok (append_ok
    (append_ok ?_ ?_) ?_) ?_) ?_) ?_) ?_) ?_) ?_) ?_) ?_) ?_
  · exact comm_ok hs (by cases t <;> decide) (by cases t <;> decide) fun a b => BitVec.add_comm a b
  · exact comm_ok hs (by cases t <;> decide) (by cases t <;> decide) fun a b => BitVec.mul_comm a b
  · exact comm_ok hs (by cases t <;> decide) (by cases t <;> decide) fun a b => BitVec.and_comm a b
  · exact comm_ok hs (by cases t <;> decide) (by cases t <;> decide) fun a b => BitVec.or_comm a b
  · exact comm_ok hs (by cases t <;> decide) (by cases t <;> decide) fun a b => BitVec.xor_comm a b
  · have key : E.Pure → ∀ x y : Expr, Repl E (ieq t x y) (ieq t y x) := by
      intro hp x y ts hts
      rw [typeOf_ieq] at hts
      obtain ⟨h1, h2, rfl⟩ := hts
      exact ⟨(typeOf_ieq ..).2 ⟨h2, h1, rfl⟩, repl_eq_comm x y h1 h2 hs hp⟩
    exact both_pure (by cases t <;> decide) (by cases t <;> decide)
      fun hp σ _ => ⟨key hp (σ .x) (σ .y), key hp (σ .y) (σ .x)⟩
  · exact assoc_ok hs fun a b c => (BitVec.mul_assoc a b c).symm
  · exact assoc_ok hs fun a b c => (BitVec.add_assoc a b c).symm
  · exact assoc_ok hs fun a b c => (BitVec.and_assoc a b c).symm
  · exact assoc_ok hs fun a b c => (BitVec.or_assoc a b c).symm
  · exact assoc_ok hs fun a b c => (BitVec.xor_assoc a b c).symm
  · cases t
    · exact excluded_both (by decide) (by decide)
    · -- the operands of `i64.eq` are not what it returns
      refine both_ok fun σ _ => ⟨?_, ?_⟩
      · intro ts hts
        have hts' : typeOf E (ieq .i64 (σ .x) (ieq .i64 (σ .y) (σ .z))) = some ts := hts
        rw [typeOf_ieq, typeOf_ieq] at hts'
        exact absurd hts'.2.1.2.2 (by decide)
      · intro ts hts
        have hts' : typeOf E (ieq .i64 (ieq .i64 (σ .x) (σ .y)) (σ .z)) = some ts := hts
        rw [typeOf_ieq, typeOf_ieq] at hts'
        exact absurd hts'.1.2.2 (by decide)

omit hs in
theorem fbin_comm {t : FTy} {o : FBin} (hi : E.Ieee) (hn : E.OneNan) (a b : BitVec t.bits) :
    E.fbin t o a b = E.fbin t o b a := by
  obtain ⟨n, hn⟩ := hn t
  have key : E.fbin t o a b = E.fbin t o b a ∨ (isNan t (E.fbin t o a b) ∧ isNan t (E.fbin t o b a)) := by
    cases o
    · exact FAdd.comm (hi.add t a b) (hi.add t b a)
    · exact FMul.comm (hi.mul t a b) (hi.mul t b a)
  rcases key with h | ⟨h1, h2⟩
  · exact h
  · rw [hn o a b h1, hn o b a h2]

theorem fcomm {t : FTy} {o : FBin} (hp : E.Pure) (hi : E.Ieee) (hn : E.OneNan) (x y : Expr) :
    Repl E (fb t o x y) (fb t o y x) := by
  intro ts hts
  rw [typeOf_fb] at hts
  obtain ⟨h1, h2, rfl⟩ := hts
  refine ⟨(typeOf_fb ..).2 ⟨h2, h1, rfl⟩, ?_⟩
  funext w
  rw [fb, fb, eval_two, eval_two]
  rcases eval_f hs hp h1 w with e1 | ⟨v, e1⟩ <;> rcases eval_f hs hp h2 w with e2 | ⟨u, e2⟩
  · rw [e1, e2]
  · rw [e1, e2]; dsimp only; rw [e1]
  · rw [e1, e2]; dsimp only; rw [e2]
  · rw [e1, e2]
    dsimp only
    rw [e1, e2]
    exact (apply_fbin E t o v u w).trans (by rw [fbin_comm hi hn]; exact (apply_fbin E t o u v w).symm)

theorem floatCommutes_ok (t : FTy) : ∀ r ∈ floatCommutes t, Ok E r := by
  unfold floatCommutes
  refine append_ok ?_ ?_
  · exact both_float (by cases t <;> decide) (by cases t <;> decide)
      fun hp hi hn σ => ⟨fcomm hs hp hi hn (σ .x) (σ .y), fcomm hs hp hi hn (σ .y) (σ .x)⟩
  · exact both_float (by cases t <;> decide) (by cases t <;> decide)
      fun hp hi hn σ => ⟨fcomm hs hp hi hn (σ .x) (σ .y), fcomm hs hp hi hn (σ .y) (σ .x)⟩

omit hs in
theorem floatIdentities_ok (reduce : Bool) (t : FTy) : ∀ r ∈ floatIdentities reduce t, Ok E r := by
  unfold floatIdentities
  split
  · exact append_ok (excluded_ok (by cases t <;> decide)) (excluded_ok (by cases t <;> decide))
  · exact append_ok (excluded_both (by cases t <;> decide) (by cases t <;> decide))
      (excluded_both (by cases t <;> decide) (by cases t <;> decide))

/-! ## The rest -/

theorem fun_ok {name : String} {t : ITy} {o o' : IBin} {c c' : Int}
    (h : ∀ v : BitVec t.bits, ibin o v (BitVec.ofInt t.bits c) = ibin o' v (BitVec.ofInt t.bits c')) :
    ∀ r ∈ rewriteBoth name (ib t o vx (ic t c)) (ib t o' vx (ic t c')), Ok E r := by
  have key : ∀ {o o' : IBin} {c c' : Int}
      (_ : ∀ v : BitVec t.bits, ibin o v (BitVec.ofInt t.bits c) = ibin o' v (BitVec.ofInt t.bits c')) (x : Expr),
      Repl E (ib t o x (ic t c)) (ib t o' x (ic t c')) := by
    intro o o' c c' h x ts hts
    rw [typeOf_ib] at hts
    obtain ⟨h1, -, rfl⟩ := hts
    exact ⟨(typeOf_ib ..).2 ⟨h1, typeOf_ic t c', rfl⟩, repl_fun x h h1 hs⟩
  exact both_ok fun σ _ => ⟨key h (σ .x), key (fun v => (h v).symm) (σ .x)⟩

omit hs in
theorem shl_mul {t : ITy} {k : Nat} (hk : k < 4) (v : BitVec t.bits) :
    ibin .shl v (BitVec.ofInt t.bits k) = ibin .mul v (BitVec.ofInt t.bits ((2 ^ k : Nat) : Int)) := by
  have hb := bits_pos t
  have hlt : k < 2 ^ t.bits := Nat.lt_trans hk (by cases t <;> decide)
  show v <<< ((BitVec.ofInt t.bits k).toNat % t.bits) = v * BitVec.ofInt t.bits ((2 ^ k : Nat) : Int)
  rw [BitVec.ofInt_natCast, BitVec.ofInt_natCast, BitVec.toNat_ofNat, Nat.mod_eq_of_lt hlt,
    Nat.mod_eq_of_lt (by omega), BitVec.shiftLeft_eq_mul_twoPow]
  congr 1
  apply BitVec.eq_of_toNat_eq
  rw [BitVec.toNat_twoPow, BitVec.toNat_ofNat]

theorem strength_ok (t : ITy) : ∀ r ∈ strength t, Ok E r := by
  unfold strength
  refine append_ok (append_ok (append_ok ?_ ?_) ?_) ?_
  · exact fun_ok hs (shl_mul (k := 1) (by decide))
  · exact fun_ok hs (shl_mul (k := 2) (by decide))
  · exact fun_ok hs (shl_mul (k := 3) (by decide))
  · refine both_pure (by cases t <;> decide) (by cases t <;> decide) fun hp σ _ => ⟨?_, ?_⟩
    · intro ts hts
      have hts' : typeOf E (ib t .add (σ .x) (σ .x)) = some ts := hts
      rw [typeOf_ib] at hts'
      obtain ⟨h1, -, rfl⟩ := hts'
      exact ⟨(typeOf_ib ..).2 ⟨h1, typeOf_ic t 2, rfl⟩, repl_double (σ .x) h1 hs hp⟩
    · intro ts hts
      have hts' : typeOf E (ib t .mul (σ .x) (ic t 2)) = some ts := hts
      rw [typeOf_ib] at hts'
      obtain ⟨h1, -, rfl⟩ := hts'
      exact ⟨(typeOf_ib ..).2 ⟨h1, h1, rfl⟩, (repl_double (σ .x) h1 hs hp).symm⟩

theorem selectInvert_ok : ∀ r ∈ selectInvert, Ok E r := by
  refine both_pure (by decide) (by decide) fun hp σ _ => ⟨?_, ?_⟩
  · intro ts hts
    have hts' : typeOf E (sel (σ .x) (σ .y) (σ .z)) = some ts := hts
    rw [typeOf_sel] at hts'
    obtain ⟨t, h1, h2, h3, rfl⟩ := hts'
    exact ⟨(typeOf_sel ..).2 ⟨t, h2, h1, (typeOf_ieqz ..).2 ⟨h3, rfl⟩, rfl⟩,
      repl_select_invert _ _ _ h1 h2 h3 hs hp⟩
  · intro ts hts
    have hts' : typeOf E (sel (σ .y) (σ .x) (ieqz .i32 (σ .z))) = some ts := hts
    rw [typeOf_sel, ] at hts'
    obtain ⟨t, h2, h1, h3, rfl⟩ := hts'
    rw [typeOf_ieqz] at h3
    exact ⟨(typeOf_sel ..).2 ⟨t, h1, h2, h3.1, rfl⟩, (repl_select_invert _ _ _ h1 h2 h3.1 hs hp).symm⟩

omit hs in
theorem containers_ok : ∀ r ∈ containers, Ok E r := by
  have pre : ∀ (a x : Expr), typeOf E a = some [] → (∀ w, eval E a w = .ok [] w) →
      Repl E x (.node .container [a, x]) ∧ Repl E x (.node .container [x, a]) := by
    intro a x h1 h2
    refine ⟨fun ts hts => ⟨(typeOf_container a x ts h1 hts).1, (eval_container a x h2).1.symm⟩,
      fun ts hts => ⟨(typeOf_container a x ts h1 hts).2, (eval_container a x h2).2.symm⟩⟩
  unfold containers
  refine append_ok (append_ok (append_ok (append_ok (append_ok ?_ ?_) ?_) ?_) ?_) ?_
  · exact one_ok fun σ _ => (pre (.node .nop []) (σ .x) rfl fun _ => rfl).1
  · exact one_ok fun σ _ => (pre (.node .nop []) (σ .x) rfl fun _ => rfl).2
  · exact one_ok fun σ _ => (pre (dropRand .i32) (σ .x) rfl fun _ => rfl).1
  · exact one_ok fun σ _ => (pre (dropRand .i64) (σ .x) rfl fun _ => rfl).1
  · exact one_ok fun σ _ => (pre (dropRand .i32) (σ .x) rfl fun _ => rfl).2
  · exact one_ok fun σ _ => (pre (dropRand .i64) (σ .x) rfl fun _ => rfl).2

theorem spill_ok (n : Nat) (name : String) (t : Ty) : ∀ r ∈ spill n name t, Ok E r := by
  refine one_ok fun σ hc => ?_
  intro ts hts
  have hx : typeOf E (σ .x) = some [t] := hc _ (.head _)
  have hts' : typeOf E (σ .x) = some ts := hts
  rw [hx] at hts'
  cases hts'
  exact ⟨typeOf_id (σ .x) hx (.inr rfl), (eval_id (σ .x) hx hs (.inr rfl)).symm⟩

theorem unfolds_ok (t : ITy) : ∀ r ∈ unfolds t, Ok E r := by
  refine one_ok fun σ hc => ?_
  intro ts hts
  have hx : typeOf E (σ .x) = some [.i t] := hc _ (.tail _ (.head _))
  have hts' : typeOf E (σ .x) = some ts := hts
  rw [hx] at hts'
  cases hts'
  exact ⟨typeOf_id (σ .x) hx (.inl ⟨t, rfl, rfl⟩), (eval_id (σ .x) hx hs (.inl ⟨t, rfl, rfl⟩)).symm⟩

theorem getRules_ok (reduce : Bool) (n : Nat) : ∀ r ∈ getRules reduce n, Ok E r := by
  unfold getRules
  refine append_ok (append_ok (append_ok (append_ok (append_ok (append_ok (append_ok (append_ok
    ?_ (selectSame_ok hs)) (floatIdentities_ok _ _)) (floatIdentities_ok _ _)) (algebra_ok hs _))
    (algebra_ok hs _)) (floatCommutes_ok hs _)) (floatCommutes_ok hs _)) ?_
  · split
    · exact append_ok (reduceIdentities_ok hs _) (reduceIdentities_ok hs _)
    · exact append_ok (identities_ok hs _) (identities_ok hs _)
  · split
    · intro r hr; cases hr
    · exact append_ok (append_ok (append_ok (append_ok (append_ok (append_ok (append_ok (append_ok (append_ok
        (strength_ok hs _) (strength_ok hs _)) (selectInvert_ok hs)) containers_ok) (spill_ok hs _ _ _))
        (spill_ok hs _ _ _)) (spill_ok hs _ _ _)) (spill_ok hs _ _ _)) (unfolds_ok hs _)) (unfolds_ok hs _)

end Verif.Peephole
