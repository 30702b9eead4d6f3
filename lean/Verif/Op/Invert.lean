import Verif.Op.TypingComplete
import Verif.Op.ModuleLemmas
/-! Taking the typing of a sequence apart, to show that a sequence has no type. -/
namespace Verif.Op.View
open Verif.Op.Typing
open Verif.Types (AbsHeap HeapType UnpackedIndex RefType ValType)
open Verif.Instr (FrameKind BlockType MemArg Catch Handle BrTable Operator)
open Verif.TypeList.Spec (Field Storage Comp SubT Decls HeapSub RefSub ValSub StorageSub)

/-- What an operator does to the depth of nesting. -/
def dep : Operator → Int
  | .block _ _ | .tryTable _ _ => 1
  | .end_ | .delegate _ => -1
  | _ => 0

def deps (os : List Operator) : Int := (os.map dep).sum

theorem deps_append (os os' : List Operator) : deps (os ++ os') = deps os + deps os' := by
  simp [deps]

theorem deps_cons (o : Operator) (os : List Operator) : deps (o :: os) = dep o + deps os := by
  simp [deps]

theorem instr_dep {F : Fn} {I : List (BitVec 32)} {o : Operator} {ins outs : List VT}
    (h : InstrTy F I o ins outs) : dep o = 0 := by
  cases h with
  | simple h => cases o <;> first | rfl | exact h.elim
  | stops _ _ h => cases o <;> first | rfl | exact h.elim
  | _ => rfl

theorem seq_deps {F : Fn} {I I' : List (BitVec 32)} {os : List Operator} {ts us : List VT}
    (h : Seq F I os ts us I') : deps os = 0 := by
  induction h with
  | nil => rfl
  | instr h => simp [deps, instr_dep h]
  | append _ _ h1 h2 => rw [deps_append, h1, h2]; rfl
  | frame _ _ h => exact h
  | sub _ _ _ h => exact h
  | block _ _ h => simp only [deps_cons, deps_append, h, dep]; rfl
  | loop _ _ h => simp only [deps_cons, deps_append, h, dep]; rfl
  | ifElse _ _ _ h h' => simp only [deps_cons, deps_append, h, h', dep]; rfl
  | if_ _ _ _ h => simp only [deps_cons, deps_append, h, dep]; rfl
  | tryTable _ _ _ h => simp only [deps_cons, deps_append, h, dep]; rfl
  | @try_ F I bt ps rs body I' cs all _ _ _ _ _ h hc ha =>
    have h1 : deps (cs.flatMap Clause.ops) = 0 := by
      clear * - hc
      induction cs with
      | nil => rfl
      | cons c cs ih =>
        rw [List.flatMap_cons, deps_append, ih fun x hx => hc x (by simp [hx])]
        simp [Clause.ops, deps_cons, dep, hc c (by simp)]
    have h2 : deps (catchAllOps all) = 0 := by
      cases all with
      | none => rfl
      | some b => simp [catchAllOps, deps_cons, dep, ha b rfl]
    simp only [deps_cons, deps_append, h, h1, h2, dep]
    rfl
  | delegate _ _ _ h => simp only [deps_cons, deps_append, h, dep]; rfl

/-- No block begins. -/
def Leaf (o : Operator) : Prop := dep o = 0

theorem seq_id {F : Fn} {I : List (BitVec 32)} (ts : List VT) : Seq F I [] ts ts I := by
  have := Seq.frame (F := F) (I := I) ts .nil
  rwa [List.append_nil] at this

/-- A sequence without blocks can be taken apart everywhere. -/
theorem seq_split {F : Fn} {I I' : List (BitVec 32)} {os : List Operator} {ts us : List VT}
    (h : Seq F I os ts us I') : ∀ a b, os = a ++ b → (∀ o ∈ os, Leaf o) →
    ∃ vs J, Seq F I a ts vs J ∧ Seq F J b vs us I' := by
  induction h with
  | nil =>
    intro a b h _
    obtain ⟨rfl, rfl⟩ := List.append_eq_nil_iff.1 h.symm
    exact ⟨_, _, .nil, .nil⟩
  | @instr F I o ins outs hi =>
    intro a b h _
    cases a with
    | nil => cases h; exact ⟨_, _, seq_id _, .instr hi⟩
    | cons x a =>
      injection h with h1 h2
      obtain ⟨rfl, rfl⟩ := List.append_eq_nil_iff.1 h2.symm
      subst h1
      exact ⟨_, _, .instr hi, seq_id _⟩
  | append h1 h2 ih1 ih2 =>
    intro a b h hl
    rcases List.append_eq_append_iff.1 h with ⟨c, rfl, rfl⟩ | ⟨c, rfl, rfl⟩
    · obtain ⟨vs, J, h3, h4⟩ := ih2 c b rfl fun o ho => hl o (by simp at ho ⊢; rcases ho with ho | ho <;> simp [ho])
      exact ⟨vs, J, .append h1 h3, h4⟩
    · obtain ⟨vs, J, h3, h4⟩ := ih1 a c rfl fun o ho => hl o (by simp at ho ⊢; rcases ho with ho | ho <;> simp [ho])
      exact ⟨vs, J, h3, .append h4 h2⟩
  | frame fs _ ih =>
    intro a b h hl
    obtain ⟨vs, J, h3, h4⟩ := ih a b h hl
    exact ⟨_, J, .frame fs h3, .frame fs h4⟩
  | sub s1 s2 _ ih =>
    intro a b h hl
    obtain ⟨vs, J, h3, h4⟩ := ih a b h hl
    exact ⟨_, J, .sub s1 VTs.Sub.rfl' h3, .sub VTs.Sub.rfl' s2 h4⟩
  | block => intro a b _ hl; cases hl _ List.mem_cons_self
  | loop => intro a b _ hl; cases hl _ List.mem_cons_self
  | ifElse => intro a b _ hl; cases hl _ List.mem_cons_self
  | if_ => intro a b _ hl; cases hl _ List.mem_cons_self
  | tryTable => intro a b _ hl; cases hl _ List.mem_cons_self
  | try_ => intro a b _ hl; cases hl _ List.mem_cons_self
  | delegate => intro a b _ hl; cases hl _ List.mem_cons_self

/-- The type of one instruction. -/
theorem seq_one {F : Fn} {I I' : List (BitVec 32)} {os : List Operator} {ts us : List VT}
    (h : Seq F I os ts us I') : (∀ o ∈ os, Leaf o) →
    (os = [] → VTs.Sub F.C.decls ts us) ∧
    ∀ o, os = [o] → ∃ I ins outs fs, InstrTy F I o ins outs ∧ VTs.Sub F.C.decls ts (fs ++ ins) ∧
      VTs.Sub F.C.decls (fs ++ outs) us := by
  induction h with
  | nil => intro _; exact ⟨fun _ => .nil, nofun⟩
  | @instr F I o ins outs hi =>
    intro _
    refine ⟨nofun, ?_⟩
    intro o' h
    cases h
    exact ⟨I, ins, outs, [], hi, VTs.Sub.rfl', VTs.Sub.rfl'⟩
  | append h1 h2 ih1 ih2 =>
    intro hl
    obtain ⟨a1, b1⟩ := ih1 fun o ho => hl o (by simp [ho])
    obtain ⟨a2, b2⟩ := ih2 fun o ho => hl o (by simp [ho])
    refine ⟨fun h => ?_, fun o h => ?_⟩
    · obtain ⟨e1, e2⟩ := List.append_eq_nil_iff.1 h
      exact VTs.Sub.trans (a1 e1) (a2 e2)
    · rcases List.append_eq_singleton_iff.1 h with ⟨e1, e2⟩ | ⟨e1, e2⟩
      · obtain ⟨I, ins, outs, fs, h3, h4, h5⟩ := b2 o e2
        exact ⟨I, ins, outs, fs, h3, VTs.Sub.trans (a1 e1) h4, h5⟩
      · obtain ⟨I, ins, outs, fs, h3, h4, h5⟩ := b1 o e1
        exact ⟨I, ins, outs, fs, h3, h4, VTs.Sub.trans h5 (a2 e2)⟩
  | frame gs _ ih =>
    intro hl
    obtain ⟨a1, b1⟩ := ih hl
    refine ⟨fun h => List.rel_append VTs.Sub.rfl' (a1 h), fun o h => ?_⟩
    obtain ⟨I, ins, outs, fs, h3, h4, h5⟩ := b1 o h
    refine ⟨I, ins, outs, gs ++ fs, h3, ?_, ?_⟩
    · rw [List.append_assoc]; exact List.rel_append VTs.Sub.rfl' h4
    · rw [List.append_assoc]; exact List.rel_append VTs.Sub.rfl' h5
  | sub s1 s2 _ ih =>
    intro hl
    obtain ⟨a1, b1⟩ := ih hl
    refine ⟨fun h => VTs.Sub.trans s1 (VTs.Sub.trans (a1 h) s2), fun o h => ?_⟩
    obtain ⟨I, ins, outs, fs, h3, h4, h5⟩ := b1 o h
    exact ⟨I, ins, outs, fs, h3, VTs.Sub.trans s1 h4, VTs.Sub.trans h5 s2⟩
  | block => intro hl; cases hl _ List.mem_cons_self
  | loop => intro hl; cases hl _ List.mem_cons_self
  | ifElse => intro hl; cases hl _ List.mem_cons_self
  | if_ => intro hl; cases hl _ List.mem_cons_self
  | tryTable => intro hl; cases hl _ List.mem_cons_self
  | try_ => intro hl; cases hl _ List.mem_cons_self
  | delegate => intro hl; cases hl _ List.mem_cons_self

theorem deps_leaf {os : List Operator} (h : ∀ o ∈ os, Leaf o) : deps os = 0 := by
  induction os with
  | nil => rfl
  | cons o os ih => rw [deps_cons, ih fun x hx => h x (by simp [hx]), h o (by simp)]; rfl

theorem leaf_prefix {a b c d : List Operator} (h : ∀ o ∈ a, Leaf o) (hcd : deps c ≠ 0 )
    (ha : a ++ b = c ++ d) : ∃ x, c = a ++ x ∧ b = x ++ d := by
  rcases List.append_eq_append_iff.1 ha with ⟨x, h1, h2⟩ | ⟨x, h1, h2⟩
  · exact ⟨x, h1, h2⟩
  · exfalso
    exact hcd (deps_leaf fun o ho => h o (by simp [h1, ho]))

/-- The body of a block without blocks inside, in a sequence without other blocks. -/
theorem seq_block {F : Fn} {I I' : List (BitVec 32)} {os : List Operator} {ts us : List VT}
    (h : Seq F I os ts us I') : ∀ pre post body bt,
    os = pre ++ (.block .block bt :: (body ++ .end_ :: post)) → (∀ o ∈ pre, Leaf o) →
    (∀ o ∈ body, Leaf o) → (∀ o ∈ post, Leaf o) →
    ∃ ps rs J J', F.Block bt ps rs ∧ Seq (F.label rs) J body (vals ps) (vals rs) J' := by
  have head : ∀ {pre rest rest' : List Operator} {x : Operator} {bt : BlockType}, dep x = 1 →
      (x :: rest') = pre ++ (.block .block bt :: rest) → (∀ o ∈ pre, Leaf o) →
      x = .block .block bt ∧ rest' = rest := by
    intro pre rest rest' x bt hd h hp
    cases pre with
    | nil => injection h with h1 h2; exact ⟨h1, h2⟩
    | cons p pre =>
      injection h with h1 h2
      have : dep p = 0 := hp p (by simp)
      rw [← h1, hd] at this
      cases this
  have depBlock : ∀ (k : Instr.Blk) (bt : BlockType), dep (.block k bt) = 1 := fun _ _ => rfl
  induction h with
  | nil => intro pre post body bt h; simp at h
  | instr hi =>
    intro pre post body bt h hp
    have hd := instr_dep hi
    cases pre with
    | nil => injection h with h1; rw [h1] at hd; cases hd
    | cons p pre => injection h with h1 h2; simp at h2
  | @append F I os1 os2 ts us vs I1 I2 h1 h2 ih1 ih2 =>
    intro pre post body bt h hp hb hq
    have d1 := seq_deps h1
    have d2 := seq_deps h2
    rcases List.append_eq_append_iff.1 h with ⟨c, h3, h4⟩ | ⟨c, h3, h4⟩
    · exact ih2 c post body bt h4 (fun o ho => hp o (by simp [h3, ho])) hb hq
    · cases c with
      | nil =>
        rw [List.append_nil] at h3
        exact ih2 [] post body bt h4.symm nofun hb hq
      | cons x c =>
        injection h4 with h5 h6
        subst h5
        have d3 : deps (Operator.block .block bt :: c) = 0 := by
          have := d1
          rw [h3, deps_append, deps_leaf hp] at this
          simpa using this
        rw [deps_cons] at d3
        have d4 : deps c = -1 := by rw [depBlock] at d3; omega
        obtain ⟨y, h7, h8⟩ := leaf_prefix hb (by rw [d4]; decide) h6
        cases y with
        | nil =>
          rw [List.append_nil] at h7
          rw [h7, deps_leaf hb] at d4
          cases d4
        | cons z y =>
          injection h8 with h9 h10
          subst h9
          have h11 := ih1 pre y body bt (by rw [h3, h7]) hp hb
            (fun o ho => hq o (by simp [h10, ho]))
          exact h11
  | frame _ _ ih => exact ih
  | sub _ _ _ ih => exact ih
  | @block F I bt' ps rs body' I' hb' hs _ =>
    intro pre post body bt h hp hb hq
    obtain ⟨h1, h2⟩ := head (depBlock _ _) h hp
    cases h1
    have : post = [] := by
      rcases List.eq_nil_or_concat post with e | ⟨q, x, e⟩
      · exact e
      · exfalso
        rw [e, show body ++ Operator.end_ :: q.concat x = (body ++ .end_ :: q) ++ [x] by simp] at h2
        have := List.append_inj_right' h2 rfl
        cases this
        have := hq .end_ (by simp [e])
        cases this
    subst this
    cases List.append_inj_left' h2 rfl
    exact ⟨ps, rs, I, I', hb', hs⟩
  | loop => intro pre post body bt h hp; cases (head (depBlock _ _) h hp).1
  | ifElse => intro pre post body bt h hp; cases (head (depBlock _ _) h hp).1
  | if_ => intro pre post body bt h hp; cases (head (depBlock _ _) h hp).1
  | tryTable => intro pre post body bt h hp; cases (head rfl h hp).1
  | try_ => intro pre post body bt h hp; cases (head (depBlock _ _) h hp).1
  | delegate => intro pre post body bt h hp; cases (head (depBlock _ _) h hp).1

theorem subs_snoc {D : Decls} {as bs : List VT} {a b : VT} (h : VTs.Sub D (as ++ [a]) (bs ++ [b])) :
    VTs.Sub D as bs ∧ VT.Sub D a b := by
  have := List.forall₂_reverse_iff.2 h
  rw [List.reverse_append, List.reverse_append] at this
  cases this with
  | cons h1 h2 => exact ⟨List.forall₂_reverse_iff.1 h2, h1⟩

/-- A branch table after a conversion has targets that agree on whether references are shared. -/
theorem no_shared_table {F : Fn} (hc : CtxOk F.C) {I I' : List (BitVec 32)} {ts us : List VT}
    {c : BitVec 32} {t : BrTable} {pre : List Operator} (hpre : ∀ o ∈ pre, Leaf o)
    {l l' : Label} {ls : List (BitVec 32)} {i : BitVec 32} (ht : t.targets = .ok ls) (hi : i ∈ ls)
    (hl : F.labels[i.toNat]? = some l) (hl' : F.labels[t.default.toNat]? = some l')
    {r r' : TypeList.Spec.Ref Nat} {x x' : Bool} {a a' : AbsHeap} (e : l.types = [.ref r]) (e' : l'.types = [.ref r'])
    (hr : r.heap = .abs x a) (hr' : r'.heap = .abs x' a')
    (h : Seq F I (pre ++ [.plain .anyConvertExtern, .i32Const c, .brTable t]) ts us I') :
    x = x' := by
  have hleaf : ∀ o ∈ pre ++ [.plain .anyConvertExtern, .i32Const c, .brTable t], Leaf o := by
    intro o ho
    rcases List.mem_append.1 ho with ho | ho
    · exact hpre o ho
    · simp only [List.mem_cons, List.not_mem_nil, or_false] at ho
      rcases ho with rfl | rfl | rfl <;> rfl
  obtain ⟨u1, J1, -, h1⟩ := seq_split h pre _ rfl hleaf
  obtain ⟨u2, J2, h2, h3⟩ := seq_split h1 [.plain .anyConvertExtern] _ rfl
    fun o ho => hleaf o (by simp [ho])
  obtain ⟨u3, J3, h4, h5⟩ := seq_split h3 [.i32Const c] _ rfl
    fun o ho => hleaf o (by simp at ho ⊢; rcases ho with rfl | rfl <;> simp)
  obtain ⟨_, ins, outs, fs, i1, -, s1⟩ := (seq_one h2 (by simp [Leaf, dep])).2 _ rfl
  obtain ⟨_, ins2, outs2, fs2, i2, s2, s3⟩ := (seq_one h4 (by simp [Leaf, dep])).2 _ rfl
  obtain ⟨_, ins3, outs3, fs3, i3, s4, -⟩ := (seq_one h5 (by simp [Leaf, dep])).2 _ rfl
  cases i2 with
  | stops _ _ h => exact h.elim
  | simple h =>
  obtain ⟨rfl, rfl⟩ := h
  cases i3 with
  | simple h => exact h.elim
  | stops _ _ h => exact h.elim
  | @brTable _ ls' vs l2 below after g1 g2 g3 g4 =>
  rw [ht] at g1
  cases g1
  rw [hl'] at g2
  cases g2
  obtain ⟨l3, g5, g6⟩ := g4 i hi
  rw [hl] at g5
  cases g5
  rw [e'] at g3
  rw [e] at g6
  cases g3 with
  | @cons v _ vs _ g3 g7 =>
  cases g7
  cases g6 with
  | cons g6 _ =>
  have k1 := VTs.Sub.trans s3 s4
  rw [← List.append_assoc, ← List.append_assoc] at k1
  have k2 := (subs_snoc k1).1
  have k3 := VTs.Sub.trans s1 s2
  rw [show vals ([] : List V) = [] from rfl, List.append_nil] at k3
  obtain ⟨n, s, k4⟩ : ∃ n s, outs = [.val (.ref ⟨n, .abs s .any⟩)] := by
    cases i1 with
    | simple h =>
      unfold Simple PlainTy at h
      cases h
    | stops _ _ h => exact h.elim
    | @anyConvertExtern n s => exact ⟨n, s, rfl⟩
  rw [k4] at k3
  have k5 := (subs_snoc (VTs.Sub.trans k3 k2)).2
  have key : ∀ {q : TypeList.Spec.Ref Nat} {y : Bool} {b : AbsHeap}, q.heap = .abs y b →
      VT.Sub F.C.decls v (.val (.ref q)) → s = y := by
    intro q y b hq hv
    have := VT.Sub.trans k5 hv
    cases this with
    | val h =>
      cases h with
      | refl => cases hq; rfl
      | ref h =>
        have h := h.2
        rw [hq] at h
        exact (TypeList.Alg.complete hc.decls h).1
  rw [← key hr g6, ← key hr' g3]

end Verif.Op.View
