import Verif.Valid.Loops
/-! # The flag of the assertion in `check_const_expr`

An operand that is a reference does not disappear before the last `end`, so that an expression of
a numeric type has no `ref.func`. -/
namespace Verif.Valid
open Verif.Reader Verif.Items
open Verif.Op
open Verif.Std (BSearch)
open Verif.TypeList (TypeList)
open Verif.TypeList.Spec (SubT)
open Verif.Instr (Operator OperatorsReader)

namespace Flag
variable {f : Feats} {bs : BSearch} {T : TypeList} {m : Op.Module} {α β : Type}

/-- References. -/
def RefLike : MT → Prop
  | .unknownRef _ | .known (.ref _) => True
  | _ => False

/-- There is a reference among the operands. -/
def HasRef (S : St) : Prop := ∃ t ∈ S.operands, RefLike t

/-- The only frame is that of the expression. -/
def Flat (ty : Val) (S : St) : Prop :=
  ∃ fr, S.control = [fr] ∧ fr.unreachable = false ∧ fr.height = 0 ∧ fr.kind = .block ∧
    fr.blockType = .type ty

/-- A computation after which there is a reference. -/
def Ends (m : M α) : Prop := ∀ S a S', m S = (.ok a, S') → HasRef S'

theorem Ends.bind {m : M α} {k : α → M β} (h : ∀ a, Ends (k a)) : Ends (m >>= k) := by
  intro S b S' he
  rw [bind_def] at he
  rcases hm : m S with ⟨r, S1⟩
  rw [hm] at he
  cases r with
  | error e => cases he
  | ok a => exact h a _ _ _ he

theorem ends_mt {t : MT} (h : RefLike t) : Ends (pushMT t) := by
  intro S a S' he
  cases he
  exact ⟨t, List.mem_cons_self .., h⟩

theorem ends_ref {r : Ref} : Ends (pushRef r) := ends_mt (t := .known (.ref r)) trivial

theorem ends_exact {E : Env} {b : Bool} {i : BitVec 32} : Ends (pushExactRefIfAvailable E b i) := by
  unfold pushExactRefIfAvailable
  split
  · exact .bind fun _ => .bind fun _ => ends_ref
  · exact .bind fun _ => .bind fun _ => ends_ref

/-- The subtypes of a numeric type are not references. -/
theorem sub_num {L : List (SubT Nat)} {r : Ref} {ty : Val} (h : isNumericOrVector ty = true) :
    subtypeAnswer T L (.ref r) ty = false := by
  unfold subtypeAnswer
  have key : ∀ y, encVal ty = some y →
      ∀ x, TypeList.valtypeIsSubtype T (.ref x) y = .ok false := by
    intro y hy x
    cases ty with
    | ref => cases h
    | _ => cases hy; rfl
  cases ty with
  | ref => cases h
  | _ =>
    split
    · show (answer ((encVal (.ref r)).bind _)).getD false = false
      rw [show encVal (.ref r) = (encRef r).map .ref from rfl]
      cases encRef r with
      | none => rfl
      | some x =>
        show (answer (some (TypeList.valtypeIsSubtype T (.ref x) _))).getD false = false
        rw [key _ rfl x]
        rfl
    · rfl

theorem popped_num {t : MT} (ht : RefLike t) {ty : Val} (h : isNumericOrVector ty = true) :
    checkPopped (env f bs T m) (some ty) t = false := by
  unfold checkPopped
  cases t with
  | bottom => exact ht.elim
  | unknownRef o =>
    cases ty with
    | ref => cases h
    | _ => rfl
  | known v =>
    cases v with
    | ref r => exact sub_num h
    | _ => exact ht.elim

theorem pop_num {S S' : St} {ty ty' : Val} {t : MT} (hf : Flat ty S) (hr : HasRef S)
    (hn : isNumericOrVector ty' = true)
    (h : pop (env f bs T m) (some ty') S = (.ok t, S')) : Flat ty S' ∧ HasRef S' := by
  obtain ⟨fr, h1, h2, h3, h4, h5⟩ := hf
  obtain ⟨x, hx, hxr⟩ := hr
  unfold pop at h
  cases hp : popFast (some ty') S with
  | some p =>
    rw [hp] at h
    cases h
    unfold popFast at hp
    split at hp
    · next v ops ho =>
      split at hp
      · next he =>
        rw [h1] at hp
        dsimp only at hp
        split at hp
        · cases hp
          refine ⟨⟨fr, h1, h2, h3, h4, h5⟩, x, ?_, hxr⟩
          rw [ho] at hx
          rcases List.mem_cons.1 hx with rfl | hx
          · cases he
            cases ty' with
            | ref => cases hn
            | _ => exact hxr.elim
          · exact hx
        · cases hp
      · cases hp
    · cases hp
  | none =>
    rw [hp] at h
    dsimp only at h
    have hops : S.operands.head?.toList ++ S.operands.tail = S.operands := by
      cases S.operands <;> rfl
    unfold popSlow at h
    dsimp only at h
    rw [hops, h1] at h
    dsimp only at h
    rw [if_neg (by rw [h2]; simp)] at h
    split at h
    · cases h
    · cases ho : S.operands with
      | nil => rw [ho] at hx; cases hx
      | cons t' ops =>
        rw [ho] at h hx
        dsimp only at h
        split at h
        · next hc =>
          cases h
          refine ⟨⟨fr, rfl, h2, h3, h4, h5⟩, x, ?_, hxr⟩
          rcases List.mem_cons.1 hx with rfl | hx
          · rw [popped_num hxr hn] at hc; cases hc
          · exact hx
        · cases h

theorem popT_num {S S' : St} {ty ty' : Val} {u : Unit} (hf : Flat ty S) (hr : HasRef S)
    (hn : isNumericOrVector ty' = true)
    (h : popT (env f bs T m) ty' S = (.ok u, S')) : Flat ty S' ∧ HasRef S' := by
  unfold popT at h
  rw [bind_def] at h
  rcases hm : pop (env f bs T m) (some ty') S with ⟨r, S1⟩
  rw [hm] at h
  cases r with
  | error e => cases h
  | ok t =>
    cases h
    exact pop_num hf hr hn hm

/-- A computation that keeps references. -/
def Keeps (m : M α) : Prop :=
  ∀ ty S a S', Flat ty S → HasRef S → m S = (.ok a, S') → Flat ty S' ∧ HasRef S'

theorem Keeps.bind {m : M α} {k : α → M β} (hm : Keeps m) (h : ∀ a, Keeps (k a)) :
    Keeps (m >>= k) := by
  intro ty S b S' hf hr he
  rw [bind_def] at he
  rcases hs : m S with ⟨r, S1⟩
  rw [hs] at he
  cases r with
  | error e => cases he
  | ok a =>
    obtain ⟨h1, h2⟩ := hm ty S a S1 hf hr hs
    exact h a ty S1 b S' h1 h2 he

theorem keeps_popT {ty : Val} (h : isNumericOrVector ty = true) :
    Keeps (popT (env f bs T m) ty) := fun _ _ _ _ hf hr he => popT_num hf hr h he

theorem keeps_push {v : Val} : Keeps (push v) := by
  intro ty S a S' hf hr he
  cases he
  obtain ⟨t, ht, hr⟩ := hr
  exact ⟨hf, t, List.mem_cons_of_mem _ ht, hr⟩

theorem keeps_const {x : M α} (h : ∀ S, (x S).2 = S) : Keeps x := by
  intro ty S a S' hf hr he
  have := h S
  rw [he] at this
  cases this
  exact ⟨hf, hr⟩

theorem keeps_require {b : Bool} : Keeps (require b) := by
  unfold require
  split <;> exact keeps_const fun _ => rfl

theorem keeps_orError {o : Option α} : Keeps (orError o) := by
  cases o <;> exact keeps_const fun _ => rfl

theorem keeps_binary {ty : Val} (h : isNumericOrVector ty = true) :
    Keeps (checkBinaryOp (env f bs T m) ty) :=
  (keeps_popT h).bind fun _ => (keeps_popT h).bind fun _ => keeps_push

/-- What `check_const_expr` lets through only changes operands, keeps references, and `ref.func`
makes one. -/
theorem op_refs {s s1 : ModuleState} {u u1 : Bool} {o : Operator}
    (h : constOp f s u o = .ok (s1, u1)) (ho : o ≠ .end_) :
    OpOnly (visit (env f bs T m) o) ∧
      ((Keeps (visit (env f bs T m) o) ∧ ∀ i, o ≠ .idx .refFunc i) ∨
        Ends (visit (env f bs T m) o)) := by
  cases o with
  | end_ => exact absurd rfl ho
  | i32Const | i64Const | v128Const =>
    exact ⟨inferInstanceAs (OpOnly (push _)), .inl ⟨keeps_push, nofun⟩⟩
  | f32Const | f64Const =>
    exact ⟨inferInstanceAs (OpOnly (checkFloatsEnabled _ >>= fun _ => push _)),
      .inl ⟨keeps_require.bind fun _ => keeps_push, nofun⟩⟩
  | plain o =>
    obtain ⟨_, h1, h2⟩ := Valid.bind_ok h
    split at h1
    · next hm =>
      simp only [extendedPlain, List.mem_cons, List.not_mem_nil, or_false] at hm
      rcases hm with rfl | rfl | rfl | rfl | rfl | rfl <;>
        exact ⟨inferInstanceAs (OpOnly (checkBinaryOp _ _)), .inl ⟨keeps_binary rfl, nofun⟩⟩
    · split at h1
      · next hm =>
        simp only [gcPlain, List.mem_cons, List.not_mem_nil, or_false] at hm
        rcases hm with rfl | rfl | rfl
        · exact ⟨inferInstanceAs (OpOnly (popT _ _ >>= fun _ => push _)),
            .inr (.bind fun _ => ends_mt trivial)⟩
        · refine ⟨inferInstanceAs (OpOnly (visitConvert _ _ _)),
            .inr (Ends.bind fun r => ends_mt ?_)⟩
          cases r <;> trivial
        · refine ⟨inferInstanceAs (OpOnly (visitConvert _ _ _)),
            .inr (Ends.bind fun r => ends_mt ?_)⟩
          cases r <;> trivial
      · split at h1
        · next hm =>
          subst hm
          exact ⟨inferInstanceAs (OpOnly (popT _ _ >>= fun _ => push _)),
            .inr (.bind fun _ => ends_mt trivial)⟩
        · cases h1
  | heap o x =>
    dsimp only [constOp] at h
    split at h
    · next hm =>
      subst hm
      refine ⟨inferInstanceAs (OpOnly (visitRefNull _ x)), .inr ?_⟩
      show Ends (visitRefNull _ x)
      unfold visitRefNull
      split
      · exact .bind fun _ => .bind fun _ => .bind fun _ => ends_ref
      · exact .bind fun _ => .bind fun _ => ends_ref
    · cases h
  | idx2 o i j =>
    obtain ⟨_, h1, h2⟩ := Valid.bind_ok h
    split at h1
    · next hm =>
      subst hm
      exact ⟨inferInstanceAs (OpOnly (visitArrayNewFixed _ i j)),
        .inr (.bind fun _ => .bind fun _ => ends_exact)⟩
    · cases h1
  | idx o i =>
    dsimp only [constOp] at h
    split at h
    · next hm =>
      simp only [gcIdx, List.mem_cons, List.not_mem_nil, or_false] at hm
      rcases hm with rfl | rfl | rfl | rfl | rfl | rfl
      · exact ⟨inferInstanceAs (OpOnly (visitStructNew _ i)),
          .inr (.bind fun _ => .bind fun _ => .bind fun _ => .bind fun _ => ends_exact)⟩
      · exact ⟨inferInstanceAs (OpOnly (visitStructNewDefault _ i)),
          .inr (.bind fun _ => .bind fun _ => .bind fun _ => .bind fun _ => ends_exact)⟩
      · exact ⟨inferInstanceAs (OpOnly (visitStructNewDesc _ i)),
          .inr (.bind fun _ => .bind fun _ => .bind fun _ => .bind fun _ => .bind fun _ => ends_exact)⟩
      · exact ⟨inferInstanceAs (OpOnly (visitStructNewDefaultDesc _ i)),
          .inr (.bind fun _ => .bind fun _ => .bind fun _ => .bind fun _ => .bind fun _ => ends_exact)⟩
      · exact ⟨inferInstanceAs (OpOnly (visitArrayNew _ i)),
          .inr (.bind fun _ => .bind fun _ => .bind fun _ => ends_exact)⟩
      · exact ⟨inferInstanceAs (OpOnly (visitArrayNewDefault _ i)),
          .inr (.bind fun _ => .bind fun _ => .bind fun _ => ends_exact)⟩
    · split at h
      · next hm =>
        subst hm
        refine ⟨inferInstanceAs (OpOnly (visitGlobalGet _ i)), .inl ⟨?_, nofun⟩⟩
        exact (keeps_orError.bind fun _ => (Keeps.bind (keeps_const fun _ => rfl) fun _ =>
          keeps_require).bind fun _ => keeps_const fun _ => rfl).bind fun _ => keeps_push
      · split at h
        · next hm =>
          subst hm
          exact ⟨inferInstanceAs (OpOnly (visitRefFunc _ i)),
            .inr (.bind fun _ => .bind fun _ => .bind fun _ => ends_ref)⟩
        · cases h
  | _ => cases h

theorem visit_stack {s s1 : ModuleState} {u u1 : Bool} {o : Operator}
    (h : constOp f s u o = .ok (s1, u1)) (ho : o ≠ .end_) (c : Instr.ControlStack) :
    c.visit o = c := by
  cases o with
  | end_ => exact absurd rfl ho
  | _ => first | rfl | cases h

/-- At the last `end` of an expression of a numeric type there is no reference left. -/
theorem end_num {ty : Val} (hn : isNumericOrVector ty = true) {S S' : St} {u : Unit}
    (hf : Flat ty S) (hr : HasRef S) (h : visitEnd (env f bs T m) S = (.ok u, S')) : False := by
  have hf0 := hf
  obtain ⟨fr, h1, h2, h3, h4, h5⟩ := hf
  unfold visitEnd at h
  rw [bind_def] at h
  rcases hm : popCtrl (env f bs T m) S with ⟨r, S1⟩
  rw [hm] at h
  cases r with
  | error e => cases h
  | ok fr1 =>
    unfold popCtrl at hm
    rw [bind_def, show topFrame S = (.ok fr, S) by
      show Op.orPanic S.control.head? S = _
      rw [h1]; rfl] at hm
    dsimp only at hm
    rw [h5] at hm
    change (popAll (env f bs T m) [ty] >>= _) S = _ at hm
    rw [bind_def] at hm
    rcases hp : popAll (env f bs T m) [ty] S with ⟨r, S2⟩
    rw [hp] at hm
    cases r with
    | error e => cases hm
    | ok a =>
      have hk : Keeps (popAll (env f bs T m) [ty]) :=
        (keeps_popT hn).bind fun _ => keeps_const fun _ => rfl
      obtain ⟨-, t, ht, -⟩ := hk ty S a S2 hf0 hr hp
      change (require (S2.operands.length == fr.height) >>= fun _ => takeFrame) S2 = _ at hm
      rw [h3] at hm
      cases ho : S2.operands with
      | nil => rw [ho] at ht; cases ht
      | cons t' ops =>
        rw [ho, bind_def] at hm
        cases hm

theorem op_visit {E : Env} {o : Operator} {S S' : St} {u : Unit} (h : op E o S = (.ok u, S')) :
    visit E o S = (.ok u, S') := by
  unfold op at h
  rw [bind_def] at h
  unfold require at h
  split at h
  · next heq =>
    split at heq
    · cases heq
      exact h
    · cases heq
  · cases h

/-- The flag is false when the loop ends. -/
theorem loop_flag {ty : Val} (hn : isNumericOrVector ty = true) : ∀ (n : Nat) (r : Reader)
    (s s' : ModuleState) (u u' : Bool) (S : St) (os : List Operator) (q : OperatorsReader),
    Flat ty S → (u = true → HasRef S) →
    OperatorsReader.collectFrom f.reader.toFeatures n ⟨r, ⟨[], some .block⟩⟩ = .ok (os, q) →
    q.finish = .ok () → constFrom f bs T n r s u S = .ok (s', u') → u' = false := by
  have nofin : ∀ {r : Reader} {P : Prop},
      OperatorsReader.finish ⟨r, ⟨[], some .block⟩⟩ = .ok () → P := by
    intro r P h
    cases h
  intro n
  induction n with
  | zero =>
    intro r s s' u u' S os q _ _ hc hf _
    cases hc
    exact nofin hf
  | succ n ih =>
    intro r s s' u u' S os q hflat hu hc hf hr
    unfold OperatorsReader.collectFrom at hc
    unfold constFrom at hr
    by_cases he : r.eof = true
    · rw [if_pos he] at hc
      cases hc
      exact nofin hf
    · rw [if_neg he] at hc hr
      have hk : (S.control.head?.map (·.kind)) = some .block := by
        obtain ⟨fr, h1, -, -, h4, -⟩ := hflat
        rw [h1]
        exact congrArg some h4
      rw [hk] at hr
      obtain ⟨⟨o, r'⟩, h1, h2⟩ := Valid.bind_ok hr
      have h1 : Instr.visitOperator f.reader.toFeatures (some .block) r = .ok (o, r') := by
        cases hv : Instr.visitOperator f.reader.toFeatures (some .block) r with
        | error e => rw [hv] at h1; cases h1
        | ok x => rw [hv] at h1; cases h1; rfl
      unfold OperatorsReader.read at hc
      rw [h1] at hc
      dsimp only at hc h2
      obtain ⟨⟨s1, u1, S1⟩, h3, h4⟩ := Valid.bind_ok h2
      dsimp only at h4
      obtain ⟨h5, h6⟩ := step_ok h3
      have h7 := op_visit h6
      cases hcoll : OperatorsReader.collectFrom f.reader.toFeatures n
          ⟨r', Instr.ControlStack.visit ⟨[], some .block⟩ o⟩ with
      | error e => rw [hcoll] at hc; cases hc
      | ok y =>
        obtain ⟨os1, q1⟩ := y
        rw [hcoll] at hc
        cases hc
        rcases constOp_ok h5 with ⟨rfl, rfl, rfl⟩ | ⟨hne, -, hmiss, -⟩
        · rw [visit_end] at hcoll
          have hlast : r'.eof = true := by
            by_contra hne
            cases n with
            | zero =>
              cases hcoll
              unfold OperatorsReader.finish at hf
              rw [if_neg (by simp), if_pos hne] at hf
              cases hf
            | succ n =>
              unfold OperatorsReader.collectFrom at hcoll
              rw [if_neg hne] at hcoll
              unfold OperatorsReader.read at hcoll
              obtain ⟨e, he⟩ := visit_none f.reader.toFeatures r'
              dsimp only at hcoll
              rw [he] at hcoll
              cases hcoll
          have e2 : (s1, u1) = (s', u') := by
            cases n with
            | zero =>
              unfold constFrom at h4
              rw [if_pos hlast] at h4
              injection h4
            | succ n =>
              unfold constFrom at h4
              rw [if_pos hlast] at h4
              injection h4
          cases e2
          cases u' with
          | false => rfl
          | true => exact (end_num hn hflat (hu rfl) h7).elim
        · rw [visit_stack h5 hne] at hcoll
          obtain ⟨ho, href⟩ := op_refs (bs := bs) (T := T) (m := s1.m) h5 hne
          refine ih r' s1 s' u1 u' S1 os1 q ?_ ?_ hcoll hf h4
          · obtain ⟨fr, h1, h2⟩ := hflat
            exact ⟨fr, by rw [(opOnly_ini ho h7).2.1, h1], h2⟩
          · intro hu1
            rcases href with ⟨hkeep, hno⟩ | hend
            · refine (hkeep ty S () S1 hflat (hu ?_) h7).2
              refine (hmiss.1 hu1).resolve_right ?_
              rintro ⟨-, i, hi⟩
              exact hno i (List.mem_singleton.1 hi).symm
            · exact hend _ _ _ h7

/-- As long as the module is not shared the flag does not change. -/
theorem owned_flag : ∀ (n : Nat) (r : Reader) (s s' : ModuleState) (u u' : Bool) (S : St),
    s.owned = true → constFrom f bs T n r s u S = .ok (s', u') → u' = u
  | 0, r, s, s', u, u', S, _, h => by
    unfold constFrom at h
    split at h
    · cases h; rfl
    · cases h
  | n + 1, r, s, s', u, u', S, ho, h => by
    unfold constFrom at h
    split at h
    · cases h; rfl
    · obtain ⟨⟨o, r'⟩, h1, h2⟩ := Valid.bind_ok h
      obtain ⟨⟨s1, u1, S1⟩, h3, h4⟩ := Valid.bind_ok h2
      obtain ⟨h5, -⟩ := step_ok h3
      rcases constOp_ok h5 with ⟨rfl, rfl, rfl⟩ | ⟨-, hup, hmiss, -⟩
      · exact owned_flag n _ _ _ _ _ _ ho h4
      · rw [owned_flag n _ _ _ _ _ _ (hup.owned.trans ho) h4]
        cases u1 with
        | true =>
          rcases hmiss.1 rfl with h | ⟨h, -⟩
          · exact h.symm
          · rw [ho] at h; cases h
        | false =>
          cases u with
          | false => rfl
          | true => exact absurd (hmiss.2 (.inl rfl)) nofun

theorem flat_new (ty : Val) : Flat ty (newConstExpr ty) := ⟨_, rfl, rfl, rfl, rfl, rfl⟩

/-- The flag is false where the assertion is reached. -/
theorem flag_false {s s' : ModuleState} {e : ConstExpr} {ty : Val} {u : Bool} {r r' : Reader}
    (hr : readConstExpr f.reader.toFeatures r = .ok (e, r'))
    (ho : s.owned = true ∨ ty = .i32 ∨ ty = .i64)
    (h : constFrom f bs T e.reader.bytesRemaining e.reader s false (newConstExpr ty) =
      .ok (s', u)) : u = false := by
  obtain ⟨is, h1, -, -⟩ := Reenc.readConst_steps hr
  obtain ⟨os, q, h2, h3, -⟩ := h1.collect
  have key : isNumericOrVector ty = true → u = false := fun hn =>
    loop_flag hn _ _ s s' false u _ os q (flat_new ty) (fun h => nomatch h) h2 h3 h
  rcases ho with ho | rfl | rfl
  · exact owned_flag _ _ _ _ _ _ _ ho h
  · exact key rfl
  · exact key rfl

end Flag
end Verif.Valid
