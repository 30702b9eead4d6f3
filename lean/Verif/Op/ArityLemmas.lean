import Verif.Op.AritySpec
import Verif.Op.OpOnly
/-! How the validator's helpers change the operands, counted. -/
namespace Verif.Op.AritySpec
open Verif.Op
open Verif.Types (AbsHeap HeapType RefType ValType)
open Verif.Instr (FrameKind BlockType MemArg Catch Handle BrTable Operator)
open Verif.TypeList.Spec (Field Storage Comp SubT)

/-! ### Counting -/

theorem countLog_append : ∀ (l l' : List Bool) (p : Nat × Nat),
    countLog (l ++ l') p = countLog l' (countLog l p)
  | [], _, _ => rfl
  | true :: l, l', (p, q) => by
    show countLog (l ++ l') _ = countLog l' (countLog l _)
    exact countLog_append l l' _
  | false :: l, l', (p, q) => by
    simp only [List.cons_append, countLog]
    split <;> exact countLog_append l l' _

theorem countLog_shift : ∀ (l : List Bool) (p q a b : Nat), countLog l (0, 0) = (a, b) →
    countLog l (p, q) = (p + (a - q), q - a + b)
  | [], p, q, a, b, h => by
    cases h
    simp [countLog]
  | true :: l, p, q, a, b, h => by
    rcases hl : countLog l (0, 0) with ⟨a', b'⟩
    have h1 := countLog_shift l 0 1 a' b' hl
    have h2 := countLog_shift l p (q + 1) a' b' hl
    simp only [countLog] at h ⊢
    rw [show (0 + 1 : Nat) = 1 from rfl, h1] at h
    rw [h2]
    cases h
    simp only [Prod.mk.injEq]
    omega
  | false :: l, p, q, a, b, h => by
    rcases hl : countLog l (0, 0) with ⟨a', b'⟩
    have h1 := countLog_shift l 1 0 a' b' hl
    have h2 := countLog_shift l p (q - 1) a' b' hl
    have h3 := countLog_shift l (p + 1) q a' b' hl
    simp only [countLog] at h ⊢
    rw [if_neg (by omega), show (0 + 1 : Nat) = 1 from rfl, h1] at h
    cases h
    split
    · rw [h2]
      simp only [Prod.mk.injEq]
      omega
    · rw [h3]
      simp only [Prod.mk.injEq]
      omega

/-- The counts of a log. -/
def counts (tr : List (Option MT)) : Nat × Nat := countLog (trace tr) (0, 0)

theorem counts_append {tr tr' : List (Option MT)} {a b a' b' : Nat} (h : counts tr = (a, b))
    (h' : counts tr' = (a', b')) : counts (tr' ++ tr) = (a + (a' - b), b - a' + b') := by
  unfold counts trace at *
  rw [List.reverse_append, List.map_append, countLog_append, h]
  exact countLog_shift _ a b a' b' h'

/-! ### Moves -/

/-- `Takes`, for a given number `h` of operands in the block and reachability, with the log. -/
structure Moves (u : Bool) (h a b : Nat) (S S' : St) : Prop where
  enough : u = false → a ≤ h
  left : ∃ new, new.length = b ∧ S'.operands = new ++ S.operands.drop (min a h)
  log : ∀ L, S.log = some L → ∃ tr L', S'.log = some L' ∧ L'.operands = tr ++ L.operands ∧
    (u = false → counts tr = (a, b))

theorem Moves.cast {u : Bool} {h a b a' b' : Nat} {S S' : St} (hm : Moves u h a b S S')
    (ha : a = a') (hb : b = b') : Moves u h a' b' S S' := by
  subst ha hb
  exact hm

theorem Moves.same {u : Bool} {h : Nat} {S S' : St} (ho : S'.operands = S.operands)
    (hl : ∀ L, S.log = some L → ∃ L', S'.log = some L' ∧ L'.operands = L.operands) :
    Moves u h 0 0 S S' where
  enough _ := Nat.zero_le _
  left := ⟨[], rfl, by simp [ho]⟩
  log L hL := by
    obtain ⟨L', h1, h2⟩ := hl L hL
    exact ⟨[], L', h1, h2, fun _ => rfl⟩

theorem Moves.refl {u : Bool} {h : Nat} {S : St} : Moves u h 0 0 S S :=
  .same rfl fun L hL => ⟨L, hL, rfl⟩

theorem Moves.length {u : Bool} {h a b : Nat} {S S' : St} (hm : Moves u h a b S S') :
    S'.operands.length = b + (S.operands.length - min a h) := by
  obtain ⟨new, rfl, h2⟩ := hm.left
  rw [h2]
  simp

theorem Moves.trans {u : Bool} {h a b a' b' : Nat} {S S1 S2 : St} (h1 : Moves u h a b S S1)
    (h2 : Moves u (h - a + b) a' b' S1 S2) :
    Moves u h (a + (a' - b)) (b - a' + b') S S2 where
  enough hu := by
    have := h1.enough hu
    have := h2.enough hu
    omega
  left := by
    obtain ⟨n1, l1, e1⟩ := h1.left
    obtain ⟨n2, l2, e2⟩ := h2.left
    refine ⟨n2 ++ n1.drop a', by simp only [List.length_append, List.length_drop]; omega, ?_⟩
    rw [e2, e1, List.drop_append, List.drop_drop, List.append_assoc]
    congr 1
    have hd : n1.drop (min a' (h - a + b)) = n1.drop a' := by
      rcases Nat.le_total a' (h - a + b) with hle | hle
      · rw [Nat.min_eq_left hle]
      · rw [List.drop_of_length_le (by omega), List.drop_of_length_le (by omega)]
    rw [hd]
    congr 2
    omega
  log L hL := by
    obtain ⟨t1, L1, e1, e2, e3⟩ := h1.log L hL
    obtain ⟨t2, L2, e4, e5, e6⟩ := h2.log L1 e1
    refine ⟨t2 ++ t1, L2, e4, by rw [e5, e2, List.append_assoc], fun hu => ?_⟩
    exact counts_append (e3 hu) (e6 hu)

/-- Moves in a block that can be reached, seen from elsewhere. -/
theorem Moves.widen {h h' a b : Nat} {S S' : St} (hm : Moves false h a b S S') (hh : h ≤ h')
    (u : Bool) : Moves u h' a b S S' where
  enough _ := Nat.le_trans (hm.enough rfl) hh
  left := by
    have := hm.enough rfl
    rw [Nat.min_eq_left (by omega), ← Nat.min_eq_left this]
    exact hm.left
  log L hL := by
    obtain ⟨tr, L', h1, h2, h3⟩ := hm.log L hL
    exact ⟨tr, L', h1, h2, fun _ => h3 rfl⟩

/-! ### Computations -/

/-- A computation that only looks. -/
class Reads {α : Type} (m : M α) : Prop where
  spec : ∀ S, (m S).2 = S

/-- When the computation succeeds, it has taken `a` operands and left `b`. -/
class Eff {α : Type} (m : M α) (a b : outParam Nat) : Prop where
  spec : ∀ (S : St) (x : α) (S' : St) (fr : Frame) (rest : List Frame), S.control = fr :: rest →
    fr.height ≤ S.operands.length → m S = (.ok x, S') →
    S'.control = S.control ∧
      Moves fr.unreachable (S.operands.length - fr.height) a b S S'

variable {α β : Type}

theorem Eff.cast {m : M α} {a b a' b' : Nat} (h : Eff m a b) (ha : a = a') (hb : b = b') :
    Eff m a' b' := by
  subst ha hb
  exact h

instance (priority := low) Eff.reads (m : M α) [h : Reads m] : Eff m 0 0 where
  spec S x S' fr rest hc hl hr := by
    have := h.spec S
    rw [hr] at this
    cases this
    exact ⟨rfl, .refl⟩

theorem bind_inv {m : M α} {k : α → M β} {S S' : St} {y : β}
    (h : (m >>= k) S = (.ok y, S')) : ∃ x S1, m S = (.ok x, S1) ∧ k x S1 = (.ok y, S') := by
  rw [bind_def] at h
  rcases hm : m S with ⟨r, S1⟩
  rw [hm] at h
  cases r with
  | error e => cases h
  | ok x => exact ⟨x, S1, rfl, h⟩

theorem Eff.bind {m : M α} {k : α → M β} {a b a' b' : Nat} (h : Eff m a b)
    (h' : ∀ x, Eff (k x) a' b') : Eff (m >>= k) (a + (a' - b)) (b - a' + b') where
  spec S y S' fr rest hc hl hr := by
    obtain ⟨x, S1, h1, h2⟩ := bind_inv hr
    obtain ⟨c1, m1⟩ := h.spec S x S1 fr rest hc hl h1
    have hlen := m1.length
    obtain ⟨c2, m2⟩ := (h' x).spec S1 y S' fr rest (c1.trans hc) (by omega) h2
    refine ⟨c2.trans c1, m1.trans ?_⟩
    have : S1.operands.length - fr.height = S.operands.length - fr.height - a + b := by omega
    rwa [this] at m2

theorem Eff.castBind {m : M α} {k : α → M β} {a b a' b' c d : Nat} (h : Eff m a b)
    (h' : ∀ x, Eff (k x) a' b') (hc : a + (a' - b) = c) (hd : b - a' + b' = d) :
    Eff (m >>= k) c d :=
  (h.bind h').cast hc hd

theorem Eff.fail {e : Fail} {a b : Nat} : Eff (fail e : M α) a b where
  spec _ _ _ _ _ _ _ hr := by cases hr

theorem Eff.map {f : α → β} {m : M α} {a b : Nat} (h : Eff m a b) : Eff (f <$> m) a b where
  spec S y S' fr rest hc hl hr := by
    obtain ⟨x, S1, h1, h2⟩ := bind_inv (m := m) (k := fun x => pure (f x)) hr
    cases h2
    exact h.spec S x _ fr rest hc hl h1

theorem Reads.bind {m : M α} {k : α → M β} (h : Reads m) (h' : ∀ x, Reads (k x)) :
    Reads (m >>= k) where
  spec S := by
    rw [bind_def]
    have h1 := h.spec S
    rcases hm : m S with ⟨r, S1⟩
    rw [hm] at h1
    cases h1
    cases r with
    | error e => rfl
    | ok x => exact (h' x).spec _

theorem Reads.map {f : α → β} {m : M α} (h : Reads m) : Reads (f <$> m) :=
  show Reads (m >>= fun x => pure (f x)) from h.bind fun _ => ⟨fun _ => rfl⟩

instance (a : α) : Reads (pure a : M α) := ⟨fun _ => rfl⟩
instance (e : Fail) : Reads (fail e : M α) := ⟨fun _ => rfl⟩
instance (b : Bool) : Reads (require b) := ⟨fun _ => by cases b <;> rfl⟩
instance (o : Option α) : Reads (orError o) := ⟨fun _ => by cases o <;> rfl⟩
instance (o : Option α) : Reads (orPanic o) := ⟨fun _ => by cases o <;> rfl⟩
instance (o : Except Fail α) : Reads (lift o) := ⟨fun _ => by cases o <;> rfl⟩
instance : Reads getS := ⟨fun _ => rfl⟩

theorem Reads.each' {g : α → M Unit} (h : ∀ a, Reads (g a)) : ∀ xs, Reads (each g xs)
  | [] => ⟨fun _ => rfl⟩
  | x :: xs => (h x).bind fun _ => Reads.each' h xs
instance (g : α → M Unit) [h : ∀ a, Reads (g a)] (xs : List α) : Reads (each g xs) :=
  Reads.each' h xs

macro "reads" : tactic => `(tactic|
  repeat' (first
    | infer_instance
    | (with_reducible refine Reads.bind ?_ ?_)
    | (with_reducible refine Reads.map ?_)
    | intro _
    | split))

macro "eff" : tactic => `(tactic|
  repeat' (first
    | exact Eff.fail
    | infer_instance
    | (with_reducible apply Eff.castBind)
    | (with_reducible apply Eff.map)
    | intro _
    | rfl
    | omega
    | split))

/-! ### Operands -/

instance (t : MT) : Eff (pushMT t) 0 1 where
  spec S x S' fr rest hc hl hr := by
    cases hr
    refine ⟨rfl, fun _ => Nat.zero_le _, ⟨[t], rfl, by simp [St.recordPush]⟩, fun L hL => ?_⟩
    refine ⟨[none], { L with operands := none :: L.operands }, ?_, rfl, fun _ => rfl⟩
    show Option.map _ S.log = _
    rw [hL]
    rfl
instance (t : Val) : Eff (push t) 0 1 := inferInstanceAs (Eff (pushMT _) 0 1)
instance (r : Ref) : Eff (pushRef r) 0 1 := inferInstanceAs (Eff (pushMT _) 0 1)

variable (E : Env)

theorem moves_pop {u : Bool} {h : Nat} {S S' : St} {t : MT} {ops : List MT}
    (hS : S.operands = t :: ops) (hh : 0 < h)
    (hS' : S' = { S with operands := ops }.recordPop t) : Moves u h 1 0 S S' := by
  subst hS'
  refine ⟨fun _ => hh, ⟨[], rfl, ?_⟩, fun L hL => ?_⟩
  · rw [hS, Nat.min_eq_left hh]
    rfl
  · refine ⟨[some t], { L with operands := some t :: L.operands }, ?_, rfl, fun _ => rfl⟩
    show Option.map _ S.log = _
    rw [hL]
    rfl

instance (x : Option Val) : Eff (pop E x) 1 0 where
  spec S y S' fr rest hc hl hr := by
    obtain ⟨locals, inits, control, operands, shared, log⟩ := S
    cases (hc : control = fr :: rest)
    generalize hS0 : (⟨locals, inits, fr :: rest, operands, shared, log⟩ : St) = S at *
    have hc : S.control = fr :: rest := by rw [← hS0]
    have hset : ∀ ops, { S with control := fr :: rest, operands := ops } =
        { S with operands := ops } := fun ops => by rw [← hS0]
    unfold pop at hr
    split at hr
    · next t ops hf =>
      have hS : S.operands = .known t :: ops ∧ fr.height ≤ ops.length := by
        unfold popFast at hf
        split at hf
        · next t' ops' ho =>
          split at hf
          · rw [hc] at hf
            dsimp only at hf
            split at hf
            · next hlen =>
              cases hf
              exact ⟨ho, hlen⟩
            · cases hf
          · cases hf
        · cases hf
      have h1 := hS.1
      have h2 := hS.2
      have hlen : S.operands.length = ops.length + 1 := by rw [h1]; rfl
      exact ⟨by cases hr; rfl, moves_pop h1 (by omega) (by cases hr; rfl)⟩
    · have hp : S.operands.head?.toList ++ S.operands.tail = S.operands := by
        cases S.operands <;> rfl
      unfold popSlow at hr
      dsimp only at hr
      rw [hp, hc] at hr
      dsimp only at hr
      split at hr
      · next hu =>
        rw [hset] at hr
        cases hr
        refine ⟨rfl, ⟨fun h => ?_, ⟨[], rfl, ?_⟩, fun L hL => ?_⟩⟩
        · rw [hu.2] at h
          cases h
        · rw [hu.1]
          simp
        · exact ⟨[], L, hL, rfl, fun h => by rw [hu.2] at h; cases h⟩
      · split at hr
        · cases hr
        · next hne =>
          split at hr
          · cases hr
          · next t ops ho =>
            have hlen : S.operands.length = ops.length + 1 := by rw [ho]; rfl
            rw [hset] at hr
            have hS' : S' = { S with operands := ops }.recordPop t := (congrArg Prod.snd hr).symm
            exact ⟨by rw [hS']; rfl, moves_pop ho (by omega) hS'⟩

instance (t : Val) : Eff (popT E t) 1 0 := by unfold popT; eff

theorem Eff.eachN {g : α → M Unit} (h : ∀ x, Eff (g x) 1 0) :
    ∀ xs : List α, Eff (each g xs) xs.length 0
  | [] => Eff.reads (pure ())
  | x :: xs => Eff.cast (Eff.bind (h x) fun _ => Eff.eachN h xs)
      (by simp only [List.length_cons]; omega) (by omega)
theorem Eff.eachPush {g : α → M Unit} (h : ∀ x, Eff (g x) 0 1) :
    ∀ xs : List α, Eff (each g xs) 0 xs.length
  | [] => Eff.reads (pure ())
  | x :: xs => Eff.cast (Eff.bind (h x) fun _ => Eff.eachPush h xs)
      (by omega) (by simp only [List.length_cons]; omega)
theorem Eff.eachSame {g : α → M Unit} (h : ∀ x, Eff (g x) 0 0) :
    ∀ xs : List α, Eff (each g xs) 0 0
  | [] => Eff.reads (pure ())
  | x :: xs => Eff.cast (Eff.bind (h x) fun _ => Eff.eachSame h xs) rfl rfl

instance (ts : List Val) : Eff (popAll E ts) ts.length 0 :=
  (Eff.eachN (fun t => inferInstanceAs (Eff (popT E t) 1 0)) ts.reverse).cast
    (List.length_reverse ..) rfl
instance (ts : List Val) : Eff (pushAll ts) 0 ts.length :=
  Eff.eachPush (fun t => inferInstanceAs (Eff (push t) 0 1)) ts

end Verif.Op.AritySpec
