import Verif.Op.OpOnly
/-! What the rollback log of one operator is, and that undoing it gives back the state. -/
namespace Verif.Op
open Verif.Types (AbsHeap HeapType RefType ValType)
open Verif.Instr (FrameKind BlockType MemArg Catch Handle BrTable Operator)

/-- The part of `rollback` that is not about operands. -/
def undoCtl (c : List Frame) (i : LocalInits) (L : Log) : Option (List Frame × LocalInits) := do
  let c ← undoUnreachable L.unreachable c
  let (c, i) ← undoFrames L.frames c i
  let i ← setInits L.inits i
  let i ← trimInits L.initHeight i
  pure (c, i)

theorem undo_eq (S : St) (L : Log) : S.undo L = (undoCtl S.control S.inits L).map fun p =>
    { S with control := p.1, inits := p.2, operands := undoOperands L.operands S.operands,
             log := none } := by
  unfold St.undo undoCtl
  cases undoUnreachable L.unreachable S.control with
  | none => rfl
  | some c =>
    dsimp only [bind, Option.bind]
    cases undoFrames L.frames c S.inits with
    | none => rfl
    | some p =>
      obtain ⟨c, i⟩ := p
      dsimp only
      cases setInits L.inits i with
      | none => rfl
      | some i =>
        dsimp only
        cases trimInits L.initHeight i <;> rfl

/-- A run with and without a log: same results and states, and a new log. -/
def Exec {α : Type} (m : M α) (S : St) (L : Log) (Q : Except Fail α → St → Log → Prop) : Prop :=
  ∃ r S1 L1, m { S with log := none } = (r, { S1 with log := none }) ∧
    m { S with log := some L } = (r, { S1 with log := some L1 }) ∧ Q r S1 L1

/-- What is known about a state during an operator that began in `S0`. -/
structure Mid (S0 : St) (c : List Frame) (i : LocalInits) (K : Log) (S : St) (L : Log) : Prop where
  control : S.control = c
  inits : S.inits = i
  locals : S.locals = S0.locals
  shared : S.shared = S0.shared
  operands : undoOperands L.operands S.operands = S0.operands
  log : { L with operands := [] } = K

/-- The invariant of `LocalInits`. -/
structure LocalInits.Good (l : LocalInits) : Prop where
  nodup : l.inits.Nodup
  mem : ∀ i ∈ l.inits, l.first ≤ i ∧ l.localInits[i.toNat]? = some true

/-- The state can be rolled back to `S0`, and it satisfies the invariant. -/
def Back (S0 : St) {α : Type} (r : Except Fail α) (S : St) (L : Log) : Prop :=
  r = .error .panic ∨ (S.undo L = some { S0 with log := none } ∧ S.inits.Good)

/-- Frames, initialized locals and log can be rolled back. -/
def Undoable (S0 : St) (c : List Frame) (i : LocalInits) (K : Log) : Prop :=
  undoCtl c i K = some (S0.control, S0.inits) ∧ i.Good

theorem Mid.back {α : Type} {S0 S : St} {c : List Frame} {i : LocalInits} {K L : Log}
    (r : Except Fail α)
    (h : Mid S0 c i K S L) (hu : Undoable S0 c i K) : Back S0 r S L := by
  refine .inr ⟨?_, h.inits ▸ hu.2⟩
  rw [undo_eq, h.control, h.inits]
  have : undoCtl c i L = undoCtl c i K := by rw [← h.log]; rfl
  rw [this, hu.1]
  simp [h.operands, h.locals, h.shared]

theorem Exec.bind {α β : Type} {m : M α} {k : α → M β} {S : St} {L : Log}
    {Q : Except Fail β → St → Log → Prop}
    {P : Except Fail α → St → Log → Prop} (h : Exec m S L P)
    (hok : ∀ a S1 L1, P (.ok a) S1 L1 → Exec (k a) S1 L1 Q)
    (herr : ∀ e S1 L1, P (.error e) S1 L1 → Q (.error e) S1 L1) : Exec (m >>= k) S L Q := by
  obtain ⟨r, S1, L1, h1, h2, hp⟩ := h
  cases r with
  | error e => exact ⟨.error e, S1, L1, bind_error k h1, bind_error k h2, herr e S1 L1 hp⟩
  | ok a =>
    obtain ⟨r', S2, L2, h3, h4, hq⟩ := hok a S1 L1 hp
    exact ⟨r', S2, L2, by rw [bind_ok k h1, h3], by rw [bind_ok k h2, h4], hq⟩

theorem Exec.mono {α : Type} {m : M α} {S : St} {L : Log} {P Q : Except Fail α → St → Log → Prop}
    (h : Exec m S L P) (hpq : ∀ r S1 L1, P r S1 L1 → Q r S1 L1) : Exec m S L Q := by
  obtain ⟨r, S1, L1, h1, h2, hp⟩ := h
  exact ⟨r, S1, L1, h1, h2, hpq _ _ _ hp⟩

theorem Exec.opOnly {α : Type} {m : M α} (hm : OpOnly m) {S0 S : St} {c : List Frame}
    {i : LocalInits} {K L : Log} (h : Mid S0 c i K S L) :
    Exec m S L fun _ S1 L1 => Mid S0 c i K S1 L1 := by
  obtain ⟨r, ops, d, hu, hr⟩ := hm.spec S
  refine ⟨r, { S with operands := ops }, L.addOps d, hr none, hr (some L), ?_⟩
  exact ⟨h.control, h.inits, h.locals, h.shared, by
    simp only [Log.addOps]
    rw [undoOperands_append, hu, h.operands], h.log⟩

/-- A step that does not touch the operands. -/
theorem Exec.step {α β : Type} {m : M α} {k : α → M β} {S0 : St} {c : List Frame} {i : LocalInits}
    {K : Log} (hm : OpOnly m) (hu : Undoable S0 c i K)
    (hk : ∀ a S1 L1, Mid S0 c i K S1 L1 → Exec (k a) S1 L1 (Back S0)) {S : St} {L : Log}
    (h : Mid S0 c i K S L) : Exec (m >>= k) S L (Back S0) :=
  Exec.bind (Exec.opOnly hm h) (fun a S1 L1 h1 => hk a S1 L1 h1)
    fun e _ _ h1 => h1.back (.error e) hu

theorem Exec.last {α : Type} {m : M α} {S0 : St} {c : List Frame} {i : LocalInits}
    {K : Log} (hm : OpOnly m) (hu : Undoable S0 c i K) {S : St} {L : Log}
    (h : Mid S0 c i K S L) : Exec m S L (Back S0) :=
  Exec.mono (Exec.opOnly hm h) fun r _ _ h1 => h1.back r hu

/-- The log at the beginning of an operator. -/
def log0 (S0 : St) : Log := ⟨[], [], [], S0.inits.inits.length, false⟩

theorem trim_eq (l : LocalInits) : trimInits l.inits.length l = some l := by
  unfold trimInits
  rw [if_neg (Nat.lt_irrefl _)]

theorem undo_start {S0 : St} (hg : S0.inits.Good) :
    Undoable S0 S0.control S0.inits (log0 S0) := by
  refine ⟨?_, hg⟩
  unfold undoCtl
  simp [log0, undoUnreachable, undoFrames, setInits, trim_eq]

theorem mid_start (S0 : St) : Mid S0 S0.control S0.inits (log0 S0) S0 (log0 S0) :=
  ⟨rfl, rfl, rfl, rfl, rfl, rfl⟩

/-! ## Setting a local -/

theorem setInit_eq (i : BitVec 32) (S : St) : setInit i S = match S.inits.setInit i with
    | some l => (.ok (), { S with inits := l })
    | none => (.error .panic, S) := rfl

theorem good_setInit {l l' : LocalInits} {i : BitVec 32} (hg : l.Good)
    (h : l.setInit i = some l') : l'.Good := by
  unfold LocalInits.setInit at h
  obtain ⟨u, hu, rfl⟩ := Option.map_eq_some_iff.1 h
  cases u with
  | false => exact hg
  | true =>
    unfold LocalInits.isUninit at hu
    split at hu
    · cases hu
    · next hlt =>
      obtain ⟨b, hb, hbt⟩ := Option.map_eq_some_iff.1 hu
      have hb' : b = false := by simpa using hbt
      subst hb'
      have hni : i ∉ l.inits := fun hi => by
        rw [(hg.mem i hi).2] at hb
        cases hb
      refine ⟨List.nodup_cons.2 ⟨hni, hg.nodup⟩, fun j hj => ?_⟩
      simp only [if_true] at hj ⊢
      rcases List.mem_cons.1 hj with rfl | hj
      · exact ⟨BitVec.not_lt.1 hlt, List.getElem?_set_self (List.getElem?_eq_some_iff.1 hb).1⟩
      · obtain ⟨h1, h2⟩ := hg.mem j hj
        refine ⟨h1, ?_⟩
        rw [List.getElem?_set_ne, h2]
        intro he
        exact hni (BitVec.eq_of_toNat_eq he ▸ hj)

theorem undo_setInit {S0 : St} (hg : S0.inits.Good) {i : BitVec 32} {l : LocalInits}
    (h : S0.inits.setInit i = some l) : Undoable S0 S0.control l (log0 S0) := by
  refine ⟨?_, good_setInit hg h⟩
  unfold LocalInits.setInit at h
  obtain ⟨u, hu, rfl⟩ := Option.map_eq_some_iff.1 h
  unfold undoCtl
  simp only [log0, undoUnreachable, undoFrames, setInits, bind, Option.bind, Bool.false_eq_true,
    if_false]
  cases u with
  | false => simp [trim_eq]
  | true =>
    unfold LocalInits.isUninit at hu
    split at hu
    · cases hu
    · obtain ⟨b, hb, hbt⟩ := Option.map_eq_some_iff.1 hu
      have hb' : b = false := by simpa using hbt
      subst hb'
      have hs : (S0.inits.localInits.set i.toNat true).set i.toNat false = S0.inits.localInits := by
        rw [List.set_set]
        obtain ⟨hlt, hget⟩ := List.getElem?_eq_some_iff.1 hb
        rw [← hget, List.set_getElem_self]
      simp only [if_true, trimInits, List.length_cons, gt_iff_lt, Nat.lt_succ_self]
      unfold LocalInits.popCtrl
      simp [resetInits, hs]

theorem Exec.setInit {S0 S : St} {i : BitVec 32} {L : Log}
    (h : Mid S0 S0.control S0.inits (log0 S0) S L) :
    Exec (setInit i) S L fun r S1 L1 => r = .error .panic ∨
      ∃ l, S0.inits.setInit i = some l ∧ Mid S0 S0.control l (log0 S0) S1 L1 := by
  have hi := h.inits
  cases hs : S0.inits.setInit i with
  | none =>
    refine ⟨.error .panic, S, L, ?_, ?_, .inl rfl⟩ <;>
    · rw [setInit_eq]
      dsimp only
      rw [hi, hs]
  | some l =>
    refine ⟨.ok (), { S with inits := l }, L, ?_, ?_, .inr ⟨l, rfl, ?_⟩⟩
    · rw [setInit_eq]; dsimp only; rw [hi, hs]
    · rw [setInit_eq]; dsimp only; rw [hi, hs]
    · exact ⟨h.control, rfl, h.locals, h.shared, h.operands, h.log⟩

theorem exec_set {m m' : M Unit} {i : BitVec 32} (hm : OpOnly m) (hm' : OpOnly m') (S0 : St)
    (hg : S0.inits.Good) :
    Exec (do m; setInit i; m') S0 (log0 S0) (Back S0) := by
  refine Exec.step hm (undo_start hg) (fun _ S1 L1 h1 => ?_) (mid_start S0)
  refine Exec.bind (Exec.setInit h1) ?_ ?_
  · rintro a S2 L2 (h2 | ⟨l, hl, h2⟩)
    · cases h2
    · exact Exec.last hm' (undo_setInit hg hl) h2
  · rintro e S2 L2 (h2 | ⟨l, hl, h2⟩)
    · exact .inl h2
    · exact h2.back _ (undo_setInit hg hl)

/-! ## Making the rest of a block unreachable -/

theorem undoOperands_some (xs : List MT) (d : List (Option MT)) (ops : List MT) :
    undoOperands (xs.map some ++ d) ops = undoOperands d (xs.reverse ++ ops) := by
  induction xs generalizing ops with
  | nil => rfl
  | cons x xs ih => simp [undoOperands, ih]

theorem exec_stop {m : M Unit} (hm : OpOnly m) (S0 : St) (hg : S0.inits.Good) :
    Exec (do m; unreachable) S0 (log0 S0) (Back S0) := by
  refine Exec.step hm (undo_start hg) (fun _ S1 L1 h1 => ?_) (mid_start S0)
  have hc := h1.control
  unfold Exec unreachable
  dsimp only
  rw [hc]
  cases h0 : S0.control with
  | nil => exact ⟨.error .panic, { S1 with control := [] }, L1, rfl, rfl, .inl rfl⟩
  | cons fr rest =>
    dsimp only
    by_cases hh : fr.height ≤ S1.operands.length
    · simp only [if_pos hh]
      refine ⟨.ok (), { S1 with
          control := { fr with unreachable := true } :: rest
          operands := S1.operands.drop (S1.operands.length - fr.height) },
        { L1 with
          unreachable := !fr.unreachable || L1.unreachable
          operands := (S1.operands.take (S1.operands.length - fr.height)).reverse.map some
            ++ L1.operands }, ?_, ?_, ?_⟩
      · cases fr.unreachable <;> rfl
      · cases fr.unreachable <;> rfl
      · have hL : L1.unreachable = false := congrArg Log.unreachable h1.log
        have hmid : Mid S0 ({ fr with unreachable := true } :: rest) S0.inits
            { log0 S0 with unreachable := !fr.unreachable } { S1 with
              control := { fr with unreachable := true } :: rest
              operands := S1.operands.drop (S1.operands.length - fr.height) }
            { L1 with
              unreachable := !fr.unreachable || L1.unreachable
              operands := (S1.operands.take (S1.operands.length - fr.height)).reverse.map some
                ++ L1.operands } := by
          refine ⟨rfl, h1.inits, h1.locals, h1.shared, ?_, ?_⟩
          · dsimp only
            rw [undoOperands_some, List.reverse_reverse, List.take_append_drop, h1.operands]
          · rw [← h1.log]
            simp [hL]
        refine hmid.back _ ⟨?_, hg⟩
        have : undoUnreachable (!fr.unreachable) ({ fr with unreachable := true } :: rest) =
            some (fr :: rest) := by
          unfold undoUnreachable
          obtain ⟨k, bt, hgt, u, ih⟩ := fr
          cases u <;> rfl
        unfold undoCtl
        dsimp only [log0]
        rw [this, h0]
        simp [undoFrames, setInits, trim_eq]
    · simp only [if_neg hh]
      exact ⟨.error .panic, { S1 with control := { fr with unreachable := true } :: rest },
        if fr.unreachable then L1 else { L1 with unreachable := true },
        by cases fr.unreachable <;> rfl, by cases fr.unreachable <;> rfl, .inl rfl⟩

/-! ## Opening a block -/

/-- The frame that `pushBareCtrl` pushes. -/
def newFrame (kind : FrameKind) (bt : BT) (height : Nat) (i : LocalInits) : Frame :=
  ⟨kind, bt, height, false, i.inits.length⟩

theorem Exec.pushBare {S0 S : St} {c : List Frame} {i : LocalInits} {K L : Log} (kind : FrameKind)
    (bt : BT) (h : Mid S0 c i K S L) :
    Exec (pushBareCtrl kind bt) S L fun r S1 L1 => r = .ok () ∧ ∃ height,
      Mid S0 (newFrame kind bt height i :: c) i { K with frames := none :: K.frames } S1 L1 := by
  refine ⟨.ok (), { S with control := newFrame kind bt S.operands.length i :: c },
    { L with frames := none :: L.frames }, ?_, ?_, rfl, S.operands.length, ?_⟩
  · unfold pushBareCtrl; rw [← h.control, ← h.inits]; rfl
  · unfold pushBareCtrl; rw [← h.control, ← h.inits]; rfl
  · exact ⟨rfl, h.inits, h.locals, h.shared, h.operands, by rw [← h.log]⟩

theorem popCtrl_self (i : LocalInits) : i.popCtrl i.inits.length = some ([], i) := by
  unfold LocalInits.popCtrl
  simp [resetInits]

theorem undo_push {c : List Frame} {i : LocalInits} {K : Log} (kind : FrameKind) (bt : BT)
    (height : Nat) {S0 : St} (hk : Undoable S0 c i K) (hu : K.unreachable = false) :
    Undoable S0 (newFrame kind bt height i :: c) i { K with frames := none :: K.frames } := by
  refine ⟨?_, hk.2⟩
  rw [← hk.1]
  unfold undoCtl
  simp only [hu, undoUnreachable, Bool.false_eq_true, if_false, undoFrames, newFrame, popCtrl_self,
    bind, Option.bind]

theorem exec_open {α β : Type} {m : M α} {m' : α → M β} {kind : FrameKind} {bt : α → BT}
    (hm : OpOnly m) (hm' : ∀ a, OpOnly (m' a)) (S0 : St) (hg : S0.inits.Good) :
    Exec (do let a ← m; pushBareCtrl kind (bt a); m' a) S0 (log0 S0) (Back S0) := by
  refine Exec.step hm (undo_start hg) (fun a S1 L1 h1 => ?_) (mid_start S0)
  refine Exec.bind (Exec.pushBare kind (bt a) h1) ?_ ?_
  · rintro _ S2 L2 ⟨-, height, h2⟩
    exact Exec.last (hm' a) (undo_push kind (bt a) height (undo_start hg) rfl) h2
  · rintro e S2 L2 ⟨h, -⟩
    cases h

/-! ## Closing a block -/

theorem ne_mem {i j : BitVec 32} {is : List (BitVec 32)} (he : j.toNat = i.toNat) (hj : j ∈ is) :
    i ∈ is := BitVec.eq_of_toNat_eq he ▸ hj

theorem resetInits_get : ∀ (is : List (BitVec 32)) (bs : List Bool) (n : Nat),
    (∀ i ∈ is, i.toNat ≠ n) → (resetInits is bs)[n]? = bs[n]?
  | [], _, _, _ => rfl
  | i :: is, bs, n, h => by
    rw [resetInits, resetInits_get is _ n fun j hj => h j (.tail _ hj),
      List.getElem?_set_ne (h i (.head _))]

theorem resetInits_length : ∀ (is : List (BitVec 32)) (bs : List Bool),
    (resetInits is bs).length = bs.length
  | [], _ => rfl
  | i :: is, bs => by rw [resetInits, resetInits_length, List.length_set]

theorem resetInits_mem : ∀ (is : List (BitVec 32)) (bs : List Bool) (i : BitVec 32), i ∈ is →
    i.toNat < bs.length → (resetInits is bs)[i.toNat]? = some false
  | j :: is, bs, i, hi, hl => by
    rw [resetInits]
    by_cases h : i ∈ is
    · exact resetInits_mem is _ i h (by rw [List.length_set]; exact hl)
    · have hij : i = j := by
        rcases List.mem_cons.1 hi with h' | h'
        · exact h'
        · exact absurd h' h
      subst hij
      rw [resetInits_get]
      · rw [List.getElem?_set_self hl]
      · intro k hk he
        exact h (BitVec.eq_of_toNat_eq he ▸ hk)

theorem resetInits_comm (i : BitVec 32) : ∀ (is : List (BitVec 32)) (bs : List Bool),
    i ∉ is → (resetInits is (bs.set i.toNat false)) = (resetInits is bs).set i.toNat false
  | [], _, _ => rfl
  | j :: is, bs, h => by
    rw [resetInits, resetInits]
    have hne : i.toNat ≠ j.toNat := fun he => h (BitVec.eq_of_toNat_eq he ▸ .head _)
    rw [List.set_comm _ _ hne, resetInits_comm i is _ fun h' => h (.tail _ h')]

/-- Setting the removed indices again gives back the bits. -/
theorem setInits_reset : ∀ (is : List (BitVec 32)) (bs : List Bool) (rest : List (BitVec 32))
    (first : BitVec 32), is.Nodup → (∀ i ∈ is, first ≤ i ∧ bs[i.toNat]? = some true) →
    setInits is ⟨resetInits is bs, rest, first⟩ = some ⟨bs, is.reverse ++ rest, first⟩
  | [], bs, rest, first, _, _ => rfl
  | i :: is, bs, rest, first, hn, h => by
    obtain ⟨hi, hn'⟩ := List.nodup_cons.1 hn
    obtain ⟨hf, hb⟩ := h i (.head _)
    have hlt : i.toNat < bs.length := (List.getElem?_eq_some_iff.1 hb).1
    rw [setInits, resetInits]
    have h0 : (resetInits is (bs.set i.toNat false))[i.toNat]? = some false := by
      rw [resetInits_get is _ _ fun j hj he => hi (ne_mem he hj),
        List.getElem?_set_self hlt]
    have hset : LocalInits.setInit ⟨resetInits is (bs.set i.toNat false), rest, first⟩ i =
        some ⟨resetInits is bs, i :: rest, first⟩ := by
      unfold LocalInits.setInit LocalInits.isUninit
      dsimp only
      rw [if_neg (BitVec.not_lt.2 hf), h0]
      simp only [Option.map_some, Bool.not_false, if_true, Option.some.injEq, LocalInits.mk.injEq,
        true_and, and_true]
      rw [resetInits_comm i is bs hi, List.set_set]
      have : (resetInits is bs)[i.toNat]? = some true := by
        rw [resetInits_get is _ _ fun j hj he => hi (ne_mem he hj), hb]
      obtain ⟨hlt', hget⟩ := List.getElem?_eq_some_iff.1 this
      rw [← hget, List.set_getElem_self]
    rw [hset]
    simp only [Option.bind_some]
    rw [setInits_reset is bs (i :: rest) first hn' fun j hj => h j (.tail _ hj)]
    simp

theorem setInits_popCtrl {l l' : LocalInits} (hg : l.Good) {h : Nat} {rm : List (BitVec 32)}
    (hp : l.popCtrl h = some (rm, l')) : setInits rm l' = some l := by
  unfold LocalInits.popCtrl at hp
  split at hp
  · simp only [Option.some.injEq, Prod.mk.injEq] at hp
    obtain ⟨rfl, rfl⟩ := hp
    rw [setInits_reset]
    · simp [List.take_append_drop]
    · refine List.pairwise_reverse.2 (List.Pairwise.imp Ne.symm ?_)
      exact hg.nodup.sublist (List.take_sublist _ _)
    · intro i hi
      exact hg.mem i (List.mem_of_mem_take (List.mem_reverse.1 hi))
  · cases hp

theorem good_popCtrl {l l' : LocalInits} (hg : l.Good) {h : Nat} {rm : List (BitVec 32)}
    (hp : l.popCtrl h = some (rm, l')) : l'.Good := by
  unfold LocalInits.popCtrl at hp
  split at hp
  · simp only [Option.some.injEq, Prod.mk.injEq] at hp
    obtain ⟨rfl, rfl⟩ := hp
    have hn := hg.nodup
    rw [← List.take_append_drop (l.inits.length - h) l.inits, List.nodup_append] at hn
    refine ⟨hn.2.1, fun i hi => ?_⟩
    obtain ⟨h1, h2⟩ := hg.mem i (List.mem_of_mem_drop hi)
    refine ⟨h1, ?_⟩
    dsimp only
    rw [resetInits_get, h2]
    intro j hj he
    exact hn.2.2 j (List.mem_reverse.1 hj) i hi (BitVec.eq_of_toNat_eq he)
  · cases hp

theorem takeFrame_eq (S : St) : takeFrame S = match S.control with
  | [] => (.error .panic, S)
  | fr :: rest =>
    match S.inits.popCtrl fr.initHeight with
    | none => (.error .panic, { S with control := rest })
    | some (removed, inits) =>
      (.ok fr, { S with
        control := rest
        inits
        log := S.log.map fun L =>
          { L with frames := some fr :: L.frames, inits := L.inits ++ removed } }) := rfl

theorem Exec.take {S0 S : St} {c : List Frame} {i : LocalInits} {K L : Log}
    (h : Mid S0 c i K S L) :
    Exec takeFrame S L fun r S1 L1 => r = .error .panic ∨ ∃ fr rest rm i',
      r = .ok fr ∧ c = fr :: rest ∧ i.popCtrl fr.initHeight = some (rm, i') ∧
      Mid S0 rest i' { K with frames := some fr :: K.frames, inits := K.inits ++ rm } S1 L1 := by
  obtain ⟨hc, hi, hl, hs, ho, hlog⟩ := h
  cases c with
  | nil =>
    refine ⟨.error .panic, S, L, ?_, ?_, .inl rfl⟩ <;>
    · rw [takeFrame_eq]; dsimp only; rw [hc]
  | cons fr rest =>
    cases hp : i.popCtrl fr.initHeight with
    | none =>
      refine ⟨.error .panic, { S with control := rest }, L, ?_, ?_, .inl rfl⟩ <;>
      · rw [takeFrame_eq]; dsimp only; rw [hc]; dsimp only; rw [hi, hp]
    | some p =>
      obtain ⟨rm, i'⟩ := p
      refine ⟨.ok fr, { S with control := rest, inits := i' },
        { L with frames := some fr :: L.frames, inits := L.inits ++ rm }, ?_, ?_,
        .inr ⟨fr, rest, rm, i', rfl, rfl, hp, rfl, rfl, hl, hs, ho, by rw [← hlog]⟩⟩
      · rw [takeFrame_eq]; dsimp only; rw [hc]; dsimp only; rw [hi, hp]; rfl
      · rw [takeFrame_eq]; dsimp only; rw [hc]; dsimp only; rw [hi, hp]; rfl

/-- The log after a frame was taken. -/
theorem undo_take {S0 : St} (hg : S0.inits.Good) {fr : Frame} {rest : List Frame}
    {rm : List (BitVec 32)} {i' : LocalInits} (hc : S0.control = fr :: rest)
    (hp : S0.inits.popCtrl fr.initHeight = some (rm, i')) :
    Undoable S0 rest i' { log0 S0 with frames := [some fr], inits := rm } := by
  refine ⟨?_, good_popCtrl hg hp⟩
  unfold undoCtl
  simp only [log0, undoUnreachable, Bool.false_eq_true, if_false, undoFrames, bind, Option.bind]
  rw [setInits_popCtrl hg hp]
  simp [trim_eq, hc]

theorem exec_close {α : Type} {m : M α} {m' : α → Frame → M Unit} (hm : OpOnly m) (S0 : St)
    (hg : S0.inits.Good)
    (hm' : ∀ a fr rest rm i' S1 L1, S0.control = fr :: rest →
      S0.inits.popCtrl fr.initHeight = some (rm, i') →
      Mid S0 rest i' { log0 S0 with frames := [some fr], inits := rm } S1 L1 →
      Exec (m' a fr) S1 L1 (Back S0)) :
    Exec (do let a ← m; let fr ← takeFrame; m' a fr) S0 (log0 S0) (Back S0) := by
  refine Exec.step hm (undo_start hg) (fun a S1 L1 h1 => ?_) (mid_start S0)
  refine Exec.bind (Exec.take h1) ?_ ?_
  · rintro fr' S2 L2 (h2 | ⟨fr, rest, rm, i', hr, hc, hp, h2⟩)
    · cases h2
    · cases hr
      exact hm' a _ rest rm i' S2 L2 hc hp h2
  · rintro e S2 L2 (h2 | ⟨fr, rest, rm, i', hr, hc, hp, h2⟩)
    · cases h2
      exact .inl rfl
    · cases hr

/-- A frame is taken and another one pushed. -/
theorem exec_switch {β : Type} {m : M β} {kind : FrameKind} {bt : BT} {S0 S1 : St}
    {L1 : Log} (hm : OpOnly m) (hg : S0.inits.Good) {fr : Frame} {rest : List Frame}
    {rm : List (BitVec 32)} {i' : LocalInits} (hc : S0.control = fr :: rest)
    (hp : S0.inits.popCtrl fr.initHeight = some (rm, i'))
    (h : Mid S0 rest i' { log0 S0 with frames := [some fr], inits := rm } S1 L1) :
    Exec (do pushBareCtrl kind bt; m) S1 L1 (Back S0) := by
  refine Exec.bind (Exec.pushBare kind bt h) ?_ ?_
  · rintro _ S2 L2 ⟨-, height, h2⟩
    exact Exec.last hm (undo_push kind bt height (undo_take hg hc hp) rfl) h2
  · rintro e S2 L2 ⟨h, -⟩
    cases h

/-- A frame is taken, another one pushed and taken (an `if` without `else`). -/
theorem exec_switchTake {α β : Type} {m : M α} {m' : α → Frame → M β} {kind : FrameKind} {bt : BT}
    {S0 S1 : St}
    {L1 : Log} (hm : OpOnly m) (hm' : ∀ a fr, OpOnly (m' a fr)) (hg : S0.inits.Good) {fr : Frame}
    {rest : List Frame} {rm : List (BitVec 32)} {i' : LocalInits} (hc : S0.control = fr :: rest)
    (hp : S0.inits.popCtrl fr.initHeight = some (rm, i'))
    (h : Mid S0 rest i' { log0 S0 with frames := [some fr], inits := rm } S1 L1) :
    Exec (do pushBareCtrl kind bt; let a ← m; let fr ← takeFrame; m' a fr) S1 L1 (Back S0) := by
  refine Exec.bind (Exec.pushBare kind bt h) ?_ ?_
  · rintro _ S2 L2 ⟨-, height, h2⟩
    refine Exec.step hm (undo_push kind bt height (undo_take hg hc hp) rfl)
      (fun a S3 L3 h3 => ?_) h2
    · refine Exec.bind (Exec.take h3) ?_ ?_
      · rintro fr' S4 L4 (h4 | ⟨fr2, rest2, rm2, i2, hr, hc2, hp2, h4⟩)
        · cases h4
        · cases hr
          cases hc2
          have : i'.popCtrl i'.inits.length = some (rm2, i2) := hp2
          rw [popCtrl_self] at this
          cases this
          refine Exec.last (hm' a _) ⟨?_, (undo_take hg hc hp).2⟩ h4
          rw [← (undo_take hg hc hp).1]
          unfold undoCtl
          simp [log0, undoUnreachable, undoFrames, newFrame, popCtrl_self]
      · rintro e S4 L4 (h4 | ⟨fr2, rest2, rm2, i2, hr, hc2, hp2, h4⟩)
        · cases h4
          exact .inl rfl
        · cases hr
  · rintro e S2 L2 ⟨h, -⟩
    cases h

end Verif.Op
