import Verif.Shrink.Lemmas
/-
Property C37: shrinking keeps the property of interest.
-/
namespace Verif.Shrink.Props

open Verif.Shrink Verif.Shrink.Spec

variable {η : Type} [DecidableEq η]

/-- The only assumption about the validator: valid Wasm has at least the eight bytes of the
header. -/
def ValidHasHeader (W : World η) : Prop := ∀ w, W.valid w = true → 8 ≤ w.length

/-- C37: the result was found interesting by the predicate and is not larger than the input; the
sizes reported are those of the input and of the result. -/
theorem c37_result (W : World η) (hv : ValidHasHeader W) (fuel : Nat) (input : Wasm) (info : Info)
    (s : St η) (h : run W fuel input = (.ok info, s)) :
    FoundInteresting s.predLog info.output ∧ info.output.length ≤ input.length ∧
      info.inputSize = input.length ∧ info.outputSize = info.output.length := by
  have hp := run_path W fuel input
  rw [h] at hp
  generalize hx : ((.ok info, s) : Out Info × St η) = x at hp
  cases hp with
  | early s' h1 h2 h3 => cases hx
  | empty r s' hval ha hb =>
    unfold onNewBest at hb
    split at hb
    · cases hb; cases hx
    · have h8 : emptyWasm.length ≤ input.length := hv input hval
      have hf : FoundInteresting (started (η := η) input true).predLog emptyWasm := by
        simp [FoundInteresting, started]
      cases hn : W.notify with
      | none =>
        simp only [hn, Prod.mk.injEq] at hb
        obtain ⟨rfl, rfl⟩ := hb
        simp only [Prod.mk.injEq, Out.ok.injEq] at hx
        obtain ⟨rfl, rfl⟩ := hx
        exact ⟨hf, h8, rfl, rfl⟩
      | some f =>
        simp only [hn] at hb
        split at hb
        · cases hb
          simp only [Prod.mk.injEq, Out.ok.injEq] at hx
          obtain ⟨rfl, rfl⟩ := hx
          exact ⟨hf, h8, rfl, rfl⟩
        · cases hb; cases hx
  | search r s' hval hm =>
    simp only [Prod.mk.injEq] at hx
    obtain ⟨rfl, rfl⟩ := hx
    obtain ⟨r, s2, q1, q2, q3, q4, q5⟩ := mainLoop_spec fuel (started_inv (W := W) input false)
    rw [hm] at q1
    simp only [Prod.mk.injEq] at q1
    obtain ⟨rfl, rfl⟩ := q1
    obtain ⟨rfl, hi⟩ := q5 info rfl
    exact ⟨hi.best, hi.small, hi.size, rfl⟩

/-- C37: whatever the outcome (errors included), `on_new_smallest` was called with strictly
decreasing sizes, each time with a Wasm that the predicate found interesting, and each one is
smaller than the input. The one exception is an input of eight bytes when the empty module is
interesting and allowed: then there is a single call, with the empty module. -/
theorem c37_smallest (W : World η) (hv : ValidHasHeader W) (fuel : Nat) (input : Wasm) :
    let s := (run W fuel input).2
    Decreasing s.smallest ∧ (∀ w ∈ s.smallest, FoundInteresting s.predLog w) ∧
      ((∀ w ∈ s.smallest, w.length < input.length) ∨
        (input.length = 8 ∧ W.allowEmpty = true ∧ s.smallest = [emptyWasm])) := by
  simp only
  have hp := run_path W fuel input
  generalize run W fuel input = x at hp
  cases hp with
  | early s' h1 h2 h3 => rw [h1]; exact ⟨by simp [Decreasing], by simp, by simp⟩
  | empty r s' hval ha hb =>
    have h8 : 8 ≤ input.length := hv input hval
    have hf : FoundInteresting (started (η := η) input true).predLog emptyWasm := by
      simp [FoundInteresting, started]
    unfold onNewBest at hb
    split at hb
    · cases hb
      simp [started, init, Decreasing]
    · cases hn : W.notify with
      | none =>
        simp only [hn, Prod.mk.injEq] at hb
        obtain ⟨rfl, rfl⟩ := hb
        simp [started, init, Decreasing]
      | some f =>
        simp only [hn] at hb
        have hs : s'.smallest = [emptyWasm] ∧ s'.predLog = (started (η := η) input true).predLog := by
          split at hb <;> (cases hb; exact ⟨rfl, rfl⟩)
        rw [hs.1, hs.2]
        refine ⟨by simp [Decreasing], by simpa using hf, ?_⟩
        by_cases h : input.length = 8
        · exact Or.inr ⟨h, ha, rfl⟩
        · left
          simp only [List.mem_singleton, forall_eq]
          show 8 < input.length
          omega
  | search r s' hval hm =>
    obtain ⟨r, s2, q1, q2, q3, q4, q5⟩ := mainLoop_spec fuel (started_inv (W := W) input false)
    rw [hm] at q1
    simp only [Prod.mk.injEq] at q1
    obtain ⟨rfl, rfl⟩ := q1
    have hd := q2.dec
    simp only [Decreasing, List.pairwise_cons] at hd
    exact ⟨hd.2, q2.found, Or.inl hd.1⟩

/-- C37: with a callback, the result is the last Wasm that the callback was given, or the input if
there was no call. -/
theorem c37_last_notified (W : World η) (hn : W.notify.isSome) (fuel : Nat) (input : Wasm)
    (info : Info) (s : St η) (h : run W fuel input = (.ok info, s)) :
    (input :: s.smallest).getLast? = some info.output := by
  have hp := run_path W fuel input
  rw [h] at hp
  generalize hx : ((.ok info, s) : Out Info × St η) = x at hp
  cases hp with
  | early s' h1 h2 h3 => cases hx
  | empty r s' hval ha hb =>
    unfold onNewBest at hb
    split at hb
    · cases hb; cases hx
    · cases hn' : W.notify with
      | none => rw [hn'] at hn; cases hn
      | some f =>
        simp only [hn'] at hb
        split at hb
        · cases hb
          simp only [Prod.mk.injEq, Out.ok.injEq] at hx
          obtain ⟨rfl, rfl⟩ := hx
          simp [started, init, finish]
        · cases hb; cases hx
  | search r s' hval hm =>
    simp only [Prod.mk.injEq] at hx
    obtain ⟨rfl, rfl⟩ := hx
    obtain ⟨r, s2, q1, q2, q3, q4, q5⟩ := mainLoop_spec fuel (started_inv (W := W) input false)
    rw [hm] at q1
    simp only [Prod.mk.injEq] at q1
    obtain ⟨rfl, rfl⟩ := q1
    obtain ⟨rfl, hi⟩ := q5 info rfl
    rw [List.getLast?_eq_some_getLast (by simp), ← hi.last hn]
    rfl

/-- C37: the predicate is never asked twice about the same candidate (a hash collision can only
make it be asked less often). -/
theorem c37_no_repeat (W : World η) (fuel : Nat) (input : Wasm) :
    NoRepeat (run W fuel input).2.predLog := by
  have hp := run_path W fuel input
  generalize run W fuel input = x at hp
  cases hp with
  | early s' h1 h2 h3 => simp [NoRepeat, List.drop_eq_nil_of_le h3]
  | empty r s' hval ha hb =>
    have : s'.predLog = (started (η := η) input true).predLog := by
      unfold onNewBest at hb
      split at hb
      · cases hb; rfl
      · cases hn : W.notify with
        | none => simp only [hn, Prod.mk.injEq] at hb; obtain ⟨rfl, rfl⟩ := hb; rfl
        | some f => simp only [hn] at hb; split at hb <;> (cases hb; rfl)
    rw [this]
    simp [NoRepeat, started]
  | search r s' hval hm =>
    obtain ⟨r, s2, q1, q2, q3, q4, q5⟩ := mainLoop_spec fuel (started_inv (W := W) input false)
    rw [hm] at q1
    simp only [Prod.mk.injEq] at q1
    obtain ⟨rfl, rfl⟩ := q1
    exact q2.nodup

/-- C37: shrinking terminates, after at most `(size + 1) * (attempts + 1)` iterations. -/
theorem c37_terminates (W : World η) (fuel : Nat) (input : Wasm)
    (hf : (input.length + 1) * (W.attempts + 1) ≤ fuel) : (run W fuel input).1 ≠ .fuel := by
  have hp := run_path W fuel input
  generalize run W fuel input = x at hp
  cases hp with
  | early s' h1 h2 h3 => simp
  | empty r s' hval ha hb =>
    have : r ≠ .fuel := by
      rintro rfl
      unfold onNewBest at hb
      split at hb
      · cases hb
      · cases hn : W.notify with
        | none => simp [hn] at hb
        | some f => simp only [hn] at hb; split at hb <;> cases hb
    cases r <;> simp_all
  | search r s' hval hm =>
    obtain ⟨r, s2, q1, q2, q3, q4, q5⟩ := mainLoop_spec fuel (started_inv (W := W) input false)
    rw [hm] at q1
    simp only [Prod.mk.injEq] at q1
    obtain ⟨rfl, rfl⟩ := q1
    apply q4
    have : meas W (started input false) = input.length * (W.attempts + 1) + W.attempts := rfl
    rw [this]
    rw [Nat.succ_mul] at hf
    omega

/-- C37: the attempt counter never exceeds the limit, so the `u32` arithmetic on it cannot
overflow. -/
theorem c37_attempt_bounded (W : World η) (fuel : Nat) (input : Wasm) :
    (run W fuel input).2.attempt ≤ W.attempts := by
  have hp := run_path W fuel input
  generalize run W fuel input = x at hp
  cases hp with
  | early s' h1 h2 h3 => simp [h2]
  | empty r s' hval ha hb =>
    have : s'.attempt = 0 := by
      unfold onNewBest at hb
      split at hb
      · cases hb; rfl
      · cases hn : W.notify with
        | none => simp only [hn, Prod.mk.injEq] at hb; obtain ⟨rfl, rfl⟩ := hb; rfl
        | some f => simp only [hn] at hb; split at hb <;> (cases hb; rfl)
    simp [this]
  | search r s' hval hm =>
    obtain ⟨r, s2, q1, q2, q3, q4, q5⟩ := mainLoop_spec fuel (started_inv (W := W) input false)
    rw [hm] at q1
    simp only [Prod.mk.injEq] at q1
    obtain ⟨rfl, rfl⟩ := q1
    exact q2.attempt

/-- C37: the debug assertions hold, except for an input of eight bytes that is not the empty
module (the empty *component* is one), see `c37_debug_assert_witness`. -/
theorem c37_no_panic (W : World η) (hv : ValidHasHeader W) (fuel : Nat) (input : Wasm)
    (hin : input.length = 8 → input = emptyWasm) : (run W fuel input).1 ≠ .panic := by
  have hp := run_path W fuel input
  generalize run W fuel input = x at hp
  cases hp with
  | early s' h1 h2 h3 => simp
  | empty r s' hval ha hb =>
    have h8 := hv input hval
    have : r ≠ .panic := by
      rintro rfl
      unfold onNewBest at hb
      split at hb
      · next hc =>
        apply hc.2
        by_cases h : input.length = 8
        · right; exact ⟨rfl, hin h⟩
        · left; show 8 < input.length; omega
      · cases hn : W.notify with
        | none => simp [hn] at hb
        | some f => simp only [hn] at hb; split at hb <;> cases hb
    cases r <;> simp_all
  | search r s' hval hm =>
    obtain ⟨r, s2, q1, q2, q3, q4, q5⟩ := mainLoop_spec fuel (started_inv (W := W) input false)
    rw [hm] at q1
    simp only [Prod.mk.injEq] at q1
    obtain ⟨rfl, rfl⟩ := q1
    exact q3

/-- The empty component: a valid input of eight bytes. -/
def emptyComponent : Wasm := [0x00, 0x61, 0x73, 0x6d, 0x0d, 0x00, 0x01, 0x00]

/-- A run in which everything of at least eight bytes is valid and interesting. -/
def yesWorld : World Wasm :=
  { valid := fun w => decide (8 ≤ w.length), pred := fun _ _ => some true,
    mutate := fun _ _ => none, coin := fun _ => false, hash := id, notify := none,
    attempts := 10, allowEmpty := true, debug := true }

/-- The exception of `c37_no_panic` is real: with debug assertions, shrinking the empty component
with `allow_empty` and a predicate that accepts everything panics in `on_new_best`. -/
theorem c37_debug_assert_witness :
    ValidHasHeader yesWorld ∧ ∀ fuel, (run yesWorld fuel emptyComponent).1 = .panic := by
  refine ⟨fun w h => by simpa [yesWorld] using h, fun fuel => ?_⟩
  rfl

/-- An observation about the code: the last attempt before the limit takes no mutations
(`attempts - attempt` is zero), so with `attempts = 1` no candidate is ever tried. -/
theorem c37_one_attempt_tries_nothing (W : World η) (h1 : W.attempts = 1) (fuel : Nat)
    (input : Wasm) : (run W fuel input).2.predLog.length ≤ 2 := by
  have hp := run_path W fuel input
  generalize run W fuel input = x at hp
  cases hp with
  | early s' h1 h2 h3 => exact h3
  | empty r s' hval ha hb =>
    have : s'.predLog = (started (η := η) input true).predLog := by
      unfold onNewBest at hb
      split at hb
      · cases hb; rfl
      · cases hn : W.notify with
        | none => simp only [hn, Prod.mk.injEq] at hb; obtain ⟨rfl, rfl⟩ := hb; rfl
        | some f => simp only [hn] at hb; split at hb <;> (cases hb; rfl)
    rw [this]; simp [started]
  | search r s' hval hm =>
    have : ∀ fuel, (mainLoop W fuel (started input false)).2.predLog.length ≤ 2 := by
      intro fuel
      cases fuel with
      | zero => simp [mainLoop, started]
      | succ fuel =>
        have hit : iteration W (started input false) =
            (.ok (), { started input false with attempt := 1, runs := 1 }) := by
          simp only [iteration, started, init, h1]
          cases W.mutate 0 input <;> simp
        rw [mainLoop, if_pos (by simp [started, init, h1]), hit]
        cases fuel with
        | zero => simp [mainLoop, started]
        | succ fuel =>
          simp only [mainLoop]
          rw [if_neg (by simp [h1])]
          simp [started]
    have h := this fuel
    rw [hm] at h
    exact h

/-! ## A run that shrinks in two steps -/

/-- Inputs of more than eight bytes are interesting; mutation drops the last byte, but the first
candidate of each run is a larger one that the coin rejects. -/
def dropWorld : World Wasm :=
  { valid := fun w => decide (8 ≤ w.length), pred := fun _ w => some (decide (8 < w.length)),
    mutate := fun _ w => some [none, some (0 :: w), some w.dropLast], coin := fun _ => false,
    hash := id, notify := some fun _ _ => true, attempts := 4, allowEmpty := false, debug := true }

example : ValidHasHeader dropWorld := fun w h => by simpa [dropWorld] using h

example : (11 + 1) * (dropWorld.attempts + 1) ≤ 60 := by decide

example :
    let r := run dropWorld 60 (emptyWasm ++ [1, 2, 3])
    (match r.1 with | .ok i => some i | _ => none) = some ⟨11, 9, emptyWasm ++ [1]⟩ ∧
      r.2.smallest = [emptyWasm ++ [1, 2], emptyWasm ++ [1]] := by decide

end Verif.Shrink.Props
