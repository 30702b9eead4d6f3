import Verif.Shrink.Spec
namespace Verif.Shrink

open Spec

variable {η : Type} [DecidableEq η] {W : World η}

/-- The invariant of the main search. -/
structure Inv (W : World η) (input : Wasm) (s : St η) : Prop where
  size : s.inputSize = input.length
  best : FoundInteresting s.predLog s.best
  le : s.best.length ≤ s.current.length
  small : s.best.length ≤ input.length
  attempt : s.attempt ≤ W.attempts
  log : 2 ≤ s.predLog.length
  nodup : NoRepeat s.predLog
  hashed : ∀ w ∈ (s.predLog.drop 2).map Prod.fst, W.hash w ∈ s.tested
  found : ∀ w ∈ s.smallest, FoundInteresting s.predLog w
  dec : Decreasing (input :: s.smallest)
  least : ∀ w ∈ s.smallest, s.best.length ≤ w.length
  last : W.notify.isSome → s.best = (input :: s.smallest).getLast (by simp)

/-- The part of the invariant that holds whatever happened. -/
structure Weak (W : World η) (input : Wasm) (s : St η) : Prop where
  nodup : NoRepeat s.predLog
  found : ∀ w ∈ s.smallest, FoundInteresting s.predLog w
  dec : Decreasing (input :: s.smallest)
  attempt : s.attempt ≤ W.attempts

theorem Inv.weak {input : Wasm} {s : St η} (h : Inv W input s) : Weak W input s :=
  ⟨h.nodup, h.found, h.dec, h.attempt⟩

omit [DecidableEq η] in
theorem found_mono {log : List (Wasm × Option Bool)} {w : Wasm} {x}
    (h : FoundInteresting log w) : FoundInteresting (log ++ [x]) w := by
  simp only [FoundInteresting, List.mem_append] at *
  exact Or.inl h

theorem callPred_inv {input : Wasm} {s : St η} (h : Inv W input s) {w : Wasm}
    (hw : W.hash w ∉ s.tested) :
    Inv W input (callPred W w { s with tested := W.hash w :: s.tested }).2 := by
  have hd : (s.predLog ++ [(w, W.pred s.predLog.length w)]).drop 2 =
      s.predLog.drop 2 ++ [(w, W.pred s.predLog.length w)] := by
    rw [List.drop_append_of_le_length h.log]
  refine ⟨h.size, found_mono h.best, h.le, h.small, h.attempt, ?_, ?_, ?_, ?_, h.dec, h.least, h.last⟩
  · simp only [callPred, List.length_append]; have := h.log; omega
  · simp only [NoRepeat, callPred, hd, List.map_append, List.nodup_append]
    refine ⟨h.nodup, by simp, ?_⟩
    intro a ha b hb
    simp only [List.map_cons, List.map_nil, List.mem_singleton] at hb
    subst hb
    rintro rfl
    exact hw (h.hashed a ha)
  · simp only [callPred, hd, List.map_append, List.mem_append]
    rintro a (ha | ha)
    · exact List.mem_cons_of_mem _ (h.hashed a ha)
    · simp only [List.map_cons, List.map_nil, List.mem_singleton] at ha
      subst ha; simp
  · intro a ha; exact found_mono (h.found a ha)

/-- What trying the mutations does to the state. -/
structure Tried (W : World η) (input : Wasm) (s s' : St η) (n : Nat) : Prop where
  inv : Inv W input s'
  best : s'.best = s.best
  smallest : s'.smallest = s.smallest
  current : s'.current = s.current
  lo : s.attempt ≤ s'.attempt
  hi : s'.attempt ≤ s.attempt + n

omit [DecidableEq η] in
theorem Inv.bump {input : Wasm} {s : St η} (h : Inv W input s) {n : Nat} (hn : n ≤ W.attempts) :
    Inv W input { s with attempt := n } :=
  ⟨h.size, h.best, h.le, h.small, hn, h.log, h.nodup, h.hashed, h.found, h.dec, h.least, h.last⟩

theorem tryMutations_spec {input : Wasm} (ms : List (Option Wasm)) (i : Nat) {s : St η}
    (h : Inv W input s)
    (hroom : s.attempt + (if i > 0 then ms.length else ms.length - 1) ≤ W.attempts) :
    ∃ r s', tryMutations W i ms s = (r, s') ∧
      Tried W input s s' (if i > 0 then ms.length else ms.length - 1) ∧
      (r = .err ∨ r = .ok none ∨ ∃ w, r = .ok (some w) ∧ FoundInteresting s'.predLog w) := by
  induction ms generalizing i s with
  | nil => exact ⟨_, _, rfl, ⟨h, rfl, rfl, rfl, Nat.le_refl _, Nat.le_add_right _ _⟩, by simp⟩
  | cons m ms ih =>
    -- the state after the counter has been increased
    generalize hs1 : (if i > 0 then { s with attempt := s.attempt + 1 } else s) = s1
    have hi1 : Inv W input s1 := by
      subst hs1
      split
      · next hi => rw [if_pos hi] at hroom; simp at hroom; exact h.bump (by omega)
      · exact h
    have hb : s1.best = s.best ∧ s1.smallest = s.smallest ∧ s1.current = s.current := by
      subst hs1; split <;> exact ⟨rfl, rfl, rfl⟩
    have ha : s1.attempt = s.attempt + (if i > 0 then 1 else 0) := by
      subst hs1; split <;> rfl
    have hroom1 : s1.attempt + (if i + 1 > 0 then ms.length else ms.length - 1) ≤ W.attempts := by
      rw [ha]; simp at hroom ⊢; split at hroom <;> simp_all <;> omega
    -- going on with the remaining mutations from any state like `s1`
    have cont : ∀ s2 : St η, Inv W input s2 → s2.best = s1.best → s2.smallest = s1.smallest →
        s2.current = s1.current → s2.attempt = s1.attempt →
        ∃ r s', tryMutations W (i + 1) ms s2 = (r, s') ∧
          Tried W input s s' (if i > 0 then (m :: ms).length else (m :: ms).length - 1) ∧
          (r = .err ∨ r = .ok none ∨ ∃ w, r = .ok (some w) ∧ FoundInteresting s'.predLog w) := by
      intro s2 h2 e1 e2 e3 e4
      obtain ⟨r, s', p1, p2, p3⟩ := ih (i + 1) h2 (by rw [e4]; exact hroom1)
      refine ⟨r, s', p1, ⟨p2.inv, ?_, ?_, ?_, ?_, ?_⟩, p3⟩
      · rw [p2.best, e1, hb.1]
      · rw [p2.smallest, e2, hb.2.1]
      · rw [p2.current, e3, hb.2.2]
      · have := p2.lo; omega
      · have := p2.hi
        simp only [List.length_cons] at *
        by_cases hi : i > 0
        · rw [if_pos hi] at ha ⊢; rw [if_pos (by omega)] at this; omega
        · rw [if_neg hi] at ha ⊢; rw [if_pos (by omega)] at this; omega
    have stop : ∀ s2 : St η, Inv W input s2 → s2.best = s1.best → s2.smallest = s1.smallest →
        s2.current = s1.current → s2.attempt = s1.attempt →
        Tried W input s s2 (if i > 0 then (m :: ms).length else (m :: ms).length - 1) := by
      intro s2 h2 e1 e2 e3 e4
      refine ⟨h2, by rw [e1, hb.1], by rw [e2, hb.2.1], by rw [e3, hb.2.2], by omega, ?_⟩
      simp only [List.length_cons]
      by_cases hi : i > 0
      · rw [if_pos hi] at ha ⊢; omega
      · rw [if_neg hi] at ha ⊢; omega
    simp only [tryMutations, hs1]
    cases m with
    | none => exact cont s1 hi1 rfl rfl rfl rfl
    | some w =>
      by_cases hw : W.hash w ∈ s1.tested
      · simp only [if_pos hw]; exact cont s1 hi1 rfl rfl rfl rfl
      · simp only [if_neg hw]
        have h2 := callPred_inv hi1 hw
        cases hp : W.pred s1.predLog.length w with
        | none =>
          simp only [callPred, hp] at h2 ⊢
          exact ⟨_, _, rfl, stop _ h2 rfl rfl rfl rfl, Or.inl rfl⟩
        | some b =>
          cases b with
          | false =>
            simp only [callPred, hp] at h2 ⊢
            exact cont _ h2 rfl rfl rfl rfl
          | true =>
            simp only [callPred, hp, shouldAccept] at h2 ⊢
            by_cases hlt : w.length < s1.current.length
            · simp only [if_pos hlt]
              refine ⟨_, _, rfl, stop _ h2 rfl rfl rfl rfl, Or.inr (Or.inr ⟨w, rfl, ?_⟩)⟩
              simp [FoundInteresting]
            · simp only [if_neg hlt]
              have h3 : ∀ c, Inv W input ({ s1 with tested := W.hash w :: s1.tested, predLog := s1.predLog ++ [(w, some true)], coins := c } : St η) :=
                fun c => ⟨h2.size, h2.best, h2.le, h2.small, h2.attempt, h2.log, h2.nodup, h2.hashed, h2.found, h2.dec, h2.least, h2.last⟩
              cases hc : W.coin s1.coins with
              | true =>
                refine ⟨_, _, rfl, stop _ (h3 _) rfl rfl rfl rfl, Or.inr (Or.inr ⟨w, rfl, ?_⟩)⟩
                simp [FoundInteresting]
              | false =>
                exact cont _ (h3 _) rfl rfl rfl rfl

/-- The measure that every iteration decreases. -/
def meas (W : World η) (s : St η) : Nat :=
  s.best.length * (W.attempts + 1) + (W.attempts - s.attempt)

theorem onNewInteresting_spec {input : Wasm} {s : St η} (h : Inv W input s) {w : Wasm}
    (hw : FoundInteresting s.predLog w) :
    ∃ r s', onNewInteresting W w s = (r, s') ∧ Weak W input s' ∧
      (r = .err ∨ (r = .ok () ∧ Inv W input s' ∧
        (s'.attempt = s.attempt ∧ s'.best = s.best ∨ s'.best.length < s.best.length))) := by
  simp only [onNewInteresting]
  rw [if_neg (by simp [h.le])]
  by_cases hlt : w.length < s.best.length
  · simp only [if_pos hlt, onNewBest]
    rw [if_neg (by simp [hlt])]
    have hdec : Decreasing (input :: (s.smallest ++ [w])) := by
      have hd := h.dec
      simp only [Decreasing, List.pairwise_cons, List.pairwise_append] at hd ⊢
      refine ⟨?_, hd.2, by simp, ?_⟩
      · intro a ha
        simp only [List.mem_append, List.mem_singleton] at ha
        rcases ha with ha | rfl
        · exact hd.1 a ha
        · have := h.small; omega
      · intro a ha b hb
        simp only [List.mem_singleton] at hb
        subst hb
        have := h.least a ha; omega
    cases hn : W.notify with
    | none =>
      refine ⟨_, _, rfl, ⟨h.nodup, h.found, h.dec, Nat.zero_le _⟩, Or.inr ⟨rfl, ?_, Or.inr hlt⟩⟩
      refine ⟨h.size, hw, Nat.le_refl _, ?_, Nat.zero_le _, h.log, h.nodup, h.hashed, h.found,
        h.dec, ?_, by simp [hn]⟩
      · have := h.small; simp only; omega
      · intro a ha; have := h.least a ha; simp only; omega
    | some f =>
      simp only
      have hfound : ∀ a ∈ s.smallest ++ [w], FoundInteresting s.predLog a := by
        intro a ha
        simp only [List.mem_append, List.mem_singleton] at ha
        rcases ha with ha | rfl
        · exact h.found a ha
        · exact hw
      split
      · refine ⟨_, _, rfl, ⟨h.nodup, hfound, hdec, Nat.zero_le _⟩,
          Or.inr ⟨rfl, ?_, Or.inr hlt⟩⟩
        refine ⟨h.size, hw, Nat.le_refl _, ?_, Nat.zero_le _, h.log, h.nodup, h.hashed, hfound,
          hdec, ?_, ?_⟩
        · have := h.small; simp only; omega
        · intro a ha
          simp only [List.mem_append, List.mem_singleton] at ha
          rcases ha with ha | rfl
          · have := h.least a ha; simp only; omega
          · exact Nat.le_refl _
        · intro _
          have : input :: (s.smallest ++ [w]) = (input :: s.smallest) ++ [w] := rfl
          simp only [this]; rw [List.getLast_concat]
      · exact ⟨_, _, rfl, ⟨h.nodup, hfound, hdec, h.attempt⟩, Or.inl rfl⟩
  · simp only [if_neg hlt]
    refine ⟨_, _, rfl, ⟨h.nodup, h.found, h.dec, h.attempt⟩, Or.inr ⟨rfl, ?_, Or.inl ⟨rfl, rfl⟩⟩⟩
    exact ⟨h.size, h.best, by simp only; omega, h.small, h.attempt, h.log, h.nodup, h.hashed,
      h.found, h.dec, h.least, h.last⟩

theorem meas_lt {s s' : St η} (hle : s'.attempt ≤ W.attempts) (hs : s.attempt < W.attempts)
    (h : (s.attempt < s'.attempt ∧ s'.best.length = s.best.length) ∨
      s'.best.length < s.best.length) : meas W s' < meas W s := by
  unfold meas
  rcases h with ⟨h1, h2⟩ | h
  · rw [h2]; omega
  · have : s'.best.length * (W.attempts + 1) + (W.attempts + 1) ≤ s.best.length * (W.attempts + 1) := by
      rw [← Nat.succ_mul]
      exact Nat.mul_le_mul_right _ h
    omega

theorem iteration_spec {input : Wasm} {s : St η} (h : Inv W input s) (ha : s.attempt < W.attempts) :
    ∃ r s', iteration W s = (r, s') ∧ Weak W input s' ∧
      (r = .err ∨ (r = .ok () ∧ Inv W input s' ∧ meas W s' < meas W s)) := by
  have h1 : Inv W input { s with attempt := s.attempt + 1, runs := s.runs + 1 } :=
    ⟨h.size, h.best, h.le, h.small, ha, h.log, h.nodup, h.hashed, h.found, h.dec, h.least, h.last⟩
  have hm1 : meas W ({ s with attempt := s.attempt + 1, runs := s.runs + 1 } : St η) < meas W s :=
    meas_lt ha ha (Or.inl ⟨Nat.lt_succ_self _, rfl⟩)
  simp only [iteration]
  cases hr : W.mutate s.runs s.current with
  | none => exact ⟨_, _, rfl, h1.weak, Or.inr ⟨rfl, h1, hm1⟩⟩
  | some mutations =>
    simp only
    cases hk : mutations.take (min (W.attempts - (s.attempt + 1)) 10) with
    | nil => exact ⟨_, _, rfl, h1.weak, Or.inr ⟨rfl, h1, hm1⟩⟩
    | cons m ms =>
      have hlen : (m :: ms).length ≤ W.attempts - (s.attempt + 1) := by
        rw [← hk, List.length_take]; omega
      simp only [List.length_cons] at hlen
      obtain ⟨r, s', p1, p2, p3⟩ := tryMutations_spec (m :: ms) 0 h1 (by simp; omega)
      simp only [p1]
      have hlo := p2.lo
      have hbest := p2.best
      simp only at hlo hbest
      have hm2 : meas W s' < meas W s :=
        meas_lt p2.inv.attempt ha (Or.inl ⟨by omega, by rw [hbest]⟩)
      rcases p3 with rfl | rfl | ⟨w, rfl, hw⟩
      · exact ⟨_, _, rfl, p2.inv.weak, Or.inl rfl⟩
      · exact ⟨_, _, rfl, p2.inv.weak, Or.inr ⟨rfl, p2.inv, hm2⟩⟩
      · obtain ⟨r, s2, q1, q2, q3⟩ := onNewInteresting_spec p2.inv hw
        refine ⟨r, s2, q1, q2, ?_⟩
        rcases q3 with rfl | ⟨rfl, q4, q5⟩
        · exact Or.inl rfl
        · refine Or.inr ⟨rfl, q4, meas_lt q4.attempt ha ?_⟩
          rcases q5 with ⟨e1, e2⟩ | e
          · left; rw [e1, e2, hbest]; exact ⟨by omega, rfl⟩
          · right; rw [hbest] at e; exact e

theorem mainLoop_spec {input : Wasm} (fuel : Nat) {s : St η} (h : Inv W input s) :
    ∃ r s', mainLoop W fuel s = (r, s') ∧ Weak W input s' ∧ r ≠ .panic ∧
      (meas W s < fuel → r ≠ .fuel) ∧
      ∀ info, r = .ok info → info = finish s' ∧ Inv W input s' := by
  induction fuel generalizing s with
  | zero => exact ⟨_, _, rfl, h.weak, by simp, by omega, by simp⟩
  | succ fuel ih =>
    unfold mainLoop
    by_cases ha : s.attempt < W.attempts
    · rw [if_pos ha]
      obtain ⟨r, s', p1, p2, p3⟩ := iteration_spec h ha
      simp only [p1]
      rcases p3 with rfl | ⟨rfl, p4, p5⟩
      · exact ⟨_, _, rfl, p2, by simp, by simp, by simp⟩
      · obtain ⟨r, s2, q1, q2, q3, q4, q5⟩ := ih p4
        exact ⟨r, s2, q1, q2, q3, fun hf => q4 (by omega), q5⟩
    · rw [if_neg ha]
      refine ⟨_, _, rfl, h.weak, by simp, by simp, ?_⟩
      intro info hi
      cases hi
      exact ⟨rfl, h⟩

/-- The state after the two checks at the start. -/
def started (input : Wasm) (e : Bool) : St η :=
  { (init input : St η) with predLog := [(input, some true), (emptyWasm, some e)] }

omit [DecidableEq η] in
theorem started_inv (input : Wasm) (e : Bool) : Inv W input (started input e) := by
  refine ⟨rfl, ?_, Nat.le_refl _, Nat.le_refl _, Nat.zero_le _, Nat.le_refl _, ?_, ?_, ?_, ?_, ?_, ?_⟩
  · simp [FoundInteresting, started, init]
  · simp [NoRepeat, started]
  · simp [started]
  · simp [started, init]
  · simp [started, init, Decreasing]
  · simp [started, init]
  · intro _; rfl

/-- The exact paths of `run`. -/
inductive RunPath (W : World η) (fuel : Nat) (input : Wasm) : Out Info × St η → Prop where
  | early (s : St η) : s.smallest = [] → s.attempt = 0 → s.predLog.length ≤ 2 →
      RunPath W fuel input (.err, s)
  | empty (r : Out Unit) (s : St η) : W.valid input = true → W.allowEmpty = true →
      onNewBest W emptyWasm (started input true) = (r, s) →
      RunPath W fuel input
        (match r with | .ok () => .ok (finish s) | .err => .err | .panic => .panic | .fuel => .fuel, s)
  | search (r : Out Info) (s : St η) : W.valid input = true →
      mainLoop W fuel (started input false) = (r, s) → RunPath W fuel input (r, s)

theorem run_path (W : World η) (fuel : Nat) (input : Wasm) :
    RunPath W fuel input (run W fuel input) := by
  unfold run
  simp only
  by_cases hv : W.valid (init input : St η).current = false
  · rw [if_pos hv]; exact .early _ rfl rfl (Nat.zero_le _)
  · rw [if_neg hv]
    have hv' : W.valid input = true := by
      cases h : W.valid input with
      | true => rfl
      | false => exact absurd h hv
    cases hp : W.pred 0 input with
    | none => simp only [callPred, init, List.length_nil, hp]; exact .early _ rfl rfl (by simp)
    | some b =>
      cases b with
      | false => simp only [callPred, init, List.length_nil, hp]; exact .early _ rfl rfl (by simp)
      | true =>
        cases hp2 : W.pred 1 emptyWasm with
        | none =>
          simp only [callPred, init, List.length_nil, hp, List.nil_append, List.length_cons,
            Nat.zero_add, hp2]
          exact .early _ rfl rfl (by simp)
        | some b =>
          cases b with
          | true =>
            simp only [callPred, init, List.length_nil, hp, List.nil_append, List.length_cons,
              Nat.zero_add, hp2]
            split
            · next ha =>
              cases hb : onNewBest W emptyWasm (started input true) with
              | mk r s =>
                have := RunPath.empty (fuel := fuel) (input := input) r s hv' ha hb
                have hb' := hb
                simp only [started, init] at hb'
                simp only [List.cons_append, List.nil_append, hb']
                cases r <;> exact this
            · exact .early _ rfl rfl (by simp)
          | false =>
            simp only [callPred, init, List.length_nil, hp, List.nil_append, List.length_cons,
              Nat.zero_add, hp2]
            cases hb : mainLoop W fuel (started input false) with
            | mk r s =>
              have := RunPath.search (fuel := fuel) (input := input) r s hv' hb
              simp only [started, init] at hb
              simp only [List.cons_append, List.nil_append, hb]
              exact this

end Verif.Shrink
