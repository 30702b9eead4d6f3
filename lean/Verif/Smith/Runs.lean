import Verif.Smith.Wasm
/-
Execution without a budget: lemmas.
-/
namespace Verif.Smith

variable {S P : Type}

/-- Less or equally defined. -/
def Out.Le (a b : Out S) : Prop := a = .timeout ∨ a = b

theorem Out.Le.refl (a : Out S) : a.Le a := .inr rfl

theorem Out.Le.leave {a b : Out S} (h : a.Le b) (nr : Nat) (l : List Val) : (leave nr l a).Le (leave nr l b) := by
  rcases h with h | h <;> subst h
  · exact .inl rfl
  · exact .inr rfl

theorem Out.Le.handle {a b : Out S} (h : a.Le b) (W : World S P) (p : P) (nr : Nat) (l : List Val) :
    (handle W p nr l a).Le (handle W p nr l b) := by
  rcases h with h | h <;> subst h
  · exact .inl rfl
  · exact .inr rfl

theorem Out.Le.finish {a b : Out S} (h : a.Le b) (fn : Func P) (st : St S) : (fn.finish st a).Le (fn.finish st b) := by
  rcases h with h | h <;> subst h
  · exact .inl rfl
  · exact .inr rfl

theorem Out.Le.tail {a b : Out S} (h : a.Le b) : a.tail.Le b.tail := by
  rcases h with h | h <;> subst h
  · exact .inl rfl
  · exact .inr rfl

theorem Out.Le.andThen {a b : Out S} {f g : St S → Out S} (h : a.Le b) (hf : ∀ st, (f st).Le (g st)) :
    (a.andThen f).Le (b.andThen g) := by
  rcases h with h | h <;> subst h
  · exact .inl rfl
  · cases a with
    | normal st => exact hf st
    | _ => exact .inr rfl

theorem exec_le_succ (W : World S P) (M : Nat → Option (Func P)) : ∀ n,
    (∀ c st, (exec W M n c st).Le (exec W M (n + 1) c st)) ∧ (∀ f st, (invoke W M n f st).Le (invoke W M (n + 1) f st)) := by
  intro n
  induction n with
  | zero => exact ⟨fun c st => .inl (by simp [exec]), fun f st => .inl (by simp [invoke])⟩
  | succ n ih =>
    obtain ⟨ihe, ihi⟩ := ih
    refine ⟨fun c st => ?_, fun f st => ?_⟩
    · cases c with
      | nil => simp only [exec]; exact .refl _
      | op o k =>
        simp only [exec]
        cases step W o st with
        | ok st' => exact ihe k st'
        | trap => exact .refl _
        | stuck => exact .refl _
      | ctl c k =>
        simp only [exec]
        cases jump W c st with
        | next st' => exact ihe k st'
        | out o => exact .refl _
        | call tail f st' =>
          cases tail with
          | false => exact (ihi f st').andThen (ihe k)
          | true => exact (ihi f st').tail
      | block kind np nr body k =>
        cases kind with
        | block => simp only [exec]; exact ((ihe body _).leave _ _).andThen (ihe k)
        | tryTable h => simp only [exec]; exact ((ihe body _).handle W h _ _).andThen (ihe k)
        | loop =>
          simp only [exec]
          rcases ihe body { st.enter np with ticks := st.ticks + 1 } with h | h
          · rw [h]; exact .inl rfl
          · rw [← h]
            cases exec W M n body { st.enter np with ticks := st.ticks + 1 } with
            | branch l st' =>
              cases l with
              | zero => exact ihe _ _
              | succ l => exact .refl _
            | normal st' => exact ihe k _
            | _ => exact .refl _
      | ifThen np nr a k =>
        simp only [exec]
        split
        · split
          · exact ihe k _
          · exact ((ihe a _).leave _ _).andThen (ihe k)
        · exact .refl _
      | ifElse np nr a b k =>
        simp only [exec]
        split
        · exact ((ihe _ _).leave _ _).andThen (ihe k)
        · exact .refl _
    · simp only [invoke]
      cases M f with
      | some fn => exact (ihe fn.body _).finish fn st
      | none => exact .refl _

theorem exec_mono (W : World S P) (M : Nat → Option (Func P)) {n m : Nat} (h : n ≤ m) {c : Code P} {st : St S} {o : Out S}
    (he : exec W M n c st = o) (ho : o ≠ .timeout) : exec W M m c st = o := by
  induction h with
  | refl => exact he
  | step _ ih =>
    rcases (exec_le_succ W M _).1 c st with h | h
    · rw [ih] at h; exact absurd h ho
    · rw [← h, ih]

theorem invoke_mono (W : World S P) (M : Nat → Option (Func P)) {n m : Nat} (h : n ≤ m) {f : Nat} {st : St S} {o : Out S}
    (he : invoke W M n f st = o) (ho : o ≠ .timeout) : invoke W M m f st = o := by
  induction h with
  | refl => exact he
  | step _ ih =>
    rcases (exec_le_succ W M _).2 f st with h | h
    · rw [ih] at h; exact absurd h ho
    · rw [← h, ih]

/-- Code ends in this way. -/
def Runs (W : World S P) (M : Nat → Option (Func P)) (c : Code P) (st : St S) (o : Out S) : Prop :=
  o ≠ .timeout ∧ ∃ n, exec W M n c st = o

/-- A call ends in this way. -/
def RunsCall (W : World S P) (M : Nat → Option (Func P)) (f : Nat) (st : St S) (o : Out S) : Prop :=
  o ≠ .timeout ∧ ∃ n, invoke W M n f st = o

/-- Code after something that ended in a way ends in this way. -/
def Then (W : World S P) (M : Nat → Option (Func P)) (o₁ : Out S) (k : Code P) (o : Out S) : Prop :=
  match o₁ with
  | .normal st => Runs W M k st o
  | o₁ => o = o₁

variable {W : World S P} {M : Nat → Option (Func P)}

theorem Then.intro {o₁ o : Out S} {k : Code P} (h : Then W M o₁ k o) (ho₁ : o₁ ≠ .timeout) :
    o ≠ .timeout ∧ ∃ n, ∀ m, n ≤ m → o₁.andThen (exec W M m k) = o := by
  cases o₁ with
  | normal st =>
    obtain ⟨ho, n, hn⟩ := h
    exact ⟨ho, n, fun m hm => exec_mono W M hm hn ho⟩
  | timeout => exact absurd rfl ho₁
  | _ => cases h; exact ⟨nofun, 0, fun _ _ => rfl⟩

theorem Runs.nil (st : St S) : Runs W M .nil st (.normal st) := ⟨nofun, 1, by simp [exec]⟩

theorem Runs.op {o : Op P} {k : Code P} {st st' : St S} {r : Out S} (h : step W o st = .ok st') (hk : Runs W M k st' r) :
    Runs W M (.op o k) st r := by
  obtain ⟨ho, n, hn⟩ := hk
  exact ⟨ho, n + 1, by simp only [exec, h, hn]⟩

theorem Runs.op_trap {o : Op P} {k : Code P} {st : St S} (h : step W o st = .trap) : Runs W M (.op o k) st (.trap st) :=
  ⟨nofun, 1, by simp only [exec, h]⟩

theorem Runs.op_stuck {o : Op P} {k : Code P} {st : St S} (h : step W o st = .stuck) : Runs W M (.op o k) st .stuck :=
  ⟨nofun, 1, by simp only [exec, h]⟩

theorem Runs.next {c : Ctl P} {k : Code P} {st st' : St S} {r : Out S} (h : jump W c st = .next st')
    (hk : Runs W M k st' r) : Runs W M (.ctl c k) st r := by
  obtain ⟨ho, n, hn⟩ := hk
  exact ⟨ho, n + 1, by simp only [exec, h, hn]⟩

theorem Runs.out {c : Ctl P} {k : Code P} {st : St S} {r : Out S} (h : jump W c st = .out r) (hr : r ≠ .timeout) :
    Runs W M (.ctl c k) st r := ⟨hr, 1, by simp only [exec, h]⟩

theorem Runs.call {c : Ctl P} {k : Code P} {st st' : St S} {f : Nat} {o r : Out S} (h : jump W c st = .call false f st')
    (hf : RunsCall W M f st' o) (hk : Then W M o k r) : Runs W M (.ctl c k) st r := by
  obtain ⟨hr, n, hn⟩ := hk.intro hf.1
  obtain ⟨ho, m, hm⟩ := hf
  refine ⟨hr, max n m + 1, ?_⟩
  simp only [exec, h, invoke_mono W M (Nat.le_max_right n m) hm ho]
  exact hn _ (Nat.le_max_left _ _)

theorem Runs.tail {c : Ctl P} {k : Code P} {st st' : St S} {f : Nat} {o : Out S} (h : jump W c st = .call true f st')
    (hf : RunsCall W M f st' o) : Runs W M (.ctl c k) st o.tail := by
  obtain ⟨ho, m, hm⟩ := hf
  refine ⟨?_, m + 1, by simp only [exec, h, hm]⟩
  cases o <;> first | exact absurd rfl ho | exact nofun

theorem leave_ne {o : Out S} (h : o ≠ .timeout) (nr : Nat) (l : List Val) : leave nr l o ≠ .timeout := by
  cases o with
  | branch n st => cases n <;> exact nofun
  | timeout => exact absurd rfl h
  | _ => exact nofun

theorem handle_ne {o : Out S} (h : o ≠ .timeout) (p : P) (nr : Nat) (l : List Val) : handle W p nr l o ≠ .timeout := by
  cases o with
  | branch n st => cases n <;> exact nofun
  | timeout => exact absurd rfl h
  | exn vs st => simp only [handle]; split <;> exact nofun
  | _ => exact nofun

theorem Runs.block {np nr : Nat} {body k : Code P} {st : St S} {o r : Out S} (hb : Runs W M body (st.enter np) o)
    (hk : Then W M (leave nr (st.stack.drop np) o) k r) : Runs W M (.block .block np nr body k) st r := by
  obtain ⟨hr, n, hn⟩ := hk.intro (leave_ne hb.1 _ _)
  obtain ⟨ho, m, hm⟩ := hb
  refine ⟨hr, max n m + 1, ?_⟩
  simp only [exec, exec_mono W M (Nat.le_max_right n m) hm ho]
  exact hn _ (Nat.le_max_left _ _)

theorem Runs.tryTable {h : P} {np nr : Nat} {body k : Code P} {st : St S} {o r : Out S} (hb : Runs W M body (st.enter np) o)
    (hk : Then W M (handle W h nr (st.stack.drop np) o) k r) : Runs W M (.block (.tryTable h) np nr body k) st r := by
  obtain ⟨hr, n, hn⟩ := hk.intro (handle_ne hb.1 _ _ _)
  obtain ⟨ho, m, hm⟩ := hb
  refine ⟨hr, max n m + 1, ?_⟩
  simp only [exec, exec_mono W M (Nat.le_max_right n m) hm ho]
  exact hn _ (Nat.le_max_left _ _)

theorem Runs.loop {np nr : Nat} {body k : Code P} {st : St S} {o r : Out S}
    (hb : Runs W M body { st.enter np with ticks := st.ticks + 1 } o) (hnb : ∀ st', o ≠ .branch 0 st')
    (hk : Then W M (leave nr (st.stack.drop np) o) k r) : Runs W M (.block .loop np nr body k) st r := by
  obtain ⟨hr, n, hn⟩ := hk.intro (leave_ne hb.1 _ _)
  obtain ⟨ho, m, hm⟩ := hb
  refine ⟨hr, max n m + 1, ?_⟩
  have := hn _ (Nat.le_max_left n m)
  simp only [exec, exec_mono W M (Nat.le_max_right n m) hm ho]
  exact this

theorem Runs.again {np nr : Nat} {body k : Code P} {st st' : St S} {r : Out S}
    (hb : Runs W M body { st.enter np with ticks := st.ticks + 1 } (.branch 0 st'))
    (hk : Runs W M (.block .loop np nr body k) (st'.leave np (st.stack.drop np)) r) :
    Runs W M (.block .loop np nr body k) st r := by
  obtain ⟨hr, n, hn⟩ := hk
  obtain ⟨ho, m, hm⟩ := hb
  refine ⟨hr, max n m + 1, ?_⟩
  simp only [exec, exec_mono W M (Nat.le_max_right n m) hm ho]
  exact exec_mono W M (Nat.le_max_left _ _) hn hr

theorem Runs.ifThen_false {np nr : Nat} {a k : Code P} {st : St S} {s : List Val} {r : Out S} (hs : st.stack = .i32 0 :: s)
    (hk : Runs W M k { st with stack := s } r) : Runs W M (.ifThen np nr a k) st r := by
  obtain ⟨hr, n, hn⟩ := hk
  exact ⟨hr, n + 1, by simp only [exec, hs, if_true, hn]⟩

theorem Runs.ifThen_true {np nr : Nat} {a k : Code P} {st : St S} {s : List Val} {c : BitVec 32} {o r : Out S}
    (hs : st.stack = .i32 c :: s) (hc : c ≠ 0) (ha : Runs W M a (St.enter np { st with stack := s }) o)
    (hk : Then W M (leave nr (s.drop np) o) k r) : Runs W M (.ifThen np nr a k) st r := by
  obtain ⟨hr, n, hn⟩ := hk.intro (leave_ne ha.1 _ _)
  obtain ⟨ho, m, hm⟩ := ha
  refine ⟨hr, max n m + 1, ?_⟩
  have := hn _ (Nat.le_max_left n m)
  simpa only [exec, hs, if_neg hc, exec_mono W M (Nat.le_max_right n m) hm ho] using this

theorem Runs.ifThen_stuck {np nr : Nat} {a k : Code P} {st : St S} (hs : ∀ c s, st.stack ≠ .i32 c :: s) :
    Runs W M (.ifThen np nr a k) st .stuck := by
  refine ⟨nofun, 1, ?_⟩
  simp only [exec]

theorem Runs.ifElse {np nr : Nat} {a b k : Code P} {st : St S} {s : List Val} {c : BitVec 32} {o r : Out S}
    (hs : st.stack = .i32 c :: s) (ha : Runs W M (if c = 0 then b else a) (St.enter np { st with stack := s }) o)
    (hk : Then W M (leave nr (s.drop np) o) k r) : Runs W M (.ifElse np nr a b k) st r := by
  obtain ⟨hr, n, hn⟩ := hk.intro (leave_ne ha.1 _ _)
  obtain ⟨ho, m, hm⟩ := ha
  refine ⟨hr, max n m + 1, ?_⟩
  have := hn _ (Nat.le_max_left n m)
  simpa only [exec, hs, exec_mono W M (Nat.le_max_right n m) hm ho] using this

theorem Runs.ifElse_stuck {np nr : Nat} {a b k : Code P} {st : St S} (hs : ∀ c s, st.stack ≠ .i32 c :: s) :
    Runs W M (.ifElse np nr a b k) st .stuck := by
  refine ⟨nofun, 1, ?_⟩
  simp only [exec]

theorem finish_ne {o : Out S} (h : o ≠ .timeout) (fn : Func P) (st : St S) : fn.finish st o ≠ .timeout := by
  cases o with
  | branch n st => cases n <;> exact nofun
  | timeout => exact absurd rfl h
  | _ => exact nofun

theorem RunsCall.func {f : Nat} {fn : Func P} {st : St S} {o : Out S} (h : M f = some fn)
    (hb : Runs W M fn.body (fn.start st) o) : RunsCall W M f st (fn.finish st o) := by
  obtain ⟨ho, n, hn⟩ := hb
  exact ⟨finish_ne ho _ _, n + 1, by simp only [invoke, h, hn]⟩

theorem RunsCall.host {f : Nat} {st : St S} (h : M f = none) :
    RunsCall W M f st (hostRes st (W.host f st.stack st.store)) := by
  refine ⟨?_, 1, by simp only [invoke, h]⟩
  cases W.host f st.stack st.store <;> exact nofun

theorem Runs.unique {c : Code P} {st : St S} {o o' : Out S} (h : Runs W M c st o) (h' : Runs W M c st o') : o = o' := by
  obtain ⟨ho, n, hn⟩ := h
  obtain ⟨ho', m, hm⟩ := h'
  rw [← exec_mono W M (Nat.le_max_left n m) hn ho, exec_mono W M (Nat.le_max_right n m) hm ho']

/-! ### Flattening -/

theorem foldr_flatten (c : Code P) : ∀ (is : List (Instr P)) (m : Bool) (fs : List (Code P × Bool)),
    is.foldr parseStep (some [(.nil, false)]) = some ((.nil, m) :: fs) →
    (c.flatten ++ is).foldr parseStep (some [(.nil, false)]) = some ((c, m) :: fs) := by
  induction c with
  | nil => intro is m fs h; simpa [Code.flatten] using h
  | op o k ih => intro is m fs h; simp [Code.flatten, ih is m fs h, parseStep]
  | ctl o k ih => intro is m fs h; simp [Code.flatten, ih is m fs h, parseStep]
  | block kind np nr body k ihb ihk =>
    intro is m fs h
    have h1 := ihk is m fs h
    have h2 := ihb (.end_ :: (k.flatten ++ is)) false ((k, m) :: fs) (by rw [List.foldr_cons, h1]; rfl)
    simp only [Code.flatten, List.cons_append, List.append_assoc, List.foldr_cons] at h2 ⊢
    rw [h2]; rfl
  | ifThen np nr a k iha ihk =>
    intro is m fs h
    have h1 := ihk is m fs h
    have h2 := iha (.end_ :: (k.flatten ++ is)) false ((k, m) :: fs) (by rw [List.foldr_cons, h1]; rfl)
    simp only [Code.flatten, List.cons_append, List.append_assoc, List.foldr_cons] at h2 ⊢
    rw [h2]; rfl
  | ifElse np nr a b k iha ihb ihk =>
    intro is m fs h
    have h1 := ihk is m fs h
    have h2 := ihb (.end_ :: (k.flatten ++ is)) false ((k, m) :: fs) (by rw [List.foldr_cons, h1]; rfl)
    have h3 := iha (.else_ :: (b.flatten ++ .end_ :: (k.flatten ++ is))) true ((b, false) :: (k, m) :: fs)
      (by rw [List.foldr_cons, h2]; rfl)
    simp only [Code.flatten, List.cons_append, List.append_assoc, List.foldr_cons] at h3 ⊢
    rw [h3]; rfl

theorem parse_flatten (c : Code P) : parse c.flatten = some c := by
  have := foldr_flatten c [] false [] rfl
  rw [List.append_nil] at this
  simp only [parse, this]

end Verif.Smith
