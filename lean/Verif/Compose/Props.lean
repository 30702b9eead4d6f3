import Verif.Compose.Lemmas
/-! The composition graph stays sound, if only what is connected is disconnected. -/
namespace Verif.Compose
open Spec

theorem step_ok {order : List Nat → List Nat} (ho : Visits order) {st : St} (h : Inv st) {op : Op}
    (hf : Fair st op) : step order op st = .error .refused ∨ ∃ st', step order op st = .ok st' ∧
      Inv st' ∧ ∀ s e t i, Connected st' s e t i ↔ After st op s e t i := by
  cases op with
  | addComponent name =>
    rcases inv_add h name with k | ⟨st', k1, k2, k3⟩
    · exact .inl k
    · exact .inr ⟨st', k1, k2, fun s e t i => by simp only [After, Connected, k3]⟩
  | removeComponent id => exact .inr (inv_removeComponent ho h id)
  | instantiate id =>
    rcases inv_instantiate h id with k | ⟨st', k1, k2, k3⟩
    · exact .inl k
    · exact .inr ⟨st', k1, k2, fun s e t i => by simp only [After, Connected, k3]⟩
  | removeInstance id => exact .inr (inv_removeInstance h id)
  | connect s e t i f =>
    rcases inv_connect h s e t i f with k | k
    · exact .inl k.1
    · exact .inr k.2
  | disconnect s t i => exact inv_disconnect h s t i hf

theorem run_ok {order : List Nat → List Nat} (ho : Visits order) : ∀ (ops : List Op) {st : St},
    Inv st → FairRun order ops st → ∃ st', run order ops st = .ok st' ∧ Inv st'
  | [], st, h, _ => ⟨st, rfl, h⟩
  | op :: ops, st, h, hf => by
    unfold run
    rcases step_ok ho h hf.1 with k | ⟨st', k1, k2, -⟩
    · rw [k]
      exact run_ok ho ops h (hf.2 st (.inr ⟨k, rfl⟩))
    · rw [k1]
      exact run_ok ho ops k2 (hf.2 st' (.inl k1))

/-- **Sequences of calls do not panic, and each import has one argument at most**, if no import is
disconnected from an instance while it is connected to another. Missing: the other calls of
`disconnect`, which are to do nothing (`always_sound_fails`). -/
theorem always_sound_partial (order : List Nat → List Nat) (ops : List Op) (ho : Visits order)
    (hf : FairRun order ops {}) : ∃ st, run order ops {} = .ok st ∧ Sound st := by
  obtain ⟨st, h1, h2⟩ := run_ok ho ops inv_start hf
  exact ⟨st, h1, h2.toSound⟩

/-- **Each call changes the connections as it says**, after any such sequence. -/
theorem call_effect_partial (order : List Nat → List Nat) (ops : List Op) (ho : Visits order)
    (hf : FairRun order ops {}) {st st' : St} (hr : run order ops {} = .ok st) {op : Op}
    (hop : Fair st op) (hs : step order op st = .ok st') (s : Nat) (e : Option Nat) (t i : Nat) :
    Connected st' s e t i ↔ After st op s e t i := by
  obtain ⟨st1, h1, h2⟩ := run_ok ho ops inv_start hf
  rw [hr] at h1
  cases h1
  rcases step_ok ho h2 hop with k | ⟨st2, k1, -, k3⟩
  · rw [hs] at k
    cases k
  · rw [hs] at k1
    cases k1
    exact k3 s e t i

/-- **Connections are refused for a reason**: an instance with itself, instances that do not exist,
imports that are connected, or types that do not fit. -/
theorem connect_refused_iff_partial (order : List Nat → List Nat) (ops : List Op)
    (ho : Visits order) (hf : FairRun order ops {}) {st : St} (hr : run order ops {} = .ok st)
    (s : Nat) (e : Option Nat) (t i : Nat) (fits : Bool) :
    connect s e t i fits st = .error .refused ↔ s = t ∨ st.instances s = none ∨
      st.instances t = none ∨ (∃ s' e', Connected st s' e' t i) ∨ fits = false := by
  obtain ⟨st1, h1, h2⟩ := run_ok ho ops inv_start hf
  rw [hr] at h1
  cases h1
  have hn : ∀ o : Option Inst, o = none ↔ ¬ ∃ x, o = some x := fun o => by cases o <;> simp
  rcases inv_connect h2 s e t i fits with ⟨k1, k2⟩ | ⟨k1, st', k2, -⟩
  · refine ⟨fun _ => ?_, fun _ => k1⟩
    rw [hn, hn]
    grind
  · rw [k2]
    refine ⟨nofun, fun k => ?_⟩
    rw [hn, hn] at k
    grind

/-- Three instances; the first is the argument of the third, and the second gets disconnected. -/
def unfair : List Op := [.addComponent "a", .addComponent "b", .instantiate 0, .instantiate 0,
  .instantiate 1, .connect 0 none 2 0 true, .disconnect 1 2 0]

/-- **`disconnect` of instances that are not connected is not without effect**: the same connection
again panics. -/
theorem always_sound_fails : ¬ AlwaysSound := by
  intro h
  obtain ⟨st, h1, -⟩ := h id (unfair ++ [.connect 0 none 2 0 true]) (fun _ _ => Iff.rfl)
  have h2 : (match run id (unfair ++ [.connect 0 none 2 0 true]) {} with
    | .error .panic => true | _ => false) = true := by decide
  rw [h1] at h2
  cases h2

/-- **… and another connection gives the import two arguments.** -/
theorem two_arguments : ∃ st, run id (unfair ++ [.connect 1 none 2 0 true]) {} = .ok st ∧
    Connected st 0 none 2 0 ∧ Connected st 1 none 2 0 := by
  have h : (match run id (unfair ++ [.connect 1 none 2 0 true]) {} with
    | .ok st => st.graph | _ => []) = [⟨0, 2, [(0, none)]⟩, ⟨1, 2, [(0, none)]⟩] := by decide
  cases hr : run id (unfair ++ [.connect 1 none 2 0 true]) {} with
  | error e => rw [hr] at h; cases h
  | ok st =>
    rw [hr] at h
    have hg : st.graph = [⟨0, 2, [(0, none)]⟩, ⟨1, 2, [(0, none)]⟩] := h
    exact ⟨st, rfl, ⟨⟨0, 2, [(0, none)]⟩, by rw [hg]; simp, rfl, rfl, by simp⟩,
      ⟨⟨1, 2, [(0, none)]⟩, by rw [hg]; simp, rfl, rfl, by simp⟩⟩

/-- Calls without `disconnect` are of the kind asked for. -/
theorem fairRun_of {order : List Nat → List Nat} : ∀ (ops : List Op) (st : St),
    (∀ s t i, Op.disconnect s t i ∉ ops) → FairRun order ops st
  | [], _, _ => trivial
  | op :: ops, st, h => by
    refine ⟨?_, fun st' _ => fairRun_of ops st' fun s t i k => h s t i (List.mem_cons_of_mem _ k)⟩
    cases op with
    | disconnect s t i => exact absurd (List.mem_cons_self ..) (h s t i)
    | _ => trivial

/-- Three instances of two components, connected, and the first component removed. -/
example : ∃ st, run id [.addComponent "a", .addComponent "b", .instantiate 0, .instantiate 0,
    .instantiate 1, .connect 0 none 2 0 true, .connect 1 (some 3) 0 0 true, .connect 1 none 2 0 true,
    .removeComponent 0, .connect 1 none 2 0 true] {} = .ok st ∧ Sound st :=
  always_sound_partial id _ (fun _ _ => Iff.rfl) (fairRun_of _ _ (by simp))

/-- A connection that is removed and made again. -/
example : (match run id [.addComponent "a", .addComponent "b", .instantiate 0, .instantiate 0,
    .instantiate 1, .connect 0 none 2 0 true, .disconnect 0 2 0, .connect 1 (some 1) 2 0 true] {} with
    | .ok st => st.graph | _ => []) = [⟨1, 2, [(0, some 1)]⟩] := by decide

/-- Removing a component removes the connections of its instances. -/
example : (match run id [.addComponent "a", .addComponent "b", .instantiate 0, .instantiate 0,
    .instantiate 1, .connect 0 none 2 0 true, .connect 1 (some 3) 0 0 true, .removeComponent 0] {} with
    | .ok st => (st.graph, st.instances 2) | _ => ([], none)) = ([], some ⟨1, []⟩) := by decide

/-- An import that is connected is refused. -/
example : (match run id [.addComponent "a", .instantiate 0, .instantiate 0, .instantiate 0,
    .connect 0 none 2 0 true] {} with
    | .ok st => (match connect 1 none 2 0 true st with | .error .refused => true | _ => false)
    | _ => false) = true := by decide

end Verif.Compose
