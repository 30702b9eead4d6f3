import Verif.Lookup.Lemmas
/-! The interface that is found for a module is the one it names. -/
namespace Verif.Lookup
open Verif.Semver (Version PackageName Key)
open Spec

/-- **The interface found for a module is what its name stands for**: an item by this name, else the
interface at this version, else the first clone of it, else the first interface of this name at a
compatible version. -/
theorem lookup_iff (R : Res) (parse : String → Parsed) (m : String) (items : Items)
    (hn : (items.map (·.1)).Nodup) (hw : Named R items) (k : Key) (id : Nat) :
    moduleToInterface R parse m items = .ok (k, id) ↔ Found R parse m items k id := by
  rcases lookup_cases (parse := parse) (m := m) hn hw with ⟨k', id', h1, h2⟩ | ⟨h1, h2⟩
  · rw [h1]
    constructor
    · intro h
      cases h
      exact h2
    · intro h
      obtain ⟨rfl, rfl⟩ := found_unique hn h h2
      rfl
  · rw [h1]
    exact ⟨nofun, fun h => absurd h (h2 k id)⟩

/-- **Modules are refused only if there is no such interface**, and the search does not panic. -/
theorem lookup_refused_iff (R : Res) (parse : String → Parsed) (m : String) (items : Items)
    (hn : (items.map (·.1)).Nodup) (hw : Named R items) :
    moduleToInterface R parse m items ≠ .error .panic ∧
    (moduleToInterface R parse m items = .error .refused ↔
      ∀ id, ¬ ByName items m id ∧ ¬ (Offered items id ∧
        (Means R parse m id ∨ (∃ of_, Means R parse m of_ ∧ CloneOf R of_ id) ∨
          Fits R parse m id))) := by
  rcases lookup_cases (parse := parse) (m := m) hn hw with ⟨k, id, h1, h2⟩ | ⟨h1, h2⟩
  · rw [h1]
    refine ⟨nofun, nofun, fun h => ?_⟩
    exfalso
    cases h2 with
    | name h' => exact (h id).1 h'
    | same _ h' h'' => exact (h id).2 ⟨h'', .inl h'⟩
    | clone _ h' _ h'' => exact (h id).2 ⟨(first_item h'').1, .inr (.inl ⟨_, h', (first_item h'').2⟩)⟩
    | compatible _ _ h' => exact (h id).2 ⟨(first_item h').1, .inr (.inr (first_item h').2)⟩
  · rw [h1]
    refine ⟨nofun, fun _ => ?_, fun _ => rfl⟩
    have hno : ¬ ∃ i, ByName items m i := fun ⟨i, hi⟩ => h2 _ _ (.name hi)
    have hm : ∀ of_, Means R parse m of_ → ¬ Offered items of_ ∧
        ∀ i, Offered items i → ¬ CloneOf R of_ i := fun of_ hof => by
      have hi : ¬ Offered items of_ := fun k => h2 _ _ (.same hno hof k)
      exact ⟨hi, first_none fun id k => h2 _ _ (.clone hno hof hi k)⟩
    refine fun id => ⟨fun k => hno ⟨id, k⟩, ?_⟩
    rintro ⟨hi, k | ⟨of_, k, k'⟩ | k⟩
    · exact (hm _ k).1 hi
    · exact (hm _ k).2 _ hi k'
    · exact first_none (fun id k => h2 _ _ (.compatible hno hm k)) id hi k

/-- `a:b/c` at 1.0.0, 1.2.0 and 2.0.0; the fourth is a clone of the third. -/
def exR : Res where
  named := fun p n =>
    if n = "c" then
      if p = ⟨"a", "b", some ⟨1, 0, 0, [], []⟩⟩ then some 0
      else if p = ⟨"a", "b", some ⟨1, 2, 0, [], []⟩⟩ then some 1
      else if p = ⟨"a", "b", some ⟨2, 0, 0, [], []⟩⟩ then some 2 else none
    else none
  ifaces := fun
    | 0 => { package := some ⟨"a", "b", some ⟨1, 0, 0, [], []⟩⟩, name := some "c" }
    | 1 => { package := some ⟨"a", "b", some ⟨1, 2, 0, [], []⟩⟩, name := some "c" }
    | 2 => { package := some ⟨"a", "b", some ⟨2, 0, 0, [], []⟩⟩, name := some "c" }
    | _ => { package := some ⟨"a", "b", some ⟨2, 0, 0, [], []⟩⟩, name := some "c", cloneOf := some 2 }

def exParse : String → Parsed
  | "a:b/c@1.0.0" => .interface "a" "b" "c" (some ⟨1, 0, 0, [], []⟩)
  | "a:b/c@1.1.0" => .interface "a" "b" "c" (some ⟨1, 1, 0, [], []⟩)
  | "a:b/c@2.0.0" => .interface "a" "b" "c" (some ⟨2, 0, 0, [], []⟩)
  | "a:b/c@3.0.0" => .interface "a" "b" "c" (some ⟨3, 0, 0, [], []⟩)
  | _ => .notInterface

def exItems : Items :=
  [(.name "x", .iface 7), (.iface 1, .iface 1), (.iface 0, .iface 0), (.iface 3, .iface 3)]

theorem exNamed : Named exR exItems := by
  intro id x hx
  simp only [exItems, List.mem_cons, Prod.mk.injEq, List.not_mem_nil, or_false, reduceCtorEq,
    false_and, false_or, Key.iface.injEq] at hx
  rcases hx with ⟨rfl, -⟩ | ⟨rfl, -⟩ | ⟨rfl, -⟩ <;> exact ⟨⟨_, rfl⟩, _, rfl⟩

/-- A bare name, the very version, a compatible version, a clone, and none. -/
example : moduleToInterface exR exParse "x" exItems = .ok (.name "x", 7) ∧
    moduleToInterface exR exParse "a:b/c@1.0.0" exItems = .ok (.iface 0, 0) ∧
    moduleToInterface exR exParse "a:b/c@1.1.0" exItems = .ok (.iface 1, 1) ∧
    moduleToInterface exR exParse "a:b/c@2.0.0" exItems = .ok (.iface 3, 3) ∧
    moduleToInterface exR exParse "a:b/c@3.0.0" exItems = .error .refused := by decide

example : Found exR exParse "a:b/c@1.1.0" exItems (.iface 1) 1 :=
  (lookup_iff _ _ _ _ (by decide) exNamed _ _).1 (by decide)

example : ¬ Fits exR exParse "a:b/c@3.0.0" 0 := fun h =>
  (((lookup_refused_iff exR exParse "a:b/c@3.0.0" exItems (by decide) exNamed).2.1 (by decide)) 0).2
    ⟨⟨.iface 0, by decide⟩, .inr (.inr h)⟩

end Verif.Lookup
