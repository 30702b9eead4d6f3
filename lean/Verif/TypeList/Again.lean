import Verif.TypeList.Numbered
/-! # Adding a group that is there already -/
namespace Verif.TypeList
open Verif.Types
open Spec (SubT)

variable {f : Features} {T T' : TypeList} {G : List CGroup}

theorem bindOk {α β : Type} {x : M α} {k : α → M β} {b : β} (h : (x >>= k) = .ok b) :
    ∃ a, x = .ok a ∧ k a = .ok b := by
  cases x with
  | error e => cases h
  | ok a => exact ⟨a, rfl, h⟩

theorem skipIf {β : Type} {c : Prop} [Decidable c] {x : M Unit} {k : Unit → M β} {b : β}
    (h : (if c then x >>= k else k ()) = .ok b) : k () = .ok b := by
  split at h
  · obtain ⟨_, _, h⟩ := bindOk h; exact h
  · exact h

theorem addIds_same {k : Nat} {is : List Nat} :
    ∀ {T T' : TypeList} {m m' : List Nat}, addIds f false k is T m = .ok (T', m') → T' = T := by
  induction is with
  | nil => intro T T' m m' h; cases h; rfl
  | cons i is ih =>
    intro T T' m m' h
    unfold addIds at h
    obtain ⟨_, _, h⟩ := bindOk h
    obtain ⟨_, _, h⟩ := bindOk h
    exact ih h

/-- The list of types stays as it is. -/
theorem addTypes_again (hf : f.gc = true) (h : Inv f T G (total G)) {m m' : List Nat}
    (hm : ∀ id ∈ m, id < total G) {g : RecGroup} {xs : List (SubT Nat)} (hg : Src g xs)
    (hz : total G ≤ 2 ^ 20)
    (hin : xs.map (SubT.map (canon m)) ∈ G) (ha : addTypes f T m g = .ok (T', m')) : T' = T := by
  have hlen := hg.1.length_eq
  have hcf : f.needsTypeCanonicalization = true := by
    unfold Features.needsTypeCanonicalization; simp [hf]
  have hm20 : ∀ id ∈ m, id < 2 ^ 20 := fun id hid => by have := hm id hid; omega
  unfold addTypes at ha
  obtain ⟨_, h0, ha⟩ := bindOk ha
  have h0 : m.length ≤ maxWasmTypes ∧ g.types.length ≤ maxWasmTypes - m.length := by
    unfold require at h0
    split at h0
    · next hd => exact of_decide_eq_true hd
    · cases h0
  have hmw : maxWasmTypes = 1000000 := rfl
  unfold canonicalizeAndIntern at ha
  obtain ⟨_, _, ha⟩ := bindOk ha
  have ha := skipIf ha
  dsimp only at ha
  rw [if_pos hcf] at ha
  obtain ⟨g', h1, ha⟩ := bindOk ha
  unfold canonicalizeRecGroup at h1
  rw [Accept.u32_ok (by omega), Accept.u32_ok (by omega)] at h1
  have h1 : canonicalizeTypes f m m.length g.types.length 0 g.types = .ok g' := by
    rw [hcf] at *
    exact h1
  have hcs := canonicalizeTypes_spec (sz := False) (f := f) (m := m) (len := g.types.length)
    (fun id hid => by have := hm20 id hid; omega) (.inl hf) hg.1 hg.2 0 (by omega)
  obtain ⟨hg2, -⟩ := hcs.1 g' h1
  have hcg : List.Forall₂ (fun t x => DSub t (x.map cpack)) g' (xs.map (SubT.map (canon m))) := by
    rw [List.forall₂_map_right_iff]; exact hg2
  obtain ⟨k, hk⟩ := List.mem_iff_getElem?.1 hin
  have hlook := (h.canon hcf g' k).2 ⟨_, hk, hcg⟩
  obtain ⟨⟨⟨b, k'⟩, T1⟩, h2, ha⟩ := bindOk ha
  unfold internCanonicalRecGroup at h2
  obtain ⟨_, _, h2⟩ := bindOk h2
  rw [hcf] at h2
  simp only [if_true] at h2
  rw [hlook] at h2
  cases h2
  obtain ⟨_, _, ha⟩ := bindOk ha
  exact addIds_same ha

theorem total_append (G H : List CGroup) : total (G ++ H) = total G + total H := by
  induction G with
  | nil => simp [total]
  | cons c G ih => simp [total, ih]; omega

/-- Where a new group goes, and what is there afterwards. -/
theorem added_cases (hf : f.gc = true) (h : Inv f T G (total G)) {m m' : List Nat}
    {gs : List (List (SubT Nat))} (hm : ModOk G m gs) {g : RecGroup} {xs : List (SubT Nat)}
    (hg : Src g xs) (hz : total G ≤ 2 ^ 20) (ha : addTypes f T m g = .ok (T', m'))
    (hlen : T'.coreTypes.length ≤ T.coreTypes.length + xs.length) :
    ∃ H, Inv f T' H (total H) ∧ ModOk H m' (gs ++ [xs]) ∧
      ((∃ k, G[k]? = some (xs.map (SubT.map (canon m))) ∧
          m' = m ++ List.range' (startOf G k) xs.length ∧ total H = total G) ∨
        xs.map (SubT.map (canon m)) ∉ G ∧ m' = m ++ List.range' (total G) xs.length ∧
          total H = total G + xs.length) := by
  have hcf : f.needsTypeCanonicalization = true := by
    unfold Features.needsTypeCanonicalization; simp [hf]
  obtain ⟨G', k, h1, h2, h3, h4⟩ := (addTypes_spec (sz := False) h hm.lt hg nofun).1 _ ha
  simp only at h1 h3
  subst h3
  have l1 : T'.coreTypes.length = total (G ++ G') := by rw [h1.types.length_eq, flat_length]
  have l0 : T.coreTypes.length = total G := by rw [h.types.length_eq, flat_length]
  refine ⟨G ++ G', h1, .snoc (hm.mono G') h2 h4, ?_⟩
  by_cases hin : xs.map (SubT.map (canon m)) ∈ G
  · left
    have he := addTypes_again hf h hm.lt hg hz hin ha
    obtain ⟨j, hj⟩ := List.mem_iff_getElem?.1 hin
    have hjl := (List.getElem?_eq_some_iff.1 hj).1
    have hj' : (G ++ G')[j]? = some (xs.map (SubT.map (canon m))) := by
      rw [List.getElem?_append_left hjl]; exact hj
    have hk : k = j := by
      obtain ⟨k1, e1⟩ := List.getElem?_eq_some_iff.1 h2
      obtain ⟨k2, e2⟩ := List.getElem?_eq_some_iff.1 hj'
      exact (List.Nodup.getElem_inj_iff (h1.nodup hcf)).1 (e1.trans e2.symm)
    subst hk
    refine ⟨k, hj, ?_, ?_⟩
    · rw [startOf_append _ (Nat.le_of_lt hjl)]
    · rw [← l1, he, l0]
  · right
    have hk : G.length ≤ k := by
      by_contra hlt
      rw [List.getElem?_append_left (by omega)] at h2
      exact hin (List.mem_iff_getElem?.2 ⟨k, h2⟩)
    have hle := startOf_add_le h2
    rw [List.length_map] at hle
    have hge : total G ≤ startOf (G ++ G') k := by
      have : startOf (G ++ G') G.length ≤ startOf (G ++ G') k := by
        obtain ⟨d, rfl⟩ := Nat.le.dest hk
        unfold startOf
        rw [List.take_add, total_append]
        omega
      rw [startOf_append _ (Nat.le_refl _), startOf_length] at this
      exact this
    refine ⟨hin, ?_, by omega⟩
    rw [show startOf (G ++ G') k = total G by omega]

end Verif.TypeList
