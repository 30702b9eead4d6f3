import Verif.Gc.Part
import Verif.Gc.LiveProps
/-! The exports that `run` keeps. -/
namespace Verif.Gc
open Verif.Reader Verif.Instr Verif.Items Verif.Reenc Verif.Reenc.Spec Spec

theorem swapRemove_perm {es : List Export} (hn : (es.map (·.name)).Nodup) (n : List UInt8) :
    (swapRemove es n).Perm (es.filter fun e => e.name ≠ n) := by
  unfold swapRemove
  cases hi : es.findIdx? (·.name = n) with
  | none =>
    rw [List.findIdx?_eq_none_iff] at hi
    rw [List.filter_eq_self.2]
    intro e he
    simpa using hi e he
  | some i =>
    rw [List.findIdx?_eq_some_iff_getElem] at hi
    obtain ⟨hlt, h1, h2⟩ := hi
    obtain ⟨as, z, rfl⟩ : ∃ as z, es = as ++ [z] := by
      rcases List.eq_nil_or_concat es with rfl | ⟨as, z, h⟩
      · cases hlt
      · exact ⟨as, z, by simpa using h⟩
    rw [List.getLast?_append, List.getLast?_singleton, Option.some_or]
    dsimp only
    by_cases hil : i = as.length
    · subst hil
      have hz : z.name = n := by simpa using h1
      rw [show (as ++ [z]).set as.length z = as ++ [z] by simp, List.dropLast_concat,
        List.filter_append, List.filter_cons_of_neg (by simp [hz]), List.filter_nil,
        List.append_nil, List.filter_eq_self.2]
      intro e he
      rw [List.map_append, List.nodup_append] at hn
      have := hn.2.2 e.name (List.mem_map.2 ⟨e, he, rfl⟩) z.name (by simp)
      simpa [hz] using this
    · have hlt' : i < as.length := by
        simp only [List.length_append, List.length_singleton] at hlt
        omega
      rw [List.set_append_left _ _ hlt', List.dropLast_concat]
      have hsplit : as = as.take i ++ as[i] :: as.drop (i + 1) := by simp
      have hx : as[i].name = n := by simpa [List.getElem_append_left hlt'] using h1
      rw [List.set_eq_take_append_cons_drop, if_pos hlt']
      generalize as.take i = p at hsplit
      generalize as.drop (i + 1) = q at hsplit
      generalize as[i] = x at hsplit hx
      subst hsplit
      have hne : ∀ e ∈ p ++ q ++ [z], e.name ≠ n := by
        intro e he hen
        have hc : ((p ++ x :: q ++ [z]).map (·.name)).Perm ((x :: (p ++ q ++ [z])).map (·.name)) := by
          refine List.Perm.map _ ?_
          rw [List.append_assoc, List.append_assoc, List.cons_append]
          exact List.perm_middle
        have := (hc.nodup_iff.1 hn)
        rw [List.map_cons, List.nodup_cons] at this
        exact this.1 (List.mem_map.2 ⟨e, he, by rw [hen, hx]⟩)
      rw [List.filter_append, List.filter_append, List.filter_cons_of_neg (by simp [hx]),
        ← List.filter_append, ← List.filter_append, List.filter_eq_self.2 (by
          intro e he
          simpa using hne e he)]
      rw [List.append_assoc]
      exact List.Perm.append_left p (List.perm_append_singleton z q).symm

theorem filter_names {es : List Export} (hn : (es.map (·.name)).Nodup) (p : Export → Bool) :
    ((es.filter p).map (·.name)).Nodup := (List.filter_sublist.map _).nodup hn

theorem swapAll_perm : ∀ (ns : List (List UInt8)) {es : List Export},
    (es.map (·.name)).Nodup →
    (ns.foldl swapRemove es).Perm (es.filter fun e => !ns.contains e.name)
  | [], es, _ => by
    rw [List.filter_eq_self.2 (by simp)]
    exact .refl _
  | n :: ns, es, hn => by
    have h1 := swapRemove_perm hn n
    have hn' : ((swapRemove es n).map (·.name)).Nodup :=
      (h1.map _).nodup_iff.2 (filter_names hn _)
    refine (swapAll_perm ns hn').trans ((h1.filter _).trans ?_)
    rw [List.filter_filter]
    refine List.Perm.of_eq (List.filter_congr ?_)
    intro e _
    by_cases h : e.name = n <;> simp [h]

/-- The exports with these names are left. -/
theorem run_exports {m : Module} (hn : (m.exports.map (·.name)).Nodup)
    (required : List (List UInt8)) :
    (((m.exports.map (·.name)).filter fun n => !required.contains n).foldl swapRemove
      m.exports).Perm (m.exports.filter fun e => required.contains e.name) := by
  refine (swapAll_perm _ hn).trans (List.Perm.of_eq (List.filter_congr ?_))
  intro e he
  have hm : e.name ∈ m.exports.map (·.name) := List.mem_map.2 ⟨e, he, rfl⟩
  by_cases h : e.name ∈ required
  · have : e.name ∉ (m.exports.map (·.name)).filter fun n => !required.contains n := by
      intro h'
      simpa [h] using (List.mem_filter.1 h').2
    simp [h]
  · have : e.name ∈ (m.exports.map (·.name)).filter fun n => !required.contains n :=
      List.mem_filter.2 ⟨hm, by simpa using h⟩
    rw [List.contains_iff_mem.2 this]
    simp [h]

end Verif.Gc
