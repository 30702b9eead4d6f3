import Verif.Remod.Lemmas
/-! Re-encoding of whole sections with items. -/
namespace Verif.Remod
open Verif.Reader Verif.Items Verif.Items.Spec Verif.Reenc Verif.Reenc.Spec Spec

variable {m : Maps} {f : Feats}

theorem map_eq_mapM (g : α → β) : ∀ xs : List α, xs.mapM (fun x => some (g x)) = some (xs.map g)
  | [] => rfl
  | x :: xs => by simp [List.mapM_cons, map_eq_mapM g xs]

theorem fmap_ok {g : α → β} {x : Except Err α} {b : β} (h : g <$> x = .ok b) :
    ∃ a, x = .ok a ∧ b = g a := by
  cases x with
  | error e => cases h
  | ok a => cases h; exact ⟨a, rfl, rfl⟩

/-- A section whose items could be read. -/
theorem items_sim (hm : MapsFit m f.toFeatures) {id : UInt8} {s : SectionLimited} {xs : Items}
    (h : collectItems f id s = some (.ok xs)) (hr : ItemsReadable f.toFeatures xs) :
    ∃ e, items m f xs = some e ∧ e.id = id ∧ SectionFits f e ∧
      ∀ ys, ItemsIs f.toFeatures ys e → ItemsRenamed m f.toFeatures xs ys := by
  unfold collectItems at h
  split at h
  · next hid =>
    subst hid
    obtain ⟨l, hl, rfl⟩ := fmap_ok (Option.some.inj h)
    obtain ⟨hn, hy⟩ := collect_yields (yields_group hm) hl
    obtain ⟨es, k1, k2, k3, k4⟩ := sims hy
    refine ⟨.types es, by simp [items, k1], rfl, ⟨by omega, k3⟩, fun ys hys => ?_⟩
    cases ys <;> first | exact hys.elim | exact k4 _ hys
  split at h
  · next hid =>
    subst hid
    obtain ⟨l, hl, rfl⟩ := fmap_ok (Option.some.inj h)
    obtain ⟨hn, hy⟩ := collect_yields (sim_imports hm) hl
    obtain ⟨es, k1, k2, k3, k4⟩ := sims fun x hx => hy x hx (hr x hx)
    refine ⟨.imports es, by simp [items, k1], rfl, ⟨by omega, k3⟩, fun ys hys => ?_⟩
    cases ys <;> first | exact hys.elim | exact k4 _ hys
  split at h
  · next hid =>
    subst hid
    obtain ⟨l, hl, rfl⟩ := fmap_ok (Option.some.inj h)
    obtain ⟨hn, -⟩ := collect_yields (Yields.triv readVarU32) hl
    refine ⟨_, rfl, rfl, by simpa [SectionFits] using hn, fun ys hys => ?_⟩
    cases ys <;> first | exact hys.elim | exact hys
  split at h
  · next hid =>
    subst hid
    obtain ⟨l, hl, rfl⟩ := fmap_ok (Option.some.inj h)
    obtain ⟨hn, hy⟩ := collect_yields (sim_table hm) hl
    obtain ⟨es, k1, k2, k3, k4⟩ := sims hy
    refine ⟨.tables es, by simp [items, k1], rfl, ⟨by omega, k3⟩, fun ys hys => ?_⟩
    cases ys <;> first | exact hys.elim | exact k4 _ hys
  split at h
  · next hid =>
    subst hid
    obtain ⟨l, hl, rfl⟩ := fmap_ok (Option.some.inj h)
    obtain ⟨hn, hy⟩ := collect_yields sim_memory hl
    obtain ⟨es, k1, k2, k3, k4⟩ := sims hy
    rw [map_eq_mapM] at k1
    cases k1
    refine ⟨.memories _, rfl, rfl, ⟨by omega, k3⟩, fun ys hys => ?_⟩
    cases ys <;> first | exact hys.elim | skip
    have := k4 _ hys
    show _ = _
    rw [← List.forall₂_eq_eq_eq]
    exact this.flip
  split at h
  · next hid =>
    subst hid
    obtain ⟨l, hl, rfl⟩ := fmap_ok (Option.some.inj h)
    obtain ⟨hn, hy⟩ := collect_yields (sim_global hm) hl
    obtain ⟨es, k1, k2, k3, k4⟩ := sims hy
    refine ⟨.globals es, by simp [items, k1], rfl, ⟨by omega, k3⟩, fun ys hys => ?_⟩
    cases ys <;> first | exact hys.elim | exact k4 _ hys
  split at h
  · next hid =>
    subst hid
    obtain ⟨l, hl, rfl⟩ := fmap_ok (Option.some.inj h)
    obtain ⟨hn, hy⟩ := collect_yields (sim_export (m := m)) hl
    obtain ⟨es, k1, k2, k3, k4⟩ := sims hy
    rw [map_eq_mapM] at k1
    cases k1
    refine ⟨.exports _, rfl, rfl, ⟨by omega, k3⟩, fun ys hys => ?_⟩
    cases ys <;> first | exact hys.elim | exact k4 _ hys
  split at h
  · next hid =>
    subst hid
    obtain ⟨l, hl, rfl⟩ := fmap_ok (Option.some.inj h)
    obtain ⟨hn, hy⟩ := collect_yields (sim_element hm) hl
    obtain ⟨es, k1, k2, k3, k4⟩ := sims hy
    refine ⟨.elements es, by simp [items, k1], rfl, ⟨by omega, k3⟩, fun ys hys => ?_⟩
    cases ys <;> first | exact hys.elim | exact k4 _ hys
  split at h
  · next hid =>
    subst hid
    obtain ⟨l, hl, rfl⟩ := fmap_ok (Option.some.inj h)
    obtain ⟨hn, hy⟩ := collect_yields (sim_data hm) hl
    obtain ⟨es, k1, k2, k3, k4⟩ := sims hy
    refine ⟨.data es, by simp [items, k1], rfl, ⟨by omega, k3⟩, fun ys hys => ?_⟩
    cases ys <;> first | exact hys.elim | exact k4 _ hys
  split at h
  · next hid =>
    subst hid
    obtain ⟨l, hl, rfl⟩ := fmap_ok (Option.some.inj h)
    obtain ⟨hn, -⟩ := collect_yields (Yields.triv readTagType) hl
    refine ⟨_, rfl, rfl, by simpa [SectionFits] using hn, fun ys hys => ?_⟩
    cases ys <;> first | exact hys.elim | skip
    have hys : List.Forall₂ TagTypeIs _ (l.map (tagType m)) := hys
    rw [List.forall₂_map_right_iff] at hys
    exact hys.flip
  · cases h

/-- The number of items. -/
def count : Items → Nat
  | .types xs => xs.length
  | .imports xs => xs.length
  | .functions xs => xs.length
  | .tables xs => xs.length
  | .memories xs => xs.length
  | .tags xs => xs.length
  | .globals xs => xs.length
  | .exports xs => xs.length
  | .elements xs => xs.length
  | .data xs => xs.length

theorem collect_length {item : R α} {s : SectionLimited} {xs : List α}
    (h : s.collect item = .ok xs) : xs.length = s.count.toNat := by
  obtain ⟨r', h2, -⟩ := collectFrom_ok.1 h
  exact Names.readMany_length h2

theorem items_count {id : UInt8} {s : SectionLimited} {xs : Items}
    (h : collectItems f id s = some (.ok xs)) : count xs = s.count.toNat := by
  unfold collectItems at h
  repeat' split at h
  all_goals first | cases h; done | skip
  all_goals
    obtain ⟨l, hl, rfl⟩ := fmap_ok (Option.some.inj h)
    exact collect_length hl

theorem renamed_count {f : Instr.Features} {xs ys : Items} (h : ItemsRenamed m f xs ys) :
    count ys = count xs := by
  cases xs <;> cases ys <;> first | exact h.elim | skip
  case functions.functions => cases (h : _ = _); simp [count]
  case memories.memories => cases (h : _ = _); rfl
  all_goals
    first
    | exact (List.Forall₂.length_eq (R := RecGroupRenamed m) h).symm
    | exact (List.Forall₂.length_eq (R := ImportsRenamed m f) h).symm
    | exact (List.Forall₂.length_eq (R := TableRenamed m f) h).symm
    | exact (List.Forall₂.length_eq (R := GlobalRenamed m f) h).symm
    | exact (List.Forall₂.length_eq (R := ExportRenamed m) h).symm
    | exact (List.Forall₂.length_eq (R := ElementRenamed m f) h).symm
    | exact (List.Forall₂.length_eq (R := DataRenamed m f) h).symm
    | exact (List.Forall₂.length_eq
        (R := fun (t t' : TagType) => t'.funcTypeIdx = m.type t.funcTypeIdx) h).symm

/-- The section that is written, and what is read from it. -/
theorem section_sim (hm : MapsFit m f.toFeatures) {id : UInt8} {s : SectionLimited} {xs : Items}
    (h : collectItems f id s = some (.ok xs)) (hr : ItemsReadable f.toFeatures xs) :
    ∃ e bytes, items m f xs = some e ∧ e.sect = some (.items id s.count bytes) ∧
      ∀ r : Reader, r.rest = bytes → ∃ ys, collectItems f id ⟨r, s.count⟩ = some (.ok ys) ∧
        ItemsRenamed m f.toFeatures xs ys := by
  obtain ⟨e, h1, rfl, h2, h3⟩ := items_sim hm h hr
  obtain ⟨b, h4, h5⟩ := section_items f e h2
  have hc : b.numAdded = s.count := by
    obtain ⟨ys, h6, h7⟩ := h5 ⟨b.bytes, 0, 0⟩ rfl
    have h8 := renamed_count (h3 ys h7)
    have h9 := items_count h6
    rw [h8, items_count h] at h9
    exact (BitVec.eq_of_toNat_eq h9).symm
  refine ⟨e, b.bytes, h1, by simp [Enc.Section.sect, h4, hc], fun r hr => ?_⟩
  obtain ⟨ys, h6, h7⟩ := h5 r hr
  exact ⟨ys, hc ▸ h6, h3 ys h7⟩

theorem imports_readable {f : Instr.Features} {x : Imports} {e : Enc.Imports}
    (h : imports m f x = some e) : ImportsReadable f x := by
  cases x with
  | single => trivial
  | compact1 n s =>
    simp only [imports, Option.bind_eq_bind, Option.bind_eq_some_iff] at h
    obtain ⟨xs, h, -⟩ := h
    exact ⟨xs, itemsOf_ok.1 h⟩
  | compact2 n t s =>
    simp only [imports, Option.bind_eq_bind, Option.bind_eq_some_iff] at h
    obtain ⟨xs, h, -⟩ := h
    exact ⟨xs, itemsOf_ok.1 h⟩

theorem mapM_each {g : α → Option β} : ∀ {xs : List α} {ys : List β}, xs.mapM g = some ys →
    ∀ x ∈ xs, ∃ y, g x = some y
  | [], _, _, _, hx => nomatch hx
  | x :: xs, ys, h, z, hz => by
    simp only [List.mapM_cons, Option.bind_eq_bind, Option.bind_eq_some_iff] at h
    obtain ⟨y, h1, zs, h2, -⟩ := h
    rcases List.mem_cons.1 hz with rfl | hz
    · exact ⟨y, h1⟩
    · exact mapM_each h2 z hz

theorem items_readable {xs : Items} {e : Enc.Section} (h : items m f xs = some e) :
    ItemsReadable f.toFeatures xs := by
  cases xs with
  | imports xs =>
    simp only [items, Option.bind_eq_bind, Option.bind_eq_some_iff] at h
    obtain ⟨es, h, -⟩ := h
    intro x hx
    obtain ⟨y, hy⟩ := mapM_each h x hx
    exact imports_readable hy
  | _ => trivial

end Verif.Remod
