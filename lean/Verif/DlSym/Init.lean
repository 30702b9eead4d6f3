import Verif.DlSym.Lemmas
/-! The table after the variables have been initialised is the table with their addresses. -/
namespace Verif.DlSym
open DlTable DlTable.Spec Spec

/-- The buffers differ in the fields for variables only, and `b1` has `init` there. -/
structure Agree (base : Nat) (init : Name → Name → Nat) (g : List (Name × Name × Nat))
    (b0 b1 : List UInt8) : Prop where
  length : b0.length = b1.length
  fields : ∀ x ∈ g, HasBytes b1 base x.2.2 (le32 (init x.1 x.2.1))
  others : ∀ i, (∀ x ∈ g, ¬ (x.2.2 ≤ base + i ∧ base + i < x.2.2 + 4)) → b0[i]? = b1[i]?

variable {tableBase base : Nat} {init : Name → Name → Nat} {le : Name → Name → Bool}

theorem Agree.app {g b0 b1} (h : Agree base init g b0 b1) (c : List UInt8) :
    Agree base init g (b0 ++ c) (b1 ++ c) := by
  refine ⟨by simp [h.length], fun x hx => (h.fields x hx).mono _, fun i hi => ?_⟩
  rcases Nat.lt_or_ge i b0.length with hl | hl
  · rw [List.getElem?_append_left hl, List.getElem?_append_left (h.length ▸ hl)]
    exact h.others i hi
  · rw [List.getElem?_append_right hl, List.getElem?_append_right (h.length ▸ hl), h.length]

theorem Agree.push {g b0 b1} (h : Agree base init g b0 b1) (lib name : Name) :
    Agree base init (g ++ [(lib, name, base + b0.length)]) (b0 ++ le32 0)
      (b1 ++ le32 (init lib name)) := by
  refine ⟨by simp [h.length, le32_length], fun x hx => ?_, fun i hi => ?_⟩
  · rcases List.mem_append.1 hx with hx | hx
    · exact (h.fields x hx).mono _
    · have hx : x = (lib, name, base + b0.length) := by simpa using hx
      subst hx
      rw [h.length]
      exact hasBytes_end _ _ _
  · rcases Nat.lt_or_ge i b0.length with hl | hl
    · rw [List.getElem?_append_left hl, List.getElem?_append_left (h.length ▸ hl)]
      exact h.others i fun x hx => hi x (List.mem_append_left _ hx)
    · have h4 := hi (lib, name, base + b0.length) (by simp)
      have h4 : b0.length + 4 ≤ i := by simp only at h4; omega
      rw [List.getElem?_eq_none (by simp [le32_length]; omega),
        List.getElem?_eq_none (by have := h.length; simp [le32_length]; omega)]

theorem writeSyms_agree {lib : Name} : ∀ {ss : List Sym} {b0 b1 g}, Agree base init g b0 b1 →
    ∃ b0' b1' g', writeSyms base (fun _ _ => 0) lib ss b0 g = (b0', g') ∧
      writeSyms base init lib ss b1 g = (b1', g') ∧ Agree base init g' b0' b1'
  | [], b0, b1, g, h => ⟨b0, b1, g, rfl, rfl, h⟩
  | s :: ss, b0, b1, g, h => by
    have h' := (h.app (le32 s.export_.name.length)).app (le32 s.nameAddress)
    unfold writeSyms
    cases ha : s.address with
    | function a => exact writeSyms_agree (h'.app (le32 a))
    | global n =>
      simp only
      rw [← h'.length]
      exact writeSyms_agree (h'.push lib n)

theorem addNames_agree : ∀ {es : List Export} {b0 b1 : List UInt8} {n : Nat}, b0.length = b1.length →
    ∃ ss c n', addNames tableBase base es b0 n = (ss, b0 ++ c, n') ∧
      addNames tableBase base es b1 n = (ss, b1 ++ c, n')
  | [], b0, b1, n, h => ⟨[], [], n, by simp [addNames], by simp [addNames]⟩
  | e :: es, b0, b1, n, h => by
    have hl : (b0 ++ padded e.name).length = (b1 ++ padded e.name).length := by simp [h]
    unfold addNames
    cases hk : e.kind with
    | function =>
      obtain ⟨ss, c, n', h0, h1⟩ := addNames_agree (es := es) (n := n + 1) hl
      simp only [h0, h1, h]
      exact ⟨_, padded e.name ++ c, n', by simp only [List.append_assoc]; rfl,
        by simp only [List.append_assoc]⟩
    | global =>
      obtain ⟨ss, c, n', h0, h1⟩ := addNames_agree (es := es) (n := n) hl
      simp only [h0, h1, h]
      exact ⟨_, padded e.name ++ c, n', by simp only [List.append_assoc]; rfl,
        by simp only [List.append_assoc]⟩
    | tag =>
      obtain ⟨ss, c, n', h0, h1⟩ := addNames_agree (es := es) (n := n) hl
      simp only [h0, h1]
      exact ⟨ss, padded e.name ++ c, n', by simp only [List.append_assoc],
        by simp only [List.append_assoc]⟩

theorem addLib_agree {lib : Lib} {b0 b1 g n} (h : Agree base init g b0 b1) :
    ∃ r b0' b1' g' n', addLib tableBase base (fun _ _ => 0) le lib ⟨b0, g, n⟩ = (r, ⟨b0', g', n'⟩) ∧
      addLib tableBase base init le lib ⟨b1, g, n⟩ = (r, ⟨b1', g', n'⟩) ∧
      Agree base init g' b0' b1' := by
  have h1 := h.app (padded lib.name)
  obtain ⟨ss, c, n', e0, e1⟩ := addNames_agree (tableBase := tableBase) (base := base)
    (es := lib.exports) (n := n) h1.length
  obtain ⟨b0', b1', g', k0, k1, k2⟩ := writeSyms_agree (lib := lib.name)
    (ss := ss.mergeSort fun x y => le x.export_.name y.export_.name) (h1.app c)
  refine ⟨⟨lib, base + b0.length, base + (b0 ++ padded lib.name ++ c).length⟩, b0', b1', g', n', ?_, ?_,
    k2⟩
  · unfold addLib
    simp only [e0, k0]
  · unfold addLib
    simp only [e1, k1, List.length_append, h.length]

theorem addLibs_agree : ∀ {libs : List Lib} {b0 b1 g n}, Agree base init g b0 b1 →
    ∃ rs b0' b1' g' n',
      addLibs tableBase base (fun _ _ => 0) le libs ⟨b0, g, n⟩ = (rs, ⟨b0', g', n'⟩) ∧
      addLibs tableBase base init le libs ⟨b1, g, n⟩ = (rs, ⟨b1', g', n'⟩) ∧
      Agree base init g' b0' b1'
  | [], b0, b1, g, n, h => ⟨[], b0, b1, g, n, rfl, rfl, h⟩
  | lib :: libs, b0, b1, g, n, h => by
    obtain ⟨r, c0, c1, g1, n1, h0, h1, h2⟩ := addLib_agree (tableBase := tableBase) (le := le)
      (lib := lib) (n := n) h
    obtain ⟨rs, d0, d1, g2, n2, k0, k1, k2⟩ := addLibs_agree (libs := libs) (n := n1) h2
    exact ⟨r :: rs, d0, d1, g2, n2, by unfold addLibs; simp only [h0, k0],
      by unfold addLibs; simp only [h1, k1], k2⟩

theorem writeLibs_app : ∀ (rs : List Rec), ∃ c, ∀ b, writeLibs rs b = b ++ c
  | [] => ⟨[], by simp [writeLibs]⟩
  | r :: rs => by
    obtain ⟨c, hc⟩ := writeLibs_app rs
    refine ⟨le32 r.lib.name.length ++ le32 r.nameAddress ++ le32 r.lib.exports.length ++
      le32 r.symbols ++ c, fun b => ?_⟩
    unfold writeLibs
    rw [hc]
    simp

theorem new_agree (libs : List Lib) :
    (newWith tableBase base init le libs).globals = (new tableBase base le libs).globals ∧
    (newWith tableBase base init le libs).functions = (new tableBase base le libs).functions ∧
    (newWith tableBase base init le libs).librariesAddress =
      (new tableBase base le libs).librariesAddress ∧
    Agree base init (new tableBase base le libs).globals (new tableBase base le libs).buffer
      (newWith tableBase base init le libs).buffer := by
  obtain ⟨rs, b0, b1, g, n, h0, h1, h2⟩ := addLibs_agree (tableBase := tableBase) (base := base)
    (init := init) (le := le) (libs := libs.filter (·.dlOpenable)) (b0 := []) (b1 := []) (g := [])
    (n := 0) ⟨rfl, by simp, by simp⟩
  obtain ⟨c, hc⟩ := writeLibs_app (rs.mergeSort fun x y => le x.lib.name y.lib.name)
  unfold new newWith
  simp only [h0, h1, hc]
  refine ⟨trivial, trivial, by simp [h2.length], ?_⟩
  rw [h2.length]
  exact ((h2.app c).app _).app _

theorem hasBytes_get {m base p x} (h : HasBytes m base p x) (j : Nat) (hj : j < x.length) :
    m[p - base + j]? = x[j]? := by
  obtain ⟨a, c, rfl, rfl⟩ := h
  rw [List.append_assoc, List.getElem?_append_right (by omega), List.getElem?_append_left (by omega)]
  congr 1
  omega

theorem word_bytes {m base p v} (h : Word m base p v) : HasBytes m base p (le32 v) := by
  obtain ⟨b0, b1, b2, b3, h, rfl⟩ := h
  have h0 := b0.toNat_lt
  have h1 := b1.toNat_lt
  have h2 := b2.toNat_lt
  have h3 := b3.toNat_lt
  have : le32 (b0.toNat + 256 * b1.toNat + 65536 * b2.toNat + 16777216 * b3.toNat) =
      [b0, b1, b2, b3] := by
    unfold le32
    simp only [List.cons.injEq, and_true, ← UInt8.toNat_inj, UInt8.toNat_ofNat']
    omega
  rw [this]
  exact h

/-- The memory when `dlopen` is called. -/
theorem initialised_eq {libs : List Lib} {m : List UInt8}
    (h : Initialised base init (new tableBase base le libs) m) :
    m = (newWith tableBase base init le libs).buffer ∧
    (newWith tableBase base init le libs).librariesAddress =
      (new tableBase base le libs).librariesAddress ∧
    (newWith tableBase base init le libs).functions = (new tableBase base le libs).functions := by
  obtain ⟨-, hf, ha, hg⟩ := new_agree (tableBase := tableBase) (base := base) (init := init) (le := le)
    libs
  refine ⟨List.ext_getElem? fun i => ?_, ha, hf⟩
  by_cases hi : ∀ x ∈ (new tableBase base le libs).globals,
      ¬ (x.2.2 ≤ base + i ∧ base + i < x.2.2 + 4)
  · rw [h.others i hi, hg.others i hi]
  · obtain ⟨x, hx, h1⟩ : ∃ x ∈ (new tableBase base le libs).globals,
        x.2.2 ≤ base + i ∧ base + i < x.2.2 + 4 := by
      apply Classical.byContradiction
      intro hn
      exact hi fun x hx hc => hn ⟨x, hx, hc⟩
    have k1 := word_bytes (h.fields x hx)
    have k2 := hg.fields x hx
    have hb := (hasBytes_bound k1).1
    have e : i = x.2.2 - base + (base + i - x.2.2) := by omega
    rw [e, hasBytes_get k1 _ (by rw [le32_length]; omega), hasBytes_get k2 _ (by rw [le32_length]; omega)]

end Verif.DlSym
