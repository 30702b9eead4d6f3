import Verif.DlTable.Lemmas
/-! The table is as `dlopen` and `dlsym` expect it, if no tags are exported. -/
namespace Verif.DlTable
open Spec

theorem symbol_ok {tableBase memoryBase : Nat} {init : Name → Name → Nat}
    (hi : ∀ l n, init l n < 2 ^ 32) {libs : List Lib} {t : Table} {lib : Name}
    {F : List (Name × Name)} (hF : F = functions libs) (hfit : FitsIn tableBase memoryBase t)
    (hn : t.functions = F.length) {p : Nat} {s : Sym}
    (hg : GoodSym tableBase memoryBase F lib t.buffer s)
    (hr : RawSym memoryBase init lib t.buffer t.globals p s) :
    IsSymbol tableBase memoryBase init libs t lib p s.export_ := by
  obtain ⟨f1, f2⟩ := hfit
  have b1 := hasBytes_bound hg.1
  refine ⟨⟨word_of hr.1 (by omega), s.nameAddress, word_of hr.2.1 (by omega), hg.1⟩, ?_⟩
  have h1 := hg.2
  have h2 := hr.2.2
  cases hk : s.export_.kind with
  | function =>
    rw [hk] at h1
    obtain ⟨k, ha, hf⟩ := h1
    rw [ha] at h2
    have hlt := (List.getElem?_eq_some_iff.1 hf).1
    exact ⟨k, word_of h2 (by omega), by rw [← hF]; exact hf⟩
  | global =>
    rw [hk] at h1
    have h1 : s.address = .global s.export_.name := h1
    rw [h1] at h2
    exact ⟨word_of h2.1 (hi _ _), h2.2⟩
  | tag => rw [hk] at h1; exact h1

/-- The same with `init`. -/
theorem faithful_with (tableBase memoryBase : Nat) (init : Name → Name → Nat)
    (hinit : ∀ l n, init l n < 2 ^ 32) (le : Name → Name → Bool) (libs : List Lib)
    (ht : Total le) (hfit : FitsIn tableBase memoryBase (newWith tableBase memoryBase init le libs))
    (htag : ∀ l ∈ libs, l.dlOpenable = true → ∀ e ∈ l.exports, e.kind ≠ .tag) :
    IsLibraries tableBase memoryBase init le libs (newWith tableBase memoryBase init le libs) := by
  obtain ⟨rs, st, h1, h2, -, -, h5, h6⟩ := addLibs_ok (tableBase := tableBase)
    (memoryBase := memoryBase) (init := init) (le := le) (F := functions libs)
    (libs := libs.filter (·.dlOpenable)) (st := {}) (pre := []) (post := [])
    (by simp [functions, allFuncs, funcs]) rfl
  have hp := List.mergeSort_perm rs fun x y => le x.lib.name y.lib.name
  obtain ⟨w1, w2, w3⟩ := writeLibs_ok (memoryBase := memoryBase)
    (rs := rs.mergeSort fun x y => le x.lib.name y.lib.name) (b := st.buffer)
  have hnew : newWith tableBase memoryBase init le libs =
    { buffer := writeLibs (rs.mergeSort fun x y => le x.lib.name y.lib.name) st.buffer ++
        le32 (rs.mergeSort fun x y => le x.lib.name y.lib.name).length ++
        le32 (memoryBase + st.buffer.length)
      globals := st.globals
      functions := st.functions
      librariesAddress := memoryBase +
        (writeLibs (rs.mergeSort fun x y => le x.lib.name y.lib.name) st.buffer).length } := by
    unfold newWith
    simp only [h1]
  rw [hnew] at hfit ⊢
  generalize hss : (rs.mergeSort fun x y => le x.lib.name y.lib.name) = ss at *
  have hbuf : Ext (writeLibs ss st.buffer) (writeLibs ss st.buffer ++ le32 ss.length ++
      le32 (memoryBase + st.buffer.length)) := ⟨_, List.append_assoc ..⟩
  have hlen : (writeLibs ss st.buffer ++ le32 ss.length ++
      le32 (memoryBase + st.buffer.length)).length = st.buffer.length + 16 * ss.length + 8 := by
    simp [le32_length, w2]
  generalize hT : Table.mk (writeLibs ss st.buffer ++ le32 ss.length ++
      le32 (memoryBase + st.buffer.length)) st.globals st.functions
      (memoryBase + (writeLibs ss st.buffer).length) = t at *
  have tb : t.buffer = writeLibs ss st.buffer ++ le32 ss.length ++
      le32 (memoryBase + st.buffer.length) := by rw [← hT]
  have tg : t.globals = st.globals := by rw [← hT]
  have tf : t.functions = st.functions := by rw [← hT]
  have ta : t.librariesAddress = memoryBase + (writeLibs ss st.buffer).length := by rw [← hT]
  rw [← tb] at hbuf hlen
  have hfit' := hfit
  obtain ⟨f1, f2⟩ := hfit
  have hfun : t.functions = (functions libs).length := by
    rw [tf, h5]
    simp [functions, allFuncs, funcs]
  refine ⟨ss.map (·.lib), memoryBase + st.buffer.length, ?_, ?_, ?_, ?_, ?_⟩
  · rw [← h2]
    exact hp.map _
  · rw [List.pairwise_map, ← hss]
    exact List.pairwise_mergeSort (le := fun x y : Rec => le x.lib.name y.lib.name)
      (fun a b c => ht.trans _ _ _)
      (fun a b => by simpa using ht.total a.lib.name b.lib.name) rs
  · rw [List.length_map, ta, tb]
    exact word_of ((hasBytes_end _ _ _).mono _) (by omega)
  · rw [ta, tb]
    refine word_of ?_ (by omega)
    have := hasBytes_end (writeLibs ss st.buffer ++ le32 ss.length) memoryBase
      (le32 (memoryBase + st.buffer.length))
    rw [List.length_append, le32_length, ← Nat.add_assoc] at this
    exact this
  · intro i l hi
    rw [List.getElem?_map] at hi
    obtain ⟨r, hr, rfl⟩ := Option.map_eq_some_iff.1 hi
    obtain ⟨r1, r2, r3, r4⟩ := w3 i r hr
    have hmem : r ∈ rs := hp.mem_iff.1 (List.mem_of_getElem? hr)
    have hgood := (h6 r hmem).ext (w1.trans hbuf) (fun _ h => h)
    rw [← tg] at hgood
    obtain ⟨g1, xs, g2, g3, g4, g5, g6⟩ := hgood
    have b1 := hasBytes_bound g1
    have hlib : r.lib ∈ libs.filter (·.dlOpenable) := by
      rw [← h2]
      exact List.mem_map.2 ⟨r, hmem, rfl⟩
    have hall : r.lib.exports.filter (·.kind ≠ .tag) = r.lib.exports := by
      rw [List.filter_eq_self]
      intro e he
      have := htag r.lib (List.mem_filter.1 hlib).1 (List.mem_filter.1 hlib).2 e he
      simpa using this
    have hcount : r.lib.exports.length = xs.length := by
      have := g2.length_eq
      rw [hall, List.length_map] at this
      exact this.symm
    refine ⟨⟨word_of (r1.ext hbuf) (by omega), r.nameAddress, word_of (r2.ext hbuf) (by omega), g1⟩,
      xs.map (·.export_), r.symbols, g2, ?_, ?_, ?_, ?_⟩
    · rw [List.pairwise_map]
      exact g3 ht
    · rw [List.length_map, ← hcount]
      exact word_of (r3.ext hbuf) (by omega)
    · exact word_of (r4.ext hbuf) (by omega)
    · intro j e hj
      rw [List.getElem?_map] at hj
      obtain ⟨s, hs, rfl⟩ := Option.map_eq_some_iff.1 hj
      exact symbol_ok hinit rfl hfit' hfun (g5 s (List.mem_of_getElem? hs)) (g6 j s hs)

/-- **The table has every library that can be opened and every symbol of it, sorted by name, with its
place in the table of functions or in the list of variables**, where `dlopen` and `dlsym` look.
Missing: libraries that export tags (`faithful_fails`). -/
theorem faithful_partial (tableBase memoryBase : Nat) (le : Name → Name → Bool) (libs : List Lib)
    (ht : Total le) (hfit : FitsIn tableBase memoryBase (new tableBase memoryBase le libs))
    (htag : ∀ l ∈ libs, l.dlOpenable = true → ∀ e ∈ l.exports, e.kind ≠ .tag) :
    IsLibraries tableBase memoryBase (fun _ _ => 0) le libs (new tableBase memoryBase le libs) :=
  faithful_with tableBase memoryBase (fun _ _ => 0) (by intros; decide) le libs ht hfit htag

/-- Names by length. -/
def exLe (a b : Name) : Bool := decide (a.length ≤ b.length)

theorem exTotal : Total exLe where
  total a b := by simp only [exLe, decide_eq_true_eq]; omega
  trans a b c := by simp only [exLe, decide_eq_true_eq]; omega

/-- A library that exports a tag only. -/
def tagLib : Lib := ⟨[65], [⟨[66], .tag⟩], true⟩

theorem tag_table : new 1 1024 exLe [tagLib] =
    ⟨[65, 0, 0, 0, 66, 0, 0, 0, 1, 0, 0, 0, 0, 4, 0, 0, 1, 0, 0, 0, 8, 4, 0, 0, 1, 0, 0, 0, 8, 4, 0, 0],
      [], 0, 1048⟩ := by
  have h1 : addLibs 1 1024 (fun _ _ => 0) exLe ([tagLib].filter (·.dlOpenable)) {} =
      ([⟨tagLib, 1024, 1032⟩], ⟨[65, 0, 0, 0, 66, 0, 0, 0], [], 0⟩) := by
    simp [addLibs, addLib, addNames, writeSyms, tagLib, padded, List.mergeSort]
  unfold new newWith
  simp only [h1, List.mergeSort]
  decide

/-- **Libraries that export tags have more symbols in their count than in the table.** -/
theorem faithful_fails : ¬ Faithful := by
  intro h
  have h' := h 1 1024 exLe [tagLib] exTotal (by rw [tag_table]; unfold FitsIn; decide)
  rw [tag_table] at h'
  obtain ⟨xs, a, h1, -, -, h4, h5⟩ := h'
  have hx : xs = [tagLib] := List.perm_singleton.1 (by simpa [tagLib] using h1)
  subst hx
  have ha : a = 1032 := word_det h4 (word_of (v := 1032)
    ⟨[65, 0, 0, 0, 66, 0, 0, 0, 1, 0, 0, 0, 0, 4, 0, 0, 1, 0, 0, 0, 8, 4, 0, 0, 1, 0, 0, 0], [],
      by decide, by decide⟩ (by decide))
  subst ha
  obtain ⟨-, ys, b, k1, -, k3, -⟩ := h5 0 tagLib rfl
  have hy : ys = [] := by simpa [tagLib] using k1
  subst hy
  have := word_det k3 (word_of (v := 1)
    ⟨[65, 0, 0, 0, 66, 0, 0, 0, 1, 0, 0, 0, 0, 4, 0, 0], [8, 4, 0, 0, 1, 0, 0, 0, 8, 4, 0, 0],
      by decide, by decide⟩ (by decide))
  cases this

/-- A library with a function and a variable, and one that cannot be opened. -/
def exLibs : List Lib := [⟨[65], [⟨[66, 66], .function⟩, ⟨[67], .global⟩], true⟩,
  ⟨[68], [⟨[69], .tag⟩], false⟩]

/-- The variable comes first, since its name is shorter. -/
theorem ex_table : new 1 1024 exLe exLibs =
    ⟨[65, 0, 0, 0, 66, 66, 0, 0, 67, 0, 0, 0, 1, 0, 0, 0, 8, 4, 0, 0, 0, 0, 0, 0, 2, 0, 0, 0, 4, 4, 0, 0,
      1, 0, 0, 0, 1, 0, 0, 0, 0, 4, 0, 0, 2, 0, 0, 0, 12, 4, 0, 0, 1, 0, 0, 0, 36, 4, 0, 0],
      [([65], [67], 1044)], 1, 1076⟩ := by
  have h1 : addLibs 1 1024 (fun _ _ => 0) exLe (exLibs.filter (·.dlOpenable)) {} =
      ([⟨⟨[65], [⟨[66, 66], .function⟩, ⟨[67], .global⟩], true⟩, 1024, 1036⟩],
        ⟨[65, 0, 0, 0, 66, 66, 0, 0, 67, 0, 0, 0, 1, 0, 0, 0, 8, 4, 0, 0, 0, 0, 0, 0, 2, 0, 0, 0,
          4, 4, 0, 0, 1, 0, 0, 0], [([65], [67], 1044)], 1⟩) := by
    simp [addLibs, addLib, addNames, writeSyms, exLibs, padded, List.mergeSort, exLe,
      List.MergeSort.Internal.splitInTwo, List.merge, le32]
  unfold new newWith
  simp only [h1, List.mergeSort]
  decide

example : IsLibraries 1 1024 (fun _ _ => 0) exLe exLibs (new 1 1024 exLe exLibs) :=
  faithful_partial 1 1024 exLe exLibs exTotal (by rw [ex_table]; unfold FitsIn; decide) (by decide)

end Verif.DlTable
