import Verif.DlSym.Init
/-! `dlopen` and `dlsym` find the symbols of the linked libraries, if no tags are exported. -/
namespace Verif.DlSym
open DlTable DlTable.Spec Spec

/-- `dlsym` in a library of the table. -/
theorem dlsym_ok {tableBase memoryBase : Nat} {init : Name → Name → Nat} {libs : List Lib} {t : Table}
    {p : Nat} {l : Lib} (h0 : p ≠ 0) (h1 : p ≠ 4294967295)
    (hv : validHandle t.buffer memoryBase t.librariesAddress p = some true)
    (hl : IsLibrary tableBase memoryBase init lexLe libs t p l) (s : Name) :
    Resolved tableBase init libs l s (dlsym t.buffer memoryBase t.librariesAddress p s) := by
  obtain ⟨-, xs, a, hp, hs, hc, ha, hx⟩ := hl
  obtain ⟨r, hr, r1, r2⟩ := array_search (size := 12) hs (fun i x h => (hx i x h).1) s
  unfold dlsym
  rw [if_neg (by omega), hv]
  simp only [Option.bind_eq_bind, Option.bind_some, if_true, readWord_of hc,
    show p + 12 = p + 8 + 4 from rfl, readWord_of ha, hr]
  cases r with
  | none =>
    intro e he hk
    exact r2 rfl e (hp.mem_iff.2 (List.mem_filter.2 ⟨he, by simpa using hk⟩))
  | some i =>
    obtain ⟨e, he, hn⟩ := r1 i rfl
    have hmem := (List.mem_filter.1 (hp.mem_iff.1 (List.mem_of_getElem? he))).1
    have hsym := (hx i e he).2
    cases hk : e.kind with
    | function =>
      rw [hk] at hsym
      obtain ⟨k, hw, hf⟩ := hsym
      simp only [readWord_of hw, Option.bind_some]
      refine ⟨e, hmem, hn, ?_⟩
      unfold IsAddress
      rw [hk]
      exact ⟨k, rfl, hf⟩
    | global =>
      rw [hk] at hsym
      obtain ⟨hw, -⟩ := hsym
      simp only [readWord_of hw, Option.bind_some]
      refine ⟨e, hmem, hn, ?_⟩
      unfold IsAddress
      rw [hk]
    | tag => rw [hk] at hsym; exact hsym.elim

/-- C87, **`dlopen` finds exactly the libraries that can be opened and `dlsym` exactly their functions and
variables**, without reading outside of the table. Missing: libraries that export tags (`found_fails`). -/
theorem found_partial (tableBase memoryBase : Nat) (init : Name → Name → Nat) (libs : List Lib)
    (hm : 0 < memoryBase)
    (hfit : FitsIn tableBase memoryBase (new tableBase memoryBase lexLe libs))
    (hinit : ∀ l n, init l n < 2 ^ 32)
    (htag : ∀ l ∈ libs, l.dlOpenable = true → ∀ e ∈ l.exports, e.kind ≠ .tag)
    (m : List UInt8) (hi : Initialised memoryBase init (new tableBase memoryBase lexLe libs) m)
    (name : Name) (flags : BitVec 32) (hflags : Supported flags) :
    Opened tableBase memoryBase init libs (new tableBase memoryBase lexLe libs) m name
      (dlopen m memoryBase (new tableBase memoryBase lexLe libs).librariesAddress name flags) := by
  obtain ⟨e1, e2, e3⟩ := initialised_eq hi
  have hfit : FitsIn tableBase memoryBase (newWith tableBase memoryBase init lexLe libs) := by
    unfold FitsIn at hfit ⊢
    rw [← e1, e3, hi.length]
    exact hfit
  have hf := faithful_with tableBase memoryBase init hinit lexLe libs lexTotal hfit htag
  unfold Opened
  rw [← e2, e1]
  generalize newWith tableBase memoryBase init lexLe libs = t at *
  obtain ⟨xs, a, hp, hs, hc, ha, hx⟩ := hf
  obtain ⟨r, hr, r1, r2⟩ := array_search (size := 16) hs (fun i x h => (hx i x h).1) name
  unfold dlopen
  rw [if_neg (supported_ok hflags)]
  simp only [Option.bind_eq_bind, Option.bind_some, readWord_of hc, readWord_of ha, hr]
  cases r with
  | none =>
    intro l hl ho
    exact r2 rfl l (hp.mem_iff.2 (List.mem_filter.2 ⟨hl, ho⟩))
  | some i =>
    obtain ⟨l, hl, hn⟩ := r1 i rfl
    have hmem := List.mem_filter.1 (hp.mem_iff.1 (List.mem_of_getElem? hl))
    have hb := word_bound (hx i l hl).1.1
    have hfit1 := hfit.1
    refine ⟨by omega, l, hmem.1, hmem.2, hn, dlsym_ok (by omega) (by omega) ?_ (hx i l hl)⟩
    unfold validHandle
    simp only [readWord_of hc, readWord_of ha, Option.bind_eq_bind, Option.bind_some]
    have : (List.range xs.length).any (fun j => a + 16 * j == a + 16 * i) = true :=
      List.any_eq_true.2 ⟨i, List.mem_range.2 (List.getElem?_eq_some_iff.1 hl).1, by simp⟩
    rw [this]
    rfl

theorem tag_table_lex : new 1 1024 lexLe [tagLib] =
    ⟨[65, 0, 0, 0, 66, 0, 0, 0, 1, 0, 0, 0, 0, 4, 0, 0, 1, 0, 0, 0, 8, 4, 0, 0, 1, 0, 0, 0, 8, 4, 0, 0],
      [], 0, 1048⟩ := by
  have h1 : addLibs 1 1024 (fun _ _ => 0) lexLe ([tagLib].filter (·.dlOpenable)) {} =
      ([⟨tagLib, 1024, 1032⟩], ⟨[65, 0, 0, 0, 66, 0, 0, 0], [], 0⟩) := by
    simp [addLibs, addLib, addNames, writeSyms, tagLib, padded, List.mergeSort]
  unfold new newWith
  simp only [h1, List.mergeSort]
  decide

/-- C87 is false for libraries that export tags: the library `A` exports the tag `B` only, yet `dlsym` finds
`A` in it, which is function 1 of the table. -/
theorem found_fails : ¬ Right := by
  intro h
  have h := h 1 1024 (fun _ _ => 0) [tagLib] (by decide)
    (by rw [tag_table_lex]; unfold FitsIn; decide) (by intros; decide) _
    ⟨rfl, by rw [tag_table_lex]; simp, fun _ _ => rfl⟩ [65] 0#32 (by intro i hi; simp at hi)
  rw [tag_table_lex] at h
  have e1 : dlopen [65, 0, 0, 0, 66, 0, 0, 0, 1, 0, 0, 0, 0, 4, 0, 0, 1, 0, 0, 0, 8, 4, 0, 0, 1, 0, 0, 0,
      8, 4, 0, 0] 1024 1048 [65] 0#32 = some (.ok 1032) := by
    simp [dlopen, binarySearch, searchLoop_one, searchLoop_two, readWord, readName, readBytes, cmp, lexLe]
  rw [e1] at h
  obtain ⟨-, l, hl, -, -, h⟩ := h
  have h := h [65]
  have e2 : dlsym [65, 0, 0, 0, 66, 0, 0, 0, 1, 0, 0, 0, 0, 4, 0, 0, 1, 0, 0, 0, 8, 4, 0, 0, 1, 0, 0, 0,
      8, 4, 0, 0] 1024 1048 1032 [65] = some (.ok 1) := by
    simp [dlsym, validHandle, binarySearch, searchLoop_one, searchLoop_two, readWord, readName, readBytes, cmp, lexLe,
      List.range, List.range.loop]
  simp only [e2] at h
  obtain ⟨e, he, hn, -⟩ := h
  have hl : l = tagLib := by simpa using hl
  subst hl
  have he : e = ⟨[66], .tag⟩ := by simpa [tagLib] using he
  subst he
  exact absurd hn (by decide)

/-- A table with a library `A` that has the function `BB` and the variable `C`. -/
def exBuffer : List UInt8 :=
  [65, 0, 0, 0, 66, 66, 0, 0, 67, 0, 0, 0, 2, 0, 0, 0, 4, 4, 0, 0, 1, 0, 0, 0, 1, 0, 0, 0, 8, 4, 0, 0,
    0, 0, 0, 0, 1, 0, 0, 0, 0, 4, 0, 0, 2, 0, 0, 0, 12, 4, 0, 0, 1, 0, 0, 0, 36, 4, 0, 0]

theorem ex_table_lex : new 1 1024 lexLe exLibs = ⟨exBuffer, [([65], [67], 1056)], 1, 1076⟩ := by
  have h1 : addLibs 1 1024 (fun _ _ => 0) lexLe (exLibs.filter (·.dlOpenable)) {} =
      ([⟨⟨[65], [⟨[66, 66], .function⟩, ⟨[67], .global⟩], true⟩, 1024, 1036⟩],
        ⟨[65, 0, 0, 0, 66, 66, 0, 0, 67, 0, 0, 0, 2, 0, 0, 0, 4, 4, 0, 0, 1, 0, 0, 0, 1, 0, 0, 0,
          8, 4, 0, 0, 0, 0, 0, 0], [([65], [67], 1056)], 1⟩) := by
    simp [addLibs, addLib, addNames, writeSyms, exLibs, padded, List.mergeSort, lexLe,
      List.MergeSort.Internal.splitInTwo, List.merge, le32]
  unfold new newWith
  simp only [h1, List.mergeSort]
  decide

example : dlopen exBuffer 1024 1076 [65] 2#32 = some (.ok 1060) ∧
    dlopen exBuffer 1024 1076 [68] 2#32 = some (.error .libraryNotFound) ∧
    dlopen exBuffer 1024 1076 [65] 4#32 = some (.error .flags) ∧
    dlsym exBuffer 1024 1076 1060 [66, 66] = some (.ok 1) ∧
    dlsym exBuffer 1024 1076 1060 [67] = some (.ok 0) ∧
    dlsym exBuffer 1024 1076 1060 [66] = some (.error .symbolNotFound) ∧
    dlsym exBuffer 1024 1076 1061 [67] = some (.error .invalidHandle) := by
  simp [exBuffer, dlopen, dlsym, validHandle, binarySearch, searchLoop_one, searchLoop_two, readWord, readName, readBytes, cmp,
    lexLe, List.range, List.range.loop]

/-- The table after the variable got the address 5. -/
def exMemory : List UInt8 := exBuffer.set 32 5

example : dlsym exMemory 1024 1076 1060 [67] = some (.ok 5) := by
  simp [exMemory, exBuffer, dlsym, validHandle, binarySearch, searchLoop_one, searchLoop_two, readWord,
    readName, readBytes, cmp, lexLe, List.range, List.range.loop]

theorem exInitialised : Initialised 1024 (fun _ _ => 5) (new 1 1024 lexLe exLibs) exMemory := by
  rw [ex_table_lex]
  refine ⟨by decide, ?_, ?_⟩
  · intro x hx
    have hx : x = ([65], [67], 1056) := by simpa using hx
    subst hx
    exact ⟨5, 0, 0, 0, ⟨exBuffer.take 32, exBuffer.drop 36, by decide, by decide⟩, by decide⟩
  · intro i hi
    have hi := hi ([65], [67], 1056) (by simp)
    simp only [exMemory]
    rw [List.getElem?_set_ne]
    intro h
    subst h
    exact hi (by decide)

example (name : Name) : Opened 1 1024 (fun _ _ => 5) exLibs (new 1 1024 lexLe exLibs) exMemory name
    (dlopen exMemory 1024 (new 1 1024 lexLe exLibs).librariesAddress name 0#32) :=
  found_partial 1 1024 (fun _ _ => 5) exLibs (by decide) (by rw [ex_table_lex]; unfold FitsIn; decide)
    (by intros; decide) (by decide) exMemory exInitialised name 0#32 (by intro i hi; simp at hi)

end Verif.DlSym
