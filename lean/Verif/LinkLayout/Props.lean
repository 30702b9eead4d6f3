import Verif.LinkLayout.Lemmas
namespace Verif.LinkLayout
open Spec

/-- C86, for builds with overflow checks: if there is no panic then nothing overlaps, everything is
aligned and in bounds. Missing: builds without, for which it is false (`laid_out_fails`). The lookup table of
`dlopen` is never empty (`dl_not_empty`). -/
theorem laid_out_partial (stackSize dlLength dlFunctions : Nat) (libs : List Lib) (envExports : Nat)
    (L : Layout) (hd : 0 < dlLength)
    (h : makeEnv true stackSize dlLength dlFunctions libs envExports = .ok L) :
    LaidOut stackSize dlLength dlFunctions libs envExports L := by
  unfold makeEnv at h
  obtain ⟨t, ht, h⟩ := bind_ok h
  obtain ⟨len, hlen, h⟩ := bind_ok h
  obtain ⟨m, hm, h⟩ := bind_ok h
  obtain ⟨⟨tls, m1⟩, htls, h⟩ := bind_ok h
  obtain ⟨⟨placed, m2, t2⟩, hpl, h⟩ := bind_ok h
  obtain ⟨hbase, hhb, h⟩ := bind_ok h
  obtain ⟨hend, hhe, h⟩ := bind_ok h
  obtain ⟨⟨cs, t3⟩, hcs, h⟩ := bind_ok h
  cases h
  obtain ⟨-, rfl⟩ := u32_ok ht
  obtain ⟨-, rfl⟩ := tryFrom_ok hlen
  obtain ⟨-, rfl⟩ := u32_ok hm
  obtain ⟨w1, htr⟩ := tlsNew_ok _ _ _ _ htls (by omega)
  obtain ⟨w2, w3, hl, hal⟩ := placeLibs_ok _ _ _ _ _ _ hpl
  obtain ⟨a1, a2⟩ := align_ok (by decide) hhb
  obtain ⟨b1, b2⟩ := align_ok (by decide) hhe
  obtain ⟨rfl, rfl⟩ := calls_ok _ _ _ _ hcs
  have he : hend / 65536 * 65536 = hend := by omega
  refine ⟨?_, ?_, hl, hal, ⟨a2, he.symm⟩, htr, rfl⟩
  · refine Within.separate (lo := 0) ?_
    refine ⟨Nat.le_refl _, ?_, ?_⟩
    · simp
    · refine w1.append (w2.append ⟨a1, ?_⟩)
      simp only [Within, he]
      omega
  · refine Within.separate (lo := 0) ?_
    refine ⟨Nat.le_refl _, Nat.le_refl _, ?_⟩
    exact w3.append ⟨Nat.le_refl _, Nat.le_refl _⟩

/-- The lookup table has at least the count and the pointer. -/
theorem dl_not_empty (tableBase memoryBase : Nat) (le : DlTable.Name → DlTable.Name → Bool)
    (libs : List DlTable.Lib) : 0 < (DlTable.new tableBase memoryBase le libs).buffer.length := by
  simp [DlTable.new, DlTable.newWith, DlTable.le32]

/-- C86: without overflow checks the result is the same whenever the checks would not fail. -/
theorem laid_out_unchecked_partial (stackSize dlLength dlFunctions : Nat) (libs : List Lib)
    (envExports : Nat) (L : Layout)
    (h : makeEnv true stackSize dlLength dlFunctions libs envExports = .ok L) :
    makeEnv false stackSize dlLength dlFunctions libs envExports = .ok L :=
  bind_same (u32_same _) (fun _ => bind_same (fun _ h => h) fun _ => bind_same (u32_same _) fun _ =>
    bind_same (tlsNew_same _ _) fun _ => bind_same (placeLibs_same _ _ _) fun _ =>
    bind_same (align_same _ _) fun _ => bind_same (align_same _ _) fun _ =>
    bind_same (calls_same _ _) fun _ h => h) h

/-- Two libraries that ask for 2 GiB each and for no alignment. -/
def big : List Lib := [{ memorySize := 2147483648 }, { memorySize := 2147483648 }]

/-- A library that asks for an alignment of 2 ^ 33. -/
def wide : List Lib := [{ memorySize := 4, memoryAlignment := 33 }]

def bigLayout : Layout :=
  { dlMemory := 65536, dlTable := 1, tls := {}, libs := [(65544, 1), (2147549192, 1)],
    heapBase := 65552, heapEnd := 131072, memorySize := 2, indirectionTableBase := 1, calls := [],
    tableSize := 1 }

theorem big_layout : makeEnv false 65536 8 0 big 0 = .ok bigLayout := by rfl

/-- C86 is false for builds without overflow checks: two libraries of 2 GiB each are accepted with a memory
of two pages, and the heap is inside the first of them. -/
theorem laid_out_fails : ¬ ∀ checks stackSize dlLength dlFunctions libs envExports L, 0 < dlLength →
    makeEnv checks stackSize dlLength dlFunctions libs envExports = .ok L →
    LaidOut stackSize dlLength dlFunctions libs envExports L := by
  intro h
  have := (h false 65536 8 0 big 0 bigLayout (by decide) big_layout).memory.2 (65544, 2147483648)
    (by simp [memoryRegions, tlsRegions, big, bigLayout])
  simp [bigLayout] at this

/-- With overflow checks both panic. -/
example : makeEnv true 65536 8 0 big 0 = .error .overflow := by rfl
example : makeEnv true 65536 8 0 wide 0 = .error .overflow := by rfl

/-- Three libraries, two of which have thread-local storage. -/
def exLibs : List Lib :=
  [{ memorySize := 10, memoryAlignment := 4, tableSize := 3, tableAlignment := 0,
     hasLibraryTlsInfo := true, needsGetTlsBase := true },
   { memorySize := 5, memoryAlignment := 0, tableSize := 1, tableAlignment := 3 },
   { memorySize := 100, memoryAlignment := 3, hasLibraryTlsInfo := true,
     needsProgramTlsInfo := true }]

def exLayout : Layout :=
  { dlMemory := 1000, dlTable := 1,
    tls := ⟨1032, 1040, 1048, [some 0, none, some 1], [2, 1040, 1032]⟩,
    libs := [(1072, 5), (1082, 8), (1088, 9)], heapBase := 1200, heapEnd := 65536, memorySize := 1,
    indirectionTableBase := 9, calls := [9, 10], tableSize := 11 }

example : makeEnv true 1000 30 4 exLibs 2 = .ok exLayout := by rfl

example : makeEnv false 1000 30 4 exLibs 2 = .ok exLayout :=
  laid_out_unchecked_partial 1000 30 4 exLibs 2 exLayout (by rfl)

example : LaidOut 1000 30 4 exLibs 2 exLayout :=
  laid_out_partial 1000 30 4 exLibs 2 exLayout (by decide) (by rfl)

end Verif.LinkLayout
