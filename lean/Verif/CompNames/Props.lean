import Verif.CompNames.Lemmas
/-! C77: the `component-name` section. -/
namespace Verif.CompNames
open Verif.Reader Verif.Leb Verif.Items Verif.Framing Spec
open Verif.Custom hiding Sub

/-- What can be read is exactly what the grammar allows. -/
theorem names_exact (r : Reader) (l : List Sub) :
    SectionSays r l ↔ Seq (InSub IsSub) l r.rest := subs_iff from_iff r l

/-- What is written is read back. -/
theorem names_written {l : List Sub} {b : List UInt8} (h : ∀ x ∈ l, x.Fits)
    (hb : Enc.encodeAll Sub.build l = some b) (off : Nat) : SectionSays (Reader.new b off) l :=
  (names_exact _ _).2 (by
    have e : (Reader.new b off).rest = b := by simp [Reader.rest, Reader.new]
    rw [e]
    exact build_all h hb)

/-- Re-encoding keeps what a section says, and names follow the items they name, if there are no
names of unknown sorts. Missing for `ReencodeKeeps`: `Unknown` does not have the sort. -/
theorem reencode_keeps_partial {m : Maps} {r : Reader} {b : List UInt8} (hb : reencode m r = some b) :
    ∃ l, SectionSays r l ∧ ((∀ d, Sub.other 1 d ∉ l) →
      ∀ off, SectionSays (Reader.new b off) (l.map (Sub.rename m))) := by
  unfold reencode at hb
  cases hs : subsections r with
  | error e => rw [hs] at hb; cases hb
  | ok xs =>
    rw [hs] at hb
    obtain ⟨l, hl⟩ := reencodeAll_some hb
    refine ⟨l, ⟨xs, hs, hl⟩, fun hn off => ?_⟩
    have hb : Enc.encodeAll (reencodeSub m) xs = some b := hb
    rw [reencodeAll_eq hl] at hb
    refine names_written (fun x hx => ?_) hb off
    obtain ⟨y, hy, rfl⟩ := List.mem_map.1 hx
    exact rename_fits (seq_fits ((names_exact r l).1 ⟨xs, hs, hl⟩)
      (fun x hx d e => hn d (e ▸ hx)) y hy)

/-- What a section says is unique. -/
theorem says_det {r : Reader} {l l' : List Sub} (h : SectionSays r l) (h' : SectionSays r l') :
    l = l' := by
  obtain ⟨xs, h1, h2⟩ := h
  obtain ⟨ys, h3, h4⟩ := h'
  rw [h1] at h3
  cases h3
  refine Names.forall₂_unique (fun a b b' g g' => ?_) h2 h4
  cases a <;> cases b <;> try exact g.elim
  all_goals cases b' <;> try exact g'.elim
  · cases g; cases g'; rfl
  · obtain ⟨rfl, g⟩ := g
    obtain ⟨rfl, g'⟩ := g'
    rw [Names.entries_unique g g']
  · obtain ⟨rfl, rfl⟩ := g
    obtain ⟨rfl, rfl⟩ := g'
    rfl

/-- All indices stay the same. -/
def same : Maps := ⟨id, id, id, id, id, id, id, id, id, id, id, id, id⟩

/-- Names of a sort 6, the first of which is that of item 0 and empty: re-encoded they are names of
functions. -/
def exSort : List UInt8 := [1, 5, 6, 1, 1, 0, 0]

theorem reencode_keeps_fails : ¬ ReencodeKeeps := by
  intro h
  have h1 : SectionSays (Reader.new exSort 0) [.other 1 [1, 1, 0, 0]] :=
    ⟨[.unknown 1 [1, 1, 0, 0] (3, 7)], by decide +kernel, .cons ⟨rfl, rfl⟩ .nil⟩
  have h2 : reencode same (Reader.new exSort 0) = some [1, 4, 1, 1, 0, 0] := by decide +kernel
  have h3 := h same _ _ _ 0 h1 h2
  have h4 : SectionSays (Reader.new [1, 4, 1, 1, 0, 0] 0) [.names .funcs [(0, [])]] :=
    names_written (by simp [Sub.Fits]; decide +kernel) (by decide +kernel) 0
  have := says_det h3 h4
  simp [Sub.rename] at this

/-! ### Examples -/

def exNames : List Sub :=
  [.component "c".toUTF8.toList, .names .coreModules [(2, "m".toUTF8.toList)],
   .names .values [(300, "v".toUTF8.toList), (1, [])], .other 9 [7]]

def exBytes : List UInt8 :=
  [0, 2, 1, 0x63, 1, 6, 0, 0x11, 1, 2, 1, 0x6D, 1, 8, 2, 2, 0xAC, 2, 1, 0x76, 1, 0, 9, 1, 7]

example : Enc.encodeAll Sub.build exNames = some exBytes := by decide +kernel

example : ∀ x ∈ exNames, x.Fits := by
  intro x hx
  simp only [exNames, List.mem_cons, List.not_mem_nil, or_false] at hx
  rcases hx with rfl | rfl | rfl | rfl
  · show validUtf8 _ = true; decide +kernel
  · exact ⟨by decide, by simp; decide +kernel⟩
  · exact ⟨by decide, by simp; exact ⟨by decide +kernel, by decide +kernel⟩⟩
  · exact ⟨by decide, by decide, by decide⟩

example : reencode { same with module := (· + 1) } (Reader.new exBytes 0) = some
    [0, 2, 1, 0x63, 1, 6, 0, 0x11, 1, 3, 1, 0x6D, 1, 8, 2, 2, 0xAC, 2, 1, 0x76, 1, 0, 9, 1, 7] := by
  decide +kernel

example : ∀ d, Sub.other 1 d ∉ exNames := by simp [exNames]

end Verif.CompNames
