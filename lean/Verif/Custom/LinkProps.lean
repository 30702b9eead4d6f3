import Verif.Custom.LinkWrite
/-! C68: branch hints, the sections of object files. -/
namespace Verif.Custom
open Verif.Reader Verif.Leb Verif.Items Verif.Framing

/-! ### What can be read is exactly what the grammars allow -/

theorem hints_read (r : Reader) (l : List (BitVec 32 × List Hint)) :
    hintsRead r l ↔ Vec IsHints l r.rest := collect_iff exactR_hints r l

theorem linking_read (r : Reader) (l : List Sub) : linkingRead r l ↔ IsLinking l r.rest := by
  unfold linkingRead
  constructor
  · rintro ⟨r', ls, h1, h2, h3⟩
    obtain ⟨b, t, e, hb, rfl⟩ := readLinking_iff.1 h1
    have := (subs_iff payload_iff _ l).1 ⟨ls, h2, h3⟩
    rw [Reader.rest_advance, e, List.drop_left] at this
    rw [e]
    exact .mk hb this
  · intro h
    generalize hr : r.rest = b at h
    cases h with
    | @mk _ b1 b2 h1 h2 =>
      obtain ⟨ls, h3, h4⟩ := (subs_iff payload_iff (r.advance b1.length) l).2
        (by rwa [Reader.rest_advance, hr, List.drop_left])
      exact ⟨_, ls, readLinking_iff.2 ⟨b1, b2, hr, h1, rfl⟩, h3, h4⟩

theorem relocs_read (r : Reader) (x : BitVec 32 × List Reloc) :
    relocsRead r x ↔ IsRelocs x r.rest := by
  unfold relocsRead readRelocs
  constructor
  · rintro ⟨s, h1, h2⟩
    cases h3 : readVarU32 r with
    | error e => simp [h3] at h1
    | ok q =>
      obtain ⟨v, r'⟩ := q
      simp only [h3] at h1
      obtain ⟨s', h4, h5⟩ := map_ok.1 h1
      cases h5
      obtain ⟨b, t, e, hb, rfl⟩ := (Exact.u32 _ _ _).1 h3
      have := (collect_eq exact_reloc _ x.2).1 ⟨_, h4, h2⟩
      rw [Reader.rest_advance, e, List.drop_left] at this
      rw [e]
      exact .mk hb this
  · intro h
    generalize hr : r.rest = b at h
    cases h with
    | @mk _ b1 b2 h1 h2 =>
      obtain ⟨s, h3, h4⟩ := (collect_eq exact_reloc (r.advance b1.length) x.2).2
        (by rwa [Reader.rest_advance, hr, List.drop_left])
      refine ⟨s, ?_, h4⟩
      rw [(Exact.u32 r x.1 _).2 ⟨b1, b2, hr, h1, rfl⟩]
      simp [h3, Except.map]

/-- Every type of relocation is in the table; it covers as many bytes as its number has. -/
theorem reloc_extent (ty : RelocType) : ∃ e ∈ relocTable, e.1 = ty ∧ ty.extent = e.2.2.size := by
  cases ty <;> decide +kernel

/-! ### What the builders write is read back -/

theorem hints_written {l : List (BitVec 32 × List Hint)} (hl : l.length < 2 ^ 32)
    (h : ∀ f ∈ l, f.2.length < 2 ^ 32) :
    ∃ b, calls addHints (l.map hintsArgs) = some b ∧
      ∀ off, hintsRead (Reader.new (countedData b) off) l := by
  obtain ⟨b, h1, h2⟩ := calls_vec (add := fun b f => addHints b (hintsArgs f)) (G := IsHints)
    (fun b f => addHints_eq b (hintsArgs f)) hl fun f hf => writes_hints (h f hf)
  refine ⟨b, ?_, fun _ => (hints_read _ _).2 h2⟩
  rw [← h1]
  unfold calls
  rw [List.foldlM_map]

theorem linking_written {tables : List (List Symbol)} {d : List UInt8}
    (h : ∀ t ∈ tables, t.length < 2 ^ 32 ∧ ∀ s ∈ t, s.Fits) (hd : buildLinking tables = some d)
    (off : Nat) : linkingRead (Reader.new d off) (tables.map .symbols) :=
  (linking_read _ _).2 (writes_linking h hd)

/-! ### Examples -/

example : hintsRead (Reader.new [2, 3, 1, 9, 1, 1, 4, 0] 0) [(3, [⟨9, true⟩]), (4, [])] := by
  rw [hints_read]
  refine ⟨[2], [[3, 1, 9, 1, 1], [4, 0]], rfl, .last (by decide) (by decide), .cons ?_ (.cons ?_ .nil)⟩
  · exact .mk (b1 := [3]) (b2 := [1, 9, 1, 1]) (.last (by decide) (by decide))
      ⟨[1], [[9, 1, 1]], rfl, .last (by decide) (by decide),
        .cons (.mk (b := [9]) (.last (by decide) (by decide))) .nil⟩
  · exact .mk (b1 := [4]) (b2 := [0]) (.last (by decide) (by decide))
      ⟨[0], [], rfl, .last (by decide) (by decide), .nil⟩

example : readReloc (Reader.new [3, 0x10, 1, 0x7F] 0) =
      .ok (⟨.memoryAddrLeb, 16, 1, -1⟩, ⟨[3, 0x10, 1, 0x7F], 4, 0⟩) ∧
    (⟨.memoryAddrLeb, 16, 1, -1⟩ : Reloc).range = (16, 21) := by decide +kernel

/-- Hints are 0 or 1: the builder takes other numbers, but such a section cannot be read. -/
example : (do let b ← calls addHints [(0, [(5, 2)])]; pure (SectionLimited.collect readHintFunction
      ⟨⟨b.bytes, 0, 0⟩, b.numAdded⟩)) =
    some (.error (.msg "invalid leading byte for invalid branch hint taken byte" 4)) := by
  decide +kernel

/-- A function that is defined here, one that is imported, a datum. -/
def exTable : List Symbol :=
  [.indexed .func 0 1 (some "f".toUTF8.toList), .indexed .func 0x10 0 none,
   .data 0x100 "d".toUTF8.toList (some ⟨0, 4, 8⟩)]

example : ∀ s ∈ exTable, s.Fits := by
  intro s hs
  simp only [exTable, List.mem_cons, List.not_mem_nil, or_false] at hs
  rcases hs with rfl | rfl | rfl
  · refine ⟨by simp, ?_, ?_⟩
    · simp [Named, Defined]
    · intro n hn; cases hn; exact ⟨by decide +kernel, by decide +kernel⟩
  · refine ⟨by simp, ?_, by simp⟩
    simp [Named, Defined]; decide
  · refine ⟨⟨by decide +kernel, by decide +kernel⟩, ?_⟩
    simp [Defined]; decide

example : buildLinking [exTable] = some [2, 8, 17, 3, 0, 0, 1, 1, 0x66, 0, 0x10, 0,
    1, 0x80, 2, 1, 0x64, 0, 4, 8] := by decide +kernel

end Verif.Custom
