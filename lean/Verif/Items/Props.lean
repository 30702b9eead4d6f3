import Verif.Items.Codec2
import Verif.Framing.Props
/-!
# C48: the items of sections after a round trip
-/
namespace Verif.Items
open Verif.Reader Verif.Leb Verif.Parser Verif.Framing Spec

/-! ### An example -/

def sampleFeats : Feats := ⟨⟨true, true, true, true⟩, true⟩

instance (s : List UInt8) : Decidable (StrFits s) := inferInstanceAs (Decidable (_ ∧ _))

instance (e : Types.Enc.RefType) : Decidable (RefFits e) :=
  inferInstanceAs (Decidable e.heapType.denote.Fits)

/-- `global.get 0; i32.const 300; i32.add`, without `end`. -/
def sampleInit : Enc.ConstExpr := ⟨[0x23, 0, 0x41, 0xAC, 0x02, 0x6A]⟩

theorem sampleInit_fits (f : Instr.Features) : ConstFits f sampleInit := by
  refine ⟨[.idx .globalGet 0, .i32Const 300, .plain .i32Add], by decide +kernel, ?_,
    .other (.other (.other .nil)), by decide⟩
  intro i hi
  simp only [List.mem_cons, List.not_mem_nil, or_false] at hi
  rcases hi with rfl | rfl | rfl <;> exact True.intro

def sampleTable : Enc.TableType := ⟨⟨false, .concrete 2⟩, true, 0x100000000, some 0x100000005, true⟩

def sampleMemory : Enc.MemoryType := ⟨1, some 200, false, true, some 0⟩

def sampleGlobal : Enc.GlobalType := ⟨.i32, true, false⟩

/-- A section of every kind but types (see `Types.sampleGroup` for these). -/
def sampleSections : List Enc.Section :=
  [.imports [.single [0x65] [] (.functionExact 7), .compact1 [0x6D] [⟨[0x61], .tag ⟨4⟩⟩, ⟨[], .memory sampleMemory⟩],
    .compact2 [0xC3, 0xA9] (.global sampleGlobal) [[0x78], [0x79]]],
   .functions [0, 300],
   .tables [⟨sampleTable, none⟩, ⟨sampleTable, some sampleInit⟩],
   .memories [sampleMemory],
   .tags [⟨1⟩],
   .globals [⟨sampleGlobal, sampleInit⟩],
   .exports [⟨[0x66], .func, 3⟩, ⟨[], .tag, 0⟩],
   .elements [⟨.active none sampleInit, .functions [1, 2]⟩,
    ⟨.active none sampleInit, .expressions ⟨false, .concrete 2⟩ [sampleInit]⟩,
    ⟨.declared, .expressions Enc.funcref []⟩, ⟨.passive, .functions []⟩],
   .data [⟨.active 2 sampleInit, [1, 2, 3]⟩, ⟨.passive, []⟩]]

theorem sampleSections_fit : ∀ e ∈ sampleSections, SectionFits sampleFeats e := by
  have h1 := sampleInit_fits sampleFeats.toFeatures
  have h2 : TableTypeFits sampleFeats.toFeatures sampleTable :=
    ⟨by decide, .inl rfl, fun _ _ => .inl rfl⟩
  have h3 : MemoryTypeFits sampleFeats.toFeatures sampleMemory :=
    ⟨.inl rfl, fun _ _ => .inl rfl, fun p hp => by cases hp; decide⟩
  have h4 : sampleGlobal.valType.Fits := by decide
  simp only [sampleSections, List.forall_mem_cons]
  refine ⟨⟨by decide, ?_⟩, ?_, ⟨by decide, ?_⟩, ⟨by decide, ?_⟩, ?_, ⟨by decide, ?_⟩,
    ⟨by decide, ?_⟩, ⟨by decide, ?_⟩, ⟨by decide, ?_⟩, by simp⟩
  · simp only [List.forall_mem_cons]
    refine ⟨⟨by decide, by decide, trivial⟩,
      ⟨rfl, by decide, by decide, ?_⟩, ⟨rfl, by decide +kernel, h4, by decide, by decide⟩, by simp⟩
    simp only [List.forall_mem_cons]
    exact ⟨⟨by decide, trivial⟩, ⟨by decide, h3⟩, by simp⟩
  · exact (by decide : [(0 : BitVec 32), 300].length < 2 ^ 32)
  · simp only [List.forall_mem_cons]
    exact ⟨⟨h2, nofun⟩, ⟨h2, fun c hc => by cases hc; exact h1⟩, by simp⟩
  · simpa using h3
  · exact (by decide : [(⟨1⟩ : Enc.TagType)].length < 2 ^ 32)
  · simpa using ⟨h4, h1⟩
  · simp only [List.forall_mem_cons]
    exact ⟨(by decide : StrFits [0x66]), (by decide : StrFits []), by simp⟩
  · simp only [List.forall_mem_cons]
    exact ⟨⟨h1, (by decide : [(1 : BitVec 32), 2].length < 2 ^ 32)⟩,
      ⟨h1, by decide, by decide, by simpa using h1⟩, ⟨trivial, by decide, by decide, by simp⟩,
      ⟨trivial, (by decide : ([] : List (BitVec 32)).length < 2 ^ 32)⟩, by simp⟩
  · simp only [List.forall_mem_cons]
    exact ⟨⟨h1, by decide⟩, ⟨trivial, by decide⟩, by simp⟩

/-! ### The theorems -/

/-- **C48.** Whatever items a wasm-encoder section builder is given within wasmparser's limits,
the builder succeeds, and from the bytes of the section the corresponding section reader of
wasmparser yields items that correspond one by one to those added, in the same order, and then
ends without complaint. -/
theorem c48_section (f : Feats) (e : Enc.Section) (h : SectionFits f e) :
    ∃ count bytes, e.sect = some (.items e.id count bytes) ∧
      ∀ r : Reader, r.rest = encodeU32 count ++ bytes →
      ∃ s xs, SectionLimited.new r = .ok s ∧ s.count = count ∧
        collectItems f e.id s = some (.ok xs) ∧ ItemsIs f.toFeatures xs e := by
  obtain ⟨b, h1, h2⟩ := section_items f e h
  refine ⟨b.numAdded, b.bytes, by simp [Enc.Section.sect, h1], fun r hr => ?_⟩
  have h3 := Dec.u32 b.numAdded r b.bytes hr
  obtain ⟨xs, h4, h5⟩ := h2 (r.advance (encodeU32 b.numAdded).length)
    (by rw [Reader.rest_advance, hr]; simp)
  exact ⟨⟨_, _⟩, xs, by simp only [SectionLimited.new, h3], rfl, h4, h5⟩

example : sampleSections.length = 9 ∧ ∀ e ∈ sampleSections, SectionFits sampleFeats e :=
  ⟨rfl, sampleSections_fit⟩

/-- A section added to a `Module`: one with items, or another. -/
inductive Part where
  | items (e : Enc.Section)
  | other (s : Sect)

def Part.sect : Part → Option Sect
  | .items e => e.sect
  | .other s => some s

def Part.Fits (f : Feats) : Part → Prop
  | .items e => SectionFits f e
  | .other (.items ..) => False
  | .other _ => True

def Part.typed : Part → Option Enc.Section
  | .items e => some e
  | .other _ => none

/-- The section readers among the payloads. -/
def limitedOf (e : Event) : Option (UInt8 × SectionLimited) :=
  match e.payload with
  | .limited id count reader => some (id, ⟨reader, count⟩)
  | _ => none

/-- What a section reader yields is what was added to the section. -/
def ReadsBack (f : Feats) (x : UInt8 × SectionLimited) (e : Enc.Section) : Prop :=
  x.1 = e.id ∧ ∃ xs, collectItems f x.1 x.2 = some (.ok xs) ∧ ItemsIs f.toFeatures xs e

theorem bodies_not_limited (a : Nat) (bs : List (List UInt8)) :
    (bodyEvents a bs).filterMap limitedOf = [] := by
  induction bs generalizing a with
  | nil => rfl
  | cons b bs ih =>
    simp only [bodyEvents, List.filterMap_cons, ih]
    rfl

theorem others_not_limited (f : Feats) (a : Nat) (s : Sect) (h : (Part.other s).Fits f) :
    (sectEvents a s).filterMap limitedOf = [] := by
  cases s with
  | items => exact h.elim
  | code bs =>
    simp only [sectEvents, List.filterMap_cons, bodies_not_limited]
    rfl
  | _ => rfl

theorem readsBack_sects (f : Feats) : ∀ (parts : List Part) (ss : List Sect) (a : Nat),
    parts.mapM Part.sect = some ss → (∀ p ∈ parts, p.Fits f) →
    List.Forall₂ (ReadsBack f) ((sectsEvents a ss).filterMap limitedOf)
      (parts.filterMap Part.typed) := by
  intro parts
  induction parts with
  | nil =>
    intro ss a h _
    simp at h; subst h
    simp [sectsEvents, limitedOf]
  | cons p ps ih =>
    intro ss a h hf
    simp only [List.mapM_cons, Option.bind_eq_bind, Option.bind_eq_some_iff, Option.pure_def,
      Option.some.injEq] at h
    obtain ⟨s, h1, ss', h2, rfl⟩ := h
    simp only [sectsEvents, List.filterMap_append]
    have ih := ih ss' (a + totalConsumed (sectEvents a s)) h2
      fun p hp => hf p (List.mem_cons_of_mem _ hp)
    have hp := hf p (List.mem_cons_self ..)
    cases p with
    | items e =>
      obtain ⟨b, h3, h4⟩ := section_items f e hp
      simp only [Part.sect, Enc.Section.sect, h3, Option.bind_eq_bind, Option.bind_some,
        Option.pure_def, Option.some.injEq] at h1
      subst h1
      simp only [sectEvents, List.filterMap_cons, limitedOf, List.filterMap_nil, Part.typed,
        List.cons_append, List.nil_append]
      refine .cons ⟨rfl, h4 _ ?_⟩ ih
      simp [Reader.rest]
    | other s' =>
      simp only [Part.sect, Option.some.injEq] at h1
      subst h1
      rw [others_not_limited f a s' hp]
      exact ih

/-- **C48, modules.** Whatever module wasm-encoder makes of section builders with such items
and of other sections in the prescribed order, parsing its bytes goes through without error,
and the section readers among the payloads yield, in order, the items of the builders. -/
theorem c48_module (f : Feats) (off : Nat) (parts : List Part) (ss : List Sect)
    (bytes : List UInt8) (hp : parts.mapM Part.sect = some ss) (hf : ∀ p ∈ parts, p.Fits f)
    (henc : encodeModule ss = some bytes) (hw : WellFormed ss)
    (hs : off + bytes.length ≤ u64Max) :
    ∃ tr, DriveAll (Parser.new off) bytes tr none ∧
      List.Forall₂ (ReadsBack f) (tr.filterMap limitedOf) (parts.filterMap Part.typed) := by
  refine ⟨_, c10_roundtrip off ss bytes henc hw hs, ?_⟩
  have := readsBack_sects f parts ss (off + 8) hp hf
  exact this

/-- A module with globals, code and data. -/
def sampleParts : List Part :=
  [.items (.functions [0]), .items (.memories [sampleMemory]),
   .items (.globals [⟨sampleGlobal, sampleInit⟩]), .other (.custom [0x68] [1]),
   .other (.code [[0, 0x0B]]), .items (.data [⟨.active 2 sampleInit, [1, 2, 3]⟩])]

example : ∃ ss, sampleParts.mapM Part.sect = some ss ∧ (encodeModule ss).isSome ∧
    WellFormed ss ∧ ∀ p ∈ sampleParts, p.Fits sampleFeats := by
  refine ⟨[.items 3 1 [0], .items 5 1 [11, 1, 0xC8, 1, 0],
      .items 6 1 [0x7F, 1, 0x23, 0, 0x41, 0xAC, 2, 0x6A, 0x0B], .custom [0x68] [1],
      .code [[0, 0x0B]], .items 11 1 [2, 2, 0x23, 0, 0x41, 0xAC, 2, 0x6A, 0x0B, 3, 1, 2, 3]],
    by decide +kernel, by decide +kernel,
    ⟨by decide +kernel, by decide +kernel, by decide +kernel, fun ⟨n, h⟩ => by simp at h⟩, ?_⟩
  have h := sampleSections_fit
  have h1 := sampleInit_fits sampleFeats.toFeatures
  simp only [sampleParts, List.forall_mem_cons]
  refine ⟨(by decide : [(0 : BitVec 32)].length < 2 ^ 32),
    h (.memories [sampleMemory]) (by simp [sampleSections]),
    h (.globals [⟨sampleGlobal, sampleInit⟩]) (by simp [sampleSections]), trivial,
    trivial, ⟨by decide, ?_⟩, by simp⟩
  intro e he
  rw [List.mem_singleton] at he
  subst he
  exact ⟨h1, by decide⟩

/-- The limits on constant expressions are needed: wasm-encoder takes any instructions, but an
expression with a block in it is refused at the first `end`. -/
theorem c48_limits_needed :
    ∃ (is : List Instr.Enc.Instr) (e : Enc.ConstExpr), Enc.ConstExpr.extended is = some e ∧
      (∀ i ∈ is, Instr.Spec.Fits sampleFeats.toFeatures i) ∧
      Instr.Spec.Body true (is.map Instr.Spec.tok) ∧
      ∃ err, readConstExpr sampleFeats.toFeatures (Reader.new e.encode 0) = .error err := by
  refine ⟨[.block .block .empty, .end_, .i32Const 1], ⟨[2, 0x40, 0x0B, 0x41, 1]⟩, by decide +kernel, ?_,
    .block (b := []) .nil (.other .nil),
    .msg "control frames remain at end of expression" 3, by decide +kernel⟩
  intro i hi
  simp only [List.mem_cons, List.not_mem_nil, or_false] at hi
  rcases hi with rfl | rfl | rfl
  · exact ⟨trivial, nofun⟩
  · exact True.intro
  · exact True.intro

end Verif.Items
