import Verif.Names.Size
/-! C50: the name section. -/
namespace Verif.Names
open Verif.Reader Verif.Leb Verif.Items Verif.Framing Verif.Types Spec

/-- wasmparser reads from a name section what was put into it with wasm-encoder. -/
theorem c50_roundtrip (subs : List Sub) (b : List UInt8) (q : Reader)
    (h : Enc.encodeAll Sub.build subs = some b) (hf : ∀ s ∈ subs, s.Fits) (hq : q.rest = b) :
    SectionSays q subs :=
  section_says h hf hq (by rw [Reader.bytesRemaining_eq, hq]; exact Nat.le_refl _)

/-- A section with names of the module, of functions and of locals, and an unknown subsection. -/
def sampleSubs : List Sub :=
  [.module [0x6D], .names .function [(0, [0x66, 0x30]), (7, [0xC3, 0xA9])],
    .nested .local [(0, [(0, [0x78]), (1, [])]), (3, [])], .other 0x55 [1, 2, 3]]

def sampleBytes : List UInt8 :=
  [0, 2, 1, 0x6D, 1, 9, 2, 0, 2, 0x66, 0x30, 7, 2, 0xC3, 0xA9, 2, 10, 2, 0, 2, 0, 1, 0x78, 1, 0, 3,
    0, 0x55, 3, 1, 2, 3]

example : Enc.encodeAll Sub.build sampleSubs = some sampleBytes ∧
    ∀ s ∈ sampleSubs, s.Fits := by
  refine ⟨by decide +kernel, ?_⟩
  intro s hs
  simp only [sampleSubs, List.mem_cons, List.not_mem_nil, or_false] at hs
  rcases hs with rfl | rfl | rfl | rfl <;> simp only [Sub.Fits, NameFits] <;> decide +kernel

/-- What a section says is determined by its bytes. -/
theorem c50_unique (r : Reader) (subs subs' : List Sub) (h : SectionSays r subs)
    (h' : SectionSays r subs') : subs = subs' := by
  obtain ⟨xs, h1, h2⟩ := h
  obtain ⟨ys, h3, h4⟩ := h'
  rw [h1] at h3
  cases h3
  exact forall₂_unique (R := Says) (fun _ _ _ h h' => says_unique h h') h2 h4

/-- The samples again: from the bytes at any offset. -/
theorem sample_says (o : Nat) : SectionSays ⟨sampleBytes, 0, o⟩ sampleSubs := by
  refine c50_roundtrip _ sampleBytes _ (by decide +kernel) ?_ rfl
  intro s hs
  simp only [sampleSubs, List.mem_cons, List.not_mem_nil, or_false] at hs
  rcases hs with rfl | rfl | rfl | rfl <;> simp only [Sub.Fits, NameFits] <;> decide +kernel

/-- Re-encoding: the new section gives every name to the item the old item was mapped to; names of
locals, labels and fields stay with their function or type; all else is unchanged. -/
theorem c50_reencode (m : Reenc.Maps) (r q : Reader) (b : List UInt8)
    (h : nameSection m r = some b) (hq : q.rest = b) :
    ∃ subs, SectionSays r subs ∧ SectionSays q (subs.map (Sub.rename m)) := by
  obtain ⟨subs, h1⟩ := nameSection_some h
  refine ⟨subs, h1, ?_⟩
  rw [nameSection_eq h1] at h
  refine c50_roundtrip _ b q h ?_ hq
  intro s hs
  obtain ⟨s0, h2, rfl⟩ := List.mem_map.1 hs
  have := section_fits h1 s0 h2
  cases s0 with
  | module n => exact this
  | names k l =>
    refine ⟨by simpa using this.1, ?_⟩
    intro e he
    obtain ⟨e0, h3, rfl⟩ := List.mem_map.1 he
    exact this.2 e0 h3
  | nested k l =>
    refine ⟨by simpa using this.1, ?_⟩
    intro e he
    obtain ⟨e0, h3, rfl⟩ := List.mem_map.1 he
    exact this.2 e0 h3
  | other id d => exact this

/-- Functions moved up by two. -/
example : nameSection { Reenc.Maps.id with func := (· + 2) } ⟨sampleBytes, 0, 0⟩ =
    some [0, 2, 1, 0x6D, 1, 9, 2, 2, 2, 0x66, 0x30, 9, 2, 0xC3, 0xA9, 2, 10, 2, 2, 2, 0, 1, 0x78, 1,
      0, 5, 0, 0x55, 3, 1, 2, 3] := by decide +kernel

/-- The re-encoder fails only where wasmparser does: a section shorter than 858993459 bytes all of
whose names can be read is re-encoded whatever the maps, to at most five times its length. -/
theorem c50_total (m : Reenc.Maps) (r : Reader) (hl : 5 * r.rest.length < 2 ^ 32) :
    (∃ subs, SectionSays r subs) ↔ ∃ b, nameSection m r = some b ∧ b.length ≤ 5 * r.rest.length :=
  ⟨fun ⟨_, h⟩ => section_len h hl, fun ⟨_, h, _⟩ => nameSection_some h⟩

example : 5 * (⟨sampleBytes, 0, 0⟩ : Reader).rest.length < 2 ^ 32 ∧
    ∃ subs, SectionSays ⟨sampleBytes, 0, 0⟩ subs := ⟨by decide, _, sample_says 0⟩

theorem rename_id (s : Sub) : s.rename Reenc.Maps.id = s := by
  have h : ∀ k, Reenc.Spec.into Reenc.Maps.id k = id := fun k => by cases k <;> rfl
  cases s <;> simp [Sub.rename, h]

theorem rename_then (m m' : Reenc.Maps) (s : Sub) :
    s.rename (Reenc.Spec.then_ m m') = (s.rename m).rename m' := by
  have h : ∀ k x, Reenc.Spec.into (Reenc.Spec.then_ m m') k x =
      Reenc.Spec.into m' k (Reenc.Spec.into m k x) := fun k x => by cases k <;> rfl
  cases s <;> simp [Sub.rename, h]

/-- Without a map the new section says the same, and re-encoding it again changes no byte. -/
theorem c50_identity (r q : Reader) (b : List UInt8) (h : nameSection Reenc.Maps.id r = some b)
    (hq : q.rest = b) : (∃ subs, SectionSays r subs ∧ SectionSays q subs) ∧
      nameSection Reenc.Maps.id q = some b := by
  obtain ⟨subs, h1, h2⟩ := c50_reencode Reenc.Maps.id r q b h hq
  have he : subs.map (Sub.rename Reenc.Maps.id) = subs := by
    rw [show Sub.rename Reenc.Maps.id = id from funext rename_id, List.map_id]
  rw [he] at h2
  refine ⟨⟨subs, h1, h2⟩, ?_⟩
  rw [nameSection_eq h2, ← nameSection_eq h1, h]

/-- A section with longer encodings than needed. -/
example : nameSection Reenc.Maps.id ⟨[1, 0x87, 0x00, 0x81, 0x00, 0x85, 0x00, 0x81, 0x00, 0x66], 0, 0⟩ =
    some [1, 4, 1, 5, 1, 0x66] := by decide +kernel

/-- Re-encoding twice is re-encoding once with the maps composed. -/
theorem c50_compose (m m' : Reenc.Maps) (r q : Reader) (b : List UInt8)
    (h : nameSection m r = some b) (hq : q.rest = b) :
    nameSection m' q = nameSection (Reenc.Spec.then_ m m') r := by
  obtain ⟨subs, h1, h2⟩ := c50_reencode m r q b h hq
  rw [nameSection_eq h2, nameSection_eq h1, List.map_map]
  congr 2
  funext s
  exact (rename_then m m' s).symm

example : nameSection { Reenc.Maps.id with func := (· + 2) } ⟨sampleBytes, 0, 0⟩ ≠ none := by
  decide +kernel

/-! ### Finding F29 -/

theorem skipNaming_long {e : BitVec 32 × List UInt8} {b : List UInt8} (h : encEntry e = some b)
    (hl : 100000 < e.2.length) {r : Reader} {t : List UInt8} (hr : r.rest = b ++ t) :
    ∀ x, skipNaming r ≠ .ok x := by
  obtain ⟨h1, rfl⟩ := encEntry_some h
  rintro ⟨u, r'⟩ h
  obtain ⟨i, q1, e1, h⟩ := bind_ok.mp h
  rw [(Dec.u32 e.1) r _ (by rw [hr, List.append_assoc])] at e1
  cases e1
  obtain ⟨n, q2, e2, h⟩ := bind_ok.mp h
  rw [(Dec.u32 (BitVec.ofNat 32 e.2.length)) _ (e.2 ++ t) (by simp [hr])] at e2
  cases e2
  rw [toNat_ofNat32 h1, if_pos (by unfold maxWasmStringSize; omega)] at h
  obtain ⟨_, _, _, h3⟩ := bind_ok.mp h
  cases h3

theorem indirect_long {i j : BitVec 32} {n bs : List UInt8} {r : Reader} (hr : r.rest = bs)
    (h : Enc.encodeAll encNested [(i, [(j, n)])] = some bs) (hl : 100000 < n.length) :
    ∀ x, readIndirectNaming r ≠ .ok x := by
  rintro ⟨y, r'⟩ e
  unfold Enc.encodeAll Enc.encodeAll encNested at h
  rw [buildMap_eq] at h
  cases hb : Enc.buildFrom encEntry {} [(j, n)] with
  | none => simp only [hb] at h; cases h
  | some c =>
    simp only [hb] at h
    cases h
    obtain ⟨cs, h4, rfl⟩ := buildFrom_iff.1 hb
    unfold Enc.encodeAll Enc.encodeAll at h4
    cases hn : encEntry (j, n) with
    | none => rw [hn] at h4; cases h4
    | some d =>
      rw [hn] at h4
      cases h4
      obtain ⟨i', q1, e1, e⟩ := bind_ok.mp e
      rw [(Dec.u32 i) r _ (by rw [hr]; simp only [List.append_assoc]; rfl)] at e1
      cases e1
      obtain ⟨sub, q2, e2, -⟩ := bind_ok.mp e
      unfold Reader.skip at e2
      cases hs : skipItems skipNaming (r.advance (encodeU32 i).length) with
      | error e => rw [hs] at e2; cases e2
      | ok p =>
        obtain ⟨k, q3, e3, e4⟩ := bind_ok.mp hs
        rw [(Dec.u32 1) _ d (by simp [hr, encodeMap])] at e3
        cases e3
        obtain ⟨us, q4, e5, -⟩ := bind_ok.mp e4
        obtain ⟨u, q5, e6, -⟩ := bind_ok.mp e5
        exact skipNaming_long hn hl (t := []) (by simp [hr, encodeMap]) _ e6

/-- A name of a local, a label or a field that is longer than 100000 bytes can be written with
wasm-encoder, but makes the section unreadable for wasmparser. -/
theorem c50_long_local_unreadable (k : Indirect) (i j : BitVec 32) (n b : List UInt8) (q : Reader)
    (h : (Sub.nested k [(i, [(j, n)])]).build = some b) (hl : 100000 < n.length)
    (hq : q.rest = b) : ¬ ∃ subs, SectionSays q subs := by
  rintro ⟨subs, xs, h1, h2⟩
  unfold Sub.build at h
  cases hc : buildNested [(i, [(j, n)])] with
  | none => simp only [hc] at h; cases h
  | some c =>
    simp only [hc] at h
    obtain ⟨h3, rfl⟩ := mapSubsection_some h
    obtain ⟨i1, i2, i3, i4⟩ := indirectId_facts k
    have hd : DecP readSubsection ([indirectId k] ++
        encodeU32 (BitVec.ofNat 32 (encodeMap c).length) ++ encodeMap c)
        (fun x => ∀ s, ¬ Says x s) := by
      refine decP_sub i1 h3 fun r hr => ?_
      rw [buildNested_eq] at hc
      obtain ⟨bs, h4, rfl⟩ := buildFrom_iff.1 hc
      refine ⟨.indirect k ⟨r.advance (encodeU32 1).length, 1⟩, ?_, ?_⟩
      · unfold nameFromReader
        rw [if_neg i2, i3, i4, limited_new (n := 1) (b := bs) hr]
        rfl
      · intro s hs
        cases s with
        | nested k' l =>
          obtain ⟨-, ys, h5, -⟩ := hs
          obtain ⟨r', h6, -⟩ := collectFrom_ok.1 h5
          obtain ⟨y, q1, e1, -⟩ := bind_ok.mp h6
          exact indirect_long (by rw [Reader.rest_advance, hr]; simp [encodeMap]) h4 hl _ e1
        | _ => cases hs
    obtain ⟨x, e1, e2⟩ := hd q [] (by rw [hq]; simp)
    have hne : q.rest ≠ [] := by rw [hq]; nofun
    unfold subsections at h1
    rw [Reader.bytesRemaining_eq] at h1
    cases hn : q.rest.length with
    | zero => exact hne (List.length_eq_zero_iff.1 hn)
    | succ n =>
      rw [hn] at h1
      unfold subsectionsFrom at h1
      rw [not_eof_of_rest hne, e1] at h1
      simp only [Bool.false_eq_true, if_false] at h1
      split at h1
      · cases h1
      · cases h1
        cases h2 with
        | cons h _ => exact e2 _ h

example : (Sub.nested .local [(0, [(0, List.replicate 100001 0x61)])]).build ≠ none := by
  have : ∀ n : List UInt8, n.length = 100001 →
      subLen (.nested .local [(0, [(0, n)])]) < 2 ^ 32 := by
    intro n hn
    simp [subLen, nestedLen, mapLen, hn]
  obtain ⟨b, h, -⟩ := build_len (this _ List.length_replicate)
  rw [h]
  nofun

/-- The same name for a function is read. -/
theorem c50_long_function_readable (k : Direct) (i : BitVec 32) (n b : List UInt8) (q : Reader)
    (h : (Sub.names k [(i, n)]).build = some b) (hn : NameFits n) (hq : q.rest = b) :
    SectionSays q [.names k [(i, n)]] := by
  refine c50_roundtrip _ b q ?_ ?_ hq
  · unfold Enc.encodeAll Enc.encodeAll
    rw [h]
    simp
  · intro s hs
    rw [List.mem_singleton.1 hs]
    refine ⟨by simp, fun e he => ?_⟩
    rw [List.mem_singleton.1 he]
    exact hn

example : (Sub.names .function [(0, List.replicate 100001 0x61)]).build ≠ none := by
  have : ∀ n : List UInt8, n.length = 100001 → subLen (.names .function [(0, n)]) < 2 ^ 32 := by
    intro n hn
    simp [subLen, mapLen, hn]
  obtain ⟨b, h, -⟩ := build_len (this _ List.length_replicate)
  rw [h]
  nofun

end Verif.Names
