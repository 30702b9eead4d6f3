import Verif.Names.Lemmas
/-! Sizes: renaming indices makes a name section at most five times as long, so that nothing in it
outgrows a 32-bit length if the section is not already enormous. -/
namespace Verif.Names
open Verif.Reader Verif.Leb Verif.Items Verif.Framing Verif.Types Spec

def mapLen (l : List (BitVec 32 × List UInt8)) : Nat := (l.map fun e => 10 + e.2.length).sum

def nestedLen (l : List (BitVec 32 × List (BitVec 32 × List UInt8))) : Nat :=
  (l.map fun e => 10 + mapLen e.2).sum

def subLen : Sub → Nat
  | .module n => 11 + n.length
  | .names _ l => 11 + mapLen l
  | .nested _ l => 11 + nestedLen l
  | .other _ d => 6 + d.length

theorem subLen_rename (m : Reenc.Maps) (s : Sub) : subLen (s.rename m) = subLen s := by
  cases s <;> simp [subLen, Sub.rename, mapLen, nestedLen, Function.comp_def]

theorem u32_consumes {r r' : Reader} {v : BitVec 32} (h : readVarU32 r = .ok (v, r')) :
    r'.rest.length + 1 ≤ r.rest.length := by
  obtain ⟨b, bs, h1, -, -⟩ := Twin1.u32 _ _ _ h
  rw [h1]
  simp

theorem naming_consumes {r r' : Reader} {x : Naming} (h : readNaming r = .ok (x, r')) :
    2 + x.name.length + r'.rest.length ≤ r.rest.length := by
  obtain ⟨i, q1, e1, h⟩ := bind_ok.mp h
  obtain ⟨s, q2, e2, h⟩ := bind_ok.mp h
  cases h
  obtain ⟨n, q3, e3, e2⟩ := bind_ok.mp e2
  obtain ⟨-, h2, rfl, h4⟩ := internalReadString_ok e2
  have := u32_consumes e1
  have := u32_consumes e3
  show 2 + s.length + _ ≤ _
  simp only [Reader.rest_advance, List.length_drop]
  omega

theorem many_consumes : ∀ {n : Nat} {r r' : Reader} {xs : List Naming},
    readMany readNaming n r = .ok (xs, r') →
    mapLen (xs.map fun x => (x.index, x.name)) + 5 * r'.rest.length ≤ 5 * r.rest.length
  | 0, _, _, _, h => by cases h; simp [mapLen]
  | n + 1, r, r', _, h => by
    obtain ⟨x, q1, e1, h1⟩ := bind_ok.mp h
    obtain ⟨xs', q2, e2, h1⟩ := bind_ok.mp h1
    cases h1
    have h1 := naming_consumes e1
    have h2 := many_consumes e2
    simp only [mapLen, List.map_cons, List.sum_cons] at h2 ⊢
    omega

theorem entries_len {s : SectionLimited} {l : List (BitVec 32 × List UInt8)} (h : entries s l) :
    mapLen l ≤ 5 * s.reader.rest.length := by
  obtain ⟨xs, h1, rfl⟩ := h
  obtain ⟨r', h2, -⟩ := collectFrom_ok.1 h1
  have := many_consumes h2
  omega

theorem new_consumes {r : Reader} {s : SectionLimited} (h : SectionLimited.new r = .ok s) :
    s.reader.rest.length + 1 ≤ r.rest.length := by
  unfold SectionLimited.new at h
  cases hr : readVarU32 r with
  | error e => rw [hr] at h; cases h
  | ok p =>
    rw [hr] at h
    cases h
    exact u32_consumes hr

theorem indirect_consumes {r r' : Reader} {x : IndirectNaming}
    (h : readIndirectNaming r = .ok (x, r')) {l : List (BitVec 32 × List UInt8)}
    (hl : entries x.names l) : 10 + mapLen l + 5 * r'.rest.length ≤ 5 * r.rest.length := by
  obtain ⟨i, q1, e1, h⟩ := bind_ok.mp h
  obtain ⟨sub, q2, e2, h⟩ := bind_ok.mp h
  obtain ⟨s, q3, e3, h⟩ := bind_ok.mp h
  cases h
  obtain ⟨bytes, h1, rfl, d⟩ := (Reader.Twin.skip (Twin.skipItems Twin.skipNaming)) _ _ _ e2
  obtain ⟨s', e4, e5, -, -⟩ := d ⟨bytes, 0, 0⟩ [] (by simp [Reader.rest])
  have hb : sub.rest.length ≤ bytes.length := by
    unfold Reader.skip at e4
    split at e4
    · cases e4
    · cases e4
      rw [e5]
      simp [Reader.rest]
  unfold limited at e3
  cases hn : SectionLimited.new sub with
  | error e => rw [hn] at e3; cases e3
  | ok s2 =>
    rw [hn] at e3
    cases e3
    have a1 := u32_consumes e1
    have a2 := new_consumes hn
    have a3 : mapLen l ≤ 5 * s.reader.rest.length := entries_len hl
    have a4 := congrArg List.length h1
    simp only [List.length_append] at a4
    omega

theorem many_indirect_consumes : ∀ {n : Nat} {r r' : Reader} {xs : List IndirectNaming},
    readMany readIndirectNaming n r = .ok (xs, r') →
    ∀ {l : List (BitVec 32 × List (BitVec 32 × List UInt8))},
    List.Forall₂ (fun x e => x.index = e.1 ∧ entries x.names e.2) xs l →
    nestedLen l + 5 * r'.rest.length ≤ 5 * r.rest.length
  | 0, _, _, _, h, l, hl => by cases h; cases hl; simp [nestedLen]
  | n + 1, r, r', _, h, l, hl => by
    obtain ⟨x, q1, e1, h1⟩ := bind_ok.mp h
    obtain ⟨xs', q2, e2, h1⟩ := bind_ok.mp h1
    cases h1
    cases hl with
    | cons hx hl =>
      have h1 := indirect_consumes e1 hx.2
      have h2 := many_indirect_consumes e2 hl
      simp only [nestedLen, List.map_cons, List.sum_cons] at h2 ⊢
      omega

theorem nested_len {s : SectionLimited} {l : List (BitVec 32 × List (BitVec 32 × List UInt8))}
    (h : nestedEntries s l) : nestedLen l ≤ 5 * s.reader.rest.length := by
  obtain ⟨xs, h1, h3⟩ := h
  obtain ⟨r', h2, -⟩ := collectFrom_ok.1 h1
  have := many_indirect_consumes h2 h3
  omega

theorem name_len {id : UInt8} {q : Reader} {x : Name} {sub : Sub}
    (h : nameFromReader id q = .ok x) (hs : Says x sub) : subLen sub ≤ 6 + 5 * q.rest.length := by
  unfold nameFromReader at h
  by_cases h0 : id = 0
  · rw [if_pos h0] at h
    unfold readModuleName at h
    cases hr : readString q with
    | error e => rw [hr] at h; cases h
    | ok p =>
      obtain ⟨n, q'⟩ := p
      rw [hr] at h
      by_cases he : q'.eof = true
      · simp only [he] at h
        cases h
        cases sub with
        | module n' =>
          cases hs
          obtain ⟨k, r1, h1, h2⟩ := bind_ok.mp hr
          by_cases hn : k.toNat > maxWasmStringSize
          · rw [if_pos hn] at h2
            obtain ⟨_, _, _, h3⟩ := bind_ok.mp h2
            cases h3
          · rw [if_neg hn] at h2
            obtain ⟨-, h4, -, h5⟩ := internalReadString_ok h2
            have := u32_consumes h1
            simp only [subLen]
            omega
        | _ => cases hs
      · simp only [he] at h
        cases h
  · rw [if_neg h0] at h
    cases hd : directOf id with
    | some k =>
      rw [hd] at h
      obtain ⟨s, h1, rfl⟩ := map_ok h
      have := new_consumes h1
      cases sub with
      | names k' l =>
        have := entries_len hs.2
        simp only [subLen]
        omega
      | _ => cases hs
    | none =>
      cases hi : indirectOf id with
      | some k =>
        rw [hd, hi] at h
        obtain ⟨s, h1, rfl⟩ := map_ok h
        have := new_consumes h1
        cases sub with
        | nested k' l =>
          have := nested_len hs.2
          simp only [subLen]
          omega
        | _ => cases hs
      | none =>
        rw [hd, hi] at h
        cases h
        cases sub with
        | other id' d =>
          obtain ⟨rfl, rfl⟩ := hs
          simp only [subLen]
          omega
        | _ => cases hs

theorem readSubsection_len {r r' : Reader} {x : Name} {sub : Sub}
    (h : readSubsection r = .ok (x, r')) (hs : Says x sub) :
    subLen sub + 5 * r'.rest.length ≤ 5 * r.rest.length := by
  obtain ⟨id, q, q', h1, h2, -, h3⟩ := readSubsection_ok h
  have a1 := name_len h3 hs
  have a2 : q'.rest.length + 1 ≤ r.rest.length := by
    obtain ⟨b, q1, e1, e2⟩ := bind_ok.mp h1
    obtain ⟨rfl, e3⟩ := readU8_ok e1
    have : q' = r.advance 1 := by
      by_cases hb : b &&& 0x80 ≠ 0
      · rw [if_pos hb] at e2
        obtain ⟨_, _, _, h3⟩ := bind_ok.mp e2
        cases h3
      · rw [if_neg hb] at e2
        cases e2
        rfl
    rw [this, e3]
    simp
  obtain ⟨n, q1, e1, e2⟩ := bind_ok.mp h2
  have a3 := u32_consumes e1
  have a4 : q.rest.length + r'.rest.length ≤ q1.rest.length := by
    unfold Reader.skip at e2
    cases hb : readBytes n.toNat q1 with
    | error e => simp only [bind_apply, hb] at e2; cases e2
    | ok p =>
      simp only [bind_apply, hb] at e2
      rw [readBytes_eq] at hb
      split at hb
      · cases hb
        cases e2
        simp only [Reader.rest, Reader.advance] at *
        simp
        omega
      · cases hb
  omega

theorem subsections_len : ∀ {n : Nat} {r : Reader} {xs : List Name},
    subsectionsFrom n r = .ok xs → ∀ {subs : List Sub}, List.Forall₂ Says xs subs →
    (subs.map subLen).sum ≤ 5 * r.rest.length
  | 0, _, _, h, _, hs => by cases h; cases hs; simp
  | n + 1, r, xs, h, subs, hss => by
    unfold subsectionsFrom at h
    by_cases he : r.eof = true
    · rw [if_pos he] at h; cases h; cases hss; simp
    · rw [if_neg he] at h
      cases hs : readSubsection r with
      | error e => rw [hs] at h; cases h
      | ok p =>
        obtain ⟨x, r'⟩ := p
        rw [hs] at h
        cases hr : subsectionsFrom n r' with
        | error e => simp only [hr] at h; cases h
        | ok ys =>
          simp only [hr] at h
          cases h
          cases hss with
          | cons h1 h2 =>
            have a1 := readSubsection_len hs h1
            have a2 := subsections_len hr h2
            simp only [List.map_cons, List.sum_cons]
            omega

/-! ### Writing -/

theorem buildMap_len {l : List (BitVec 32 × List UInt8)} (h : mapLen l < 2 ^ 32) :
    ∃ c, buildMap l = some c ∧ c.bytes.length ≤ mapLen l := by
  rw [buildMap_eq]
  suffices ∃ bs, Enc.encodeAll encEntry l = some bs ∧ bs.length ≤ mapLen l by
    obtain ⟨bs, h1, h2⟩ := this
    exact ⟨_, buildFrom_iff.2 ⟨bs, h1, rfl⟩, h2⟩
  induction l with
  | nil => exact ⟨[], rfl, Nat.le_refl _⟩
  | cons e l ih =>
    simp only [mapLen, List.map_cons, List.sum_cons] at h
    obtain ⟨bs, h1, h2⟩ := ih (by simp only [mapLen]; omega)
    refine ⟨(encodeU32 e.1 ++ (encodeU32 (BitVec.ofNat 32 e.2.length) ++ e.2)) ++ bs, ?_, ?_⟩
    · have : encEntry e = some (encodeU32 e.1 ++ (encodeU32 (BitVec.ofNat 32 e.2.length) ++ e.2)) := by
        unfold encEntry
        rw [encodeSlice_eq (by omega)]
        rfl
      unfold Enc.encodeAll
      rw [this, h1]
      rfl
    · have a1 := (c04_sizes e.1 0).1
      have a2 := (c04_sizes (BitVec.ofNat 32 e.2.length) 0).1
      simp only [mapLen, List.map_cons, List.sum_cons, List.length_append] at h2 ⊢
      omega

theorem encodeMap_len {c : Enc.Builder} {n : Nat} (h : c.bytes.length ≤ n) :
    (encodeMap c).length ≤ 5 + n := by
  have a1 := (c04_sizes c.numAdded 0).1
  simp only [encodeMap, List.length_append]
  omega

theorem buildNested_len {l : List (BitVec 32 × List (BitVec 32 × List UInt8))}
    (h : nestedLen l < 2 ^ 32) : ∃ c, buildNested l = some c ∧ c.bytes.length ≤ nestedLen l := by
  rw [buildNested_eq]
  suffices ∃ bs, Enc.encodeAll encNested l = some bs ∧ bs.length ≤ nestedLen l by
    obtain ⟨bs, h1, h2⟩ := this
    exact ⟨_, buildFrom_iff.2 ⟨bs, h1, rfl⟩, h2⟩
  induction l with
  | nil => exact ⟨[], rfl, Nat.le_refl _⟩
  | cons e l ih =>
    simp only [nestedLen, List.map_cons, List.sum_cons] at h
    obtain ⟨bs, h1, h2⟩ := ih (by simp only [nestedLen]; omega)
    obtain ⟨c, h3, h4⟩ := buildMap_len (l := e.2) (by omega)
    refine ⟨(encodeU32 e.1 ++ encodeMap c) ++ bs, ?_, ?_⟩
    · have : encNested e = some (encodeU32 e.1 ++ encodeMap c) := by
        unfold encNested
        rw [h3]
        rfl
      unfold Enc.encodeAll
      rw [this, h1]
      rfl
    · have a1 := (c04_sizes e.1 0).1
      have a2 := encodeMap_len h4
      simp only [nestedLen, List.map_cons, List.sum_cons, List.length_append] at h2 ⊢
      omega

theorem mapSubsection_len {id : UInt8} {c : Enc.Builder} {n : Nat} (h : c.bytes.length ≤ n)
    (hn : 11 + n < 2 ^ 32) : ∃ b, mapSubsection id c = some b ∧ b.length ≤ 11 + n := by
  have a1 := encodeMap_len h
  have a2 := (c04_sizes (BitVec.ofNat 32 (encodeMap c).length) 0).1
  refine ⟨[id] ++ encodeU32 (BitVec.ofNat 32 (encodeMap c).length) ++ encodeMap c, ?_, ?_⟩
  · unfold mapSubsection
    rw [length_encodeMap, encodeUsize_eq (by omega)]
    rfl
  · simp only [List.length_append, List.length_singleton]
    omega

theorem build_len {s : Sub} (h : subLen s < 2 ^ 32) :
    ∃ b, s.build = some b ∧ b.length ≤ subLen s := by
  cases s with
  | module n =>
    simp only [subLen] at h ⊢
    have a2 := (c04_sizes (BitVec.ofNat 32 n.length) 0).1
    have a3 := (c04_sizes (BitVec.ofNat 32 (encodingSize (BitVec.ofNat 32 n.length) + n.length)) 0).1
    refine ⟨[0x00] ++ encodeU32 (BitVec.ofNat 32 (encodingSize (BitVec.ofNat 32 n.length) +
      n.length)) ++ (encodeU32 (BitVec.ofNat 32 n.length) ++ n), ?_, ?_⟩
    · unfold encodingSize
      simp only [Sub.build, moduleSubsection, encodingSize]
      rw [if_pos (by omega), encodeUsize_eq (by omega), encodeSlice_eq (by omega)]
      rfl
    · simp only [List.length_append, List.length_singleton]
      omega
  | names k l =>
    simp only [subLen] at h ⊢
    obtain ⟨c, h1, h2⟩ := buildMap_len (l := l) (by omega)
    obtain ⟨b, h3, h4⟩ := mapSubsection_len (id := directId k) h2 h
    exact ⟨b, by simp only [Sub.build, h1]; exact h3, h4⟩
  | nested k l =>
    simp only [subLen] at h ⊢
    obtain ⟨c, h1, h2⟩ := buildNested_len (l := l) (by omega)
    obtain ⟨b, h3, h4⟩ := mapSubsection_len (id := indirectId k) h2 h
    exact ⟨b, by simp only [Sub.build, h1]; exact h3, h4⟩
  | other id d =>
    simp only [subLen] at h ⊢
    have a2 := (c04_sizes (BitVec.ofNat 32 d.length) 0).1
    refine ⟨[id] ++ (encodeU32 (BitVec.ofNat 32 d.length) ++ d), ?_, ?_⟩
    · simp only [Sub.build, rawSubsection]
      rw [encodeSlice_eq (by omega)]
      rfl
    · simp only [List.length_append, List.length_singleton]
      omega

theorem buildAll_len : ∀ {ss : List Sub}, (ss.map subLen).sum < 2 ^ 32 →
    ∃ b, Enc.encodeAll Sub.build ss = some b ∧ b.length ≤ (ss.map subLen).sum
  | [], _ => ⟨[], rfl, Nat.le_refl _⟩
  | s :: ss, h => by
    simp only [List.map_cons, List.sum_cons] at h ⊢
    obtain ⟨b1, h1, h2⟩ := build_len (s := s) (by omega)
    obtain ⟨b2, h3, h4⟩ := buildAll_len (ss := ss) (by omega)
    refine ⟨b1 ++ b2, ?_, ?_⟩
    · unfold Enc.encodeAll
      rw [h1, h3]
      rfl
    · simp only [List.length_append]
      omega

theorem section_len {m : Reenc.Maps} {r : Reader} {subs : List Sub} (h : SectionSays r subs)
    (hl : 5 * r.rest.length < 2 ^ 32) : ∃ b, nameSection m r = some b ∧
      b.length ≤ 5 * r.rest.length := by
  have a1 : (subs.map subLen).sum ≤ 5 * r.rest.length := by
    obtain ⟨xs, h1, h2⟩ := h
    exact subsections_len h1 h2
  have a2 : ((subs.map (Sub.rename m)).map subLen).sum = (subs.map subLen).sum := by
    rw [List.map_map]
    congr 2
    funext s
    exact subLen_rename m s
  rw [nameSection_eq h]
  obtain ⟨b, h1, h2⟩ := buildAll_len (ss := subs.map (Sub.rename m)) (by omega)
  exact ⟨b, h1, by omega⟩

end Verif.Names
