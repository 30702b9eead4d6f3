import Verif.Names.Spec
import Verif.Items.Codec
/-! wasmparser reads what wasm-encoder writes into a name section. -/
namespace Verif.Names
open Verif.Reader Verif.Leb Verif.Items Verif.Framing Spec

/-- One entry of a map. -/
def encEntry (e : BitVec 32 × List UInt8) : Option (List UInt8) := do
  pure (encodeU32 e.1 ++ (← encodeSlice e.2))

/-- One entry of a nested map. -/
def encNested (e : BitVec 32 × List (BitVec 32 × List UInt8)) : Option (List UInt8) := do
  pure (encodeU32 e.1 ++ encodeMap (← buildMap e.2))

theorem buildMap_eq (l : List (BitVec 32 × List UInt8)) :
    buildMap l = Enc.buildFrom encEntry {} l := by
  unfold buildMap Enc.buildFrom
  congr 1
  funext b e
  unfold append encEntry
  cases encodeSlice e.2 <;> rfl

theorem buildNested_eq (l : List (BitVec 32 × List (BitVec 32 × List UInt8))) :
    buildNested l = Enc.buildFrom encNested {} l := by
  unfold buildNested Enc.buildFrom
  congr 1
  funext b e
  unfold encNested
  cases buildMap e.2 <;> rfl

theorem buildFrom_some {enc : α → Option (List UInt8)} : ∀ {xs : List α} {b b' : Enc.Builder},
    Enc.buildFrom enc b xs = some b' → ∃ bs, Enc.encodeAll enc xs = some bs
  | [], b, b', _ => ⟨[], rfl⟩
  | x :: xs, b, b', h => by
    unfold Enc.buildFrom at h
    rw [List.foldlM_cons] at h
    cases hx : enc x with
    | none => rw [hx] at h; cases h
    | some bx =>
      rw [hx] at h
      obtain ⟨bs, h1⟩ := buildFrom_some (xs := xs) (b := b.add bx) (b' := b') h
      exact ⟨bx ++ bs, by unfold Enc.encodeAll; rw [hx, h1]; rfl⟩

theorem buildFrom_iff {enc : α → Option (List UInt8)} {xs : List α} {b : Enc.Builder} :
    Enc.buildFrom enc {} xs = some b ↔
      ∃ bs, Enc.encodeAll enc xs = some bs ∧ b = ⟨bs, BitVec.ofNat 32 xs.length⟩ := by
  constructor
  · intro h
    obtain ⟨bs, h1⟩ := buildFrom_some h
    refine ⟨bs, h1, ?_⟩
    rw [buildFrom_eq h1] at h
    cases h
    simp
  · rintro ⟨bs, h1, rfl⟩
    rw [buildFrom_eq h1]
    simp

theorem encodeAll_mem {enc : α → Option (List UInt8)} : ∀ {xs : List α} {bs : List UInt8},
    Enc.encodeAll enc xs = some bs → ∀ x ∈ xs, ∃ b, enc x = some b
  | [], _, _ => by simp
  | x :: xs, bs, h => by
    unfold Enc.encodeAll at h
    cases hx : enc x with
    | none => rw [hx] at h; cases h
    | some bx =>
      cases hxs : Enc.encodeAll enc xs with
      | none => rw [hx, hxs] at h; cases h
      | some bxs =>
        intro y hy
        rcases List.mem_cons.1 hy with rfl | hy
        · exact ⟨bx, hx⟩
        · exact encodeAll_mem hxs y hy

theorem encodeSlice_some {s b : List UInt8} (h : encodeSlice s = some b) :
    s.length < 2 ^ 32 ∧ b = encodeU32 (BitVec.ofNat 32 s.length) ++ s := by
  have hl : s.length < 2 ^ 32 := by
    unfold encodeSlice encodeUsize at h
    split at h
    · omega
    · cases h
  rw [encodeSlice_eq hl] at h
  cases h
  exact ⟨hl, rfl⟩

theorem encodeUsize_some {n : Nat} {b : List UInt8} (h : encodeUsize n = some b) :
    n < 2 ^ 32 ∧ b = encodeU32 (BitVec.ofNat 32 n) := by
  unfold encodeUsize at h
  split at h
  · cases h; exact ⟨by omega, rfl⟩
  · cases h

theorem dec_unlimited {s : List UInt8} (hl : s.length < 2 ^ 32) (h : validUtf8 s = true) :
    Dec readUnlimitedString (encodeU32 (BitVec.ofNat 32 s.length) ++ s) s := by
  refine (Dec.u32 _).bind ?_
  rw [toNat_ofNat32 hl]
  refine (Dec.readBytes s).bind_nil ?_
  rw [if_pos h]
  exact .pure _

theorem encEntry_some {e : BitVec 32 × List UInt8} {b : List UInt8} (h : encEntry e = some b) :
    e.2.length < 2 ^ 32 ∧
      b = encodeU32 e.1 ++ (encodeU32 (BitVec.ofNat 32 e.2.length) ++ e.2) := by
  unfold encEntry at h
  cases hs : encodeSlice e.2 with
  | none => rw [hs] at h; cases h
  | some c =>
    rw [hs] at h
    cases h
    obtain ⟨h1, rfl⟩ := encodeSlice_some hs
    exact ⟨h1, rfl⟩

theorem dec_naming {e : BitVec 32 × List UInt8} {b : List UInt8} (h : encEntry e = some b)
    (hf : NameFits e.2) : Dec readNaming b ⟨e.1, e.2⟩ := by
  obtain ⟨h1, rfl⟩ := encEntry_some h
  exact (Dec.u32 _).bind ((dec_unlimited h1 hf).bind_nil (.pure _))

theorem dec_skipNaming {e : BitVec 32 × List UInt8} {b : List UInt8} (h : encEntry e = some b)
    (hf : NameFits e.2) (hl : e.2.length ≤ 100000) : Dec skipNaming b () := by
  obtain ⟨h1, rfl⟩ := encEntry_some h
  exact (Dec.u32 _).bind (dec_skipString ⟨hl, hf⟩)

theorem forall₂_eq {xs : List Naming} {l : List (BitVec 32 × List UInt8)}
    (h : List.Forall₂ (fun x e => x = ⟨e.1, e.2⟩) xs l) :
    xs.map (fun x => (x.index, x.name)) = l := by
  induction h with
  | nil => rfl
  | cons h1 _ ih => subst h1; simp [ih]

theorem map_entries {l : List (BitVec 32 × List UInt8)} {b : Enc.Builder}
    (h : buildMap l = some b) (hl : l.length < 2 ^ 32) (hf : ∀ e ∈ l, NameFits e.2) {r : Reader}
    (hr : r.rest = encodeMap b) : ∃ s, SectionLimited.new r = .ok s ∧ entries s l := by
  rw [buildMap_eq] at h
  obtain ⟨bs, h1, rfl⟩ := buildFrom_iff.1 h
  obtain ⟨bs', h2, h3⟩ := decP_all (item := readNaming) (enc := encEntry) (es := l)
    (P := fun x e => x = ⟨e.1, e.2⟩) (by
      intro e he
      obtain ⟨b, hb⟩ := encodeAll_mem h1 e he
      exact ⟨b, hb, (dec_naming hb (hf e he)).toP rfl⟩)
  rw [h1] at h2
  cases h2
  obtain ⟨s, h4, -, xs, h5, h6⟩ := decP_limited hl h3 hr
  exact ⟨s, h4, xs, h5, forall₂_eq h6⟩

theorem map_skip {l : List (BitVec 32 × List UInt8)} {b : Enc.Builder}
    (h : buildMap l = some b) (hl : l.length < 2 ^ 32)
    (hf : ∀ e ∈ l, NameFits e.2 ∧ e.2.length ≤ 100000) :
    Dec (skipItems skipNaming) (encodeMap b) () := by
  rw [buildMap_eq] at h
  obtain ⟨bs, h1, rfl⟩ := buildFrom_iff.1 h
  obtain ⟨bs', h2, h3⟩ := decP_all (item := skipNaming) (enc := encEntry) (es := l)
    (P := fun _ _ => True) (by
      intro e he
      obtain ⟨b, hb⟩ := encodeAll_mem h1 e he
      exact ⟨b, hb, (dec_skipNaming hb (hf e he).1 (hf e he).2).toP trivial⟩)
  rw [h1] at h2
  cases h2
  exact dec_skipItems hl h3

theorem decP_indirect {e : BitVec 32 × List (BitVec 32 × List UInt8)} {b : List UInt8}
    (h : encNested e = some b) (hl : e.2.length < 2 ^ 32)
    (hf : ∀ x ∈ e.2, NameFits x.2 ∧ x.2.length ≤ 100000) :
    DecP readIndirectNaming b (fun x => x.index = e.1 ∧ entries x.names e.2) := by
  unfold encNested at h
  cases hb : buildMap e.2 with
  | none => rw [hb] at h; cases h
  | some c =>
    rw [hb] at h
    cases h
    refine (Dec.u32 _).bindP ?_
    have := decP_bind_skip (b2 := []) (g := fun names => do
        let names ← limited names
        (pure ⟨e.1, names⟩ : R IndirectNaming))
      (Q := fun x => x.index = e.1 ∧ entries x.names e.2) (map_skip hb hl hf) (by
        intro r hr
        obtain ⟨s, h1, h2⟩ := map_entries hb hl (fun x hx => (hf x hx).1) hr
        intro q tail hq
        rw [bind_apply]
        unfold limited
        rw [h1]
        exact ⟨_, rfl, rfl, h2⟩)
    rwa [List.append_nil] at this

theorem nested_entries {l : List (BitVec 32 × List (BitVec 32 × List UInt8))} {b : Enc.Builder}
    (h : buildNested l = some b) (hl : l.length < 2 ^ 32) (hf : ∀ e ∈ l, e.2.length < 2 ^ 32 ∧
      ∀ x ∈ e.2, NameFits x.2 ∧ x.2.length ≤ 100000) {r : Reader}
    (hr : r.rest = encodeMap b) : ∃ s, SectionLimited.new r = .ok s ∧ nestedEntries s l := by
  rw [buildNested_eq] at h
  obtain ⟨bs, h1, rfl⟩ := buildFrom_iff.1 h
  obtain ⟨bs', h2, h3⟩ := decP_all (item := readIndirectNaming) (enc := encNested) (es := l)
    (P := fun x e => x.index = e.1 ∧ entries x.names e.2) (by
      intro e he
      obtain ⟨b, hb⟩ := encodeAll_mem h1 e he
      exact ⟨b, hb, decP_indirect hb (hf e he).1 (hf e he).2⟩)
  rw [h1] at h2
  cases h2
  obtain ⟨s, h4, -, xs, h5, h6⟩ := decP_limited hl h3 hr
  exact ⟨s, h4, xs, h5, h6⟩

/-! ### Subsections -/

/-- A subsection as it is framed. -/
theorem decP_sub {id : UInt8} {content : List UInt8} {P : Name → Prop} (hid : id < 128)
    (hc : content.length < 2 ^ 32)
    (h : ∀ r : Reader, r.rest = content → ∃ x, nameFromReader id r = .ok x ∧ P x) :
    DecP readSubsection ([id] ++ encodeU32 (BitVec.ofNat 32 content.length) ++ content) P := by
  rw [List.append_assoc]
  have h7 : Dec readU7 [id] id := by
    refine (Dec.readU8 id).bind_nil ?_
    have : id &&& 0x80 = 0 := (and80_eq_zero_iff id).2 (UInt8.lt_iff_toNat_lt.1 hid)
    simp only [this]
    exact .pure _
  refine h7.bindP ?_
  have hr : DecP readReader (encodeU32 (BitVec.ofNat 32 content.length) ++ content)
      (fun r => r.rest = content) := by
    refine (Dec.u32 _).bindP ?_
    rw [toNat_ofNat32 hc]
    intro r tail hq
    exact ⟨_, Dec.skip ((Dec.readBytes content).bind_nil (.pure ())) r tail hq, rfl⟩
  have := hr.bind_nil (g := fun reader => (fun r => (nameFromReader id reader).map (·, r) : R Name))
    (Q := P) ?_
  · exact this
  · intro r hr q tail hq
    obtain ⟨x, h1, h2⟩ := h r hr
    exact ⟨x, by rw [h1]; rfl, h2⟩

theorem length_encodeMap (b : Enc.Builder) : mapSize b = (encodeMap b).length := by
  simp [mapSize, encodeMap, encodingSize]

theorem mapSubsection_some {id : UInt8} {c : Enc.Builder} {b : List UInt8}
    (h : mapSubsection id c = some b) : (encodeMap c).length < 2 ^ 32 ∧
      b = [id] ++ encodeU32 (BitVec.ofNat 32 (encodeMap c).length) ++ encodeMap c := by
  unfold mapSubsection at h
  rw [length_encodeMap] at h
  cases hs : encodeUsize (encodeMap c).length with
  | none => rw [hs] at h; cases h
  | some x =>
    rw [hs] at h
    obtain ⟨h1, rfl⟩ := encodeUsize_some hs
    cases h
    exact ⟨h1, rfl⟩

theorem eof_of_rest {r : Reader} (h : r.rest = []) : r.eof = true := by
  have := congrArg List.length h
  rw [Reader.length_rest] at this
  simp only [List.length_nil] at this
  unfold Reader.eof Reader.maxPosition
  simp
  omega

theorem not_eof_of_rest {r : Reader} (h : r.rest ≠ []) : r.eof = false := by
  have : r.rest.length ≠ 0 := by simpa using h
  rw [Reader.length_rest] at this
  unfold Reader.eof Reader.maxPosition
  simp
  omega

theorem readModuleName_ok {n : List UInt8} (h : n.length ≤ 100000 ∧ validUtf8 n = true)
    {r : Reader} (hr : r.rest = encodeU32 (BitVec.ofNat 32 n.length) ++ n) :
    ∃ x, readModuleName r = .ok x ∧ Says x (.module n) := by
  have := dec_string (s := n) h r [] (by simpa using hr)
  unfold readModuleName
  rw [this]
  have he : (r.advance (encodeU32 (BitVec.ofNat 32 n.length) ++ n).length).eof = true :=
    eof_of_rest (by rw [Reader.rest_advance, hr]; simp)
  simp only [he]
  exact ⟨_, rfl, rfl⟩

theorem directId_facts : ∀ k : Direct, directId k < 128 ∧ directId k ≠ 0 ∧
    directOf (directId k) = some k := by
  intro k; cases k <;> decide

theorem indirectId_facts : ∀ k : Indirect, indirectId k < 128 ∧ indirectId k ≠ 0 ∧
    directOf (indirectId k) = none ∧ indirectOf (indirectId k) = some k := by
  intro k; cases k <;> decide

theorem other_id {id : UInt8} : (id ≠ 0 ∧ directOf id = none ∧ indirectOf id = none) ↔ 12 ≤ id := by
  have : ∀ x : BitVec 8, (UInt8.ofBitVec x ≠ 0 ∧ directOf (UInt8.ofBitVec x) = none ∧
      indirectOf (UInt8.ofBitVec x) = none) ↔ 12 ≤ UInt8.ofBitVec x := by decide +kernel
  exact this id.toBitVec

theorem decP_build {sub : Sub} {b : List UInt8} (h : sub.build = some b) (hf : sub.Fits) :
    DecP readSubsection b (Says · sub) := by
  cases sub with
  | module n =>
    have h0 : n.length < 2 ^ 32 := by have := hf.1; omega
    simp only [Sub.build, moduleSubsection, if_pos h0, encodeSlice_eq h0] at h
    cases hs : encodeUsize (encodingSize (BitVec.ofNat 32 n.length) + n.length) with
    | none => rw [hs] at h; cases h
    | some x =>
      rw [hs] at h
      cases h
      obtain ⟨h1, rfl⟩ := encodeUsize_some hs
      have hl : encodingSize (BitVec.ofNat 32 n.length) + n.length =
          (encodeU32 (BitVec.ofNat 32 n.length) ++ n).length := by simp [encodingSize]
      rw [hl] at h1 ⊢
      refine decP_sub (by decide) h1 fun r hr => ?_
      unfold nameFromReader
      rw [if_pos rfl]
      exact readModuleName_ok hf hr
  | names k l =>
    unfold Sub.build at h
    cases hc : buildMap l with
    | none => simp only [hc] at h; cases h
    | some c =>
      simp only [hc] at h
      obtain ⟨h1, rfl⟩ := mapSubsection_some h
      obtain ⟨i1, i2, i3⟩ := directId_facts k
      refine decP_sub i1 h1 fun r hr => ?_
      obtain ⟨s, h2, h3⟩ := map_entries hc hf.1 hf.2 hr
      refine ⟨.direct k s, ?_, rfl, h3⟩
      unfold nameFromReader
      rw [if_neg i2, i3, h2]
      rfl
  | nested k l =>
    unfold Sub.build at h
    cases hc : buildNested l with
    | none => simp only [hc] at h; cases h
    | some c =>
      simp only [hc] at h
      obtain ⟨h1, rfl⟩ := mapSubsection_some h
      obtain ⟨i1, i2, i3, i4⟩ := indirectId_facts k
      refine decP_sub i1 h1 fun r hr => ?_
      obtain ⟨s, h2, h3⟩ := nested_entries hc hf.1 hf.2 hr
      refine ⟨.indirect k s, ?_, rfl, h3⟩
      unfold nameFromReader
      rw [if_neg i2, i3, i4, h2]
      rfl
  | other id d =>
    simp only [Sub.build, rawSubsection] at h
    cases hs : encodeSlice d with
    | none => rw [hs] at h; cases h
    | some x =>
      rw [hs] at h
      cases h
      obtain ⟨h1, rfl⟩ := encodeSlice_some hs
      obtain ⟨i1, i2, i3⟩ := other_id.2 hf.1
      rw [← List.append_assoc]
      refine decP_sub hf.2 h1 fun r hr => ?_
      refine ⟨.unknown id r.rest (r.originalPosition, r.originalOffset + r.maxPosition), ?_, rfl, hr⟩
      unfold nameFromReader
      rw [if_neg i1, i2, i3]

theorem build_ne_nil {sub : Sub} {b : List UInt8} (h : sub.build = some b) : b ≠ [] := by
  cases sub with
  | module n =>
    simp only [Sub.build, moduleSubsection] at h
    by_cases h0 : n.length < 2 ^ 32
    · rw [if_pos h0] at h
      cases hs : encodeUsize (encodingSize (BitVec.ofNat 32 n.length) + n.length) with
      | none => rw [hs] at h; cases h
      | some x =>
        cases hs' : encodeSlice n with
        | none => rw [hs, hs'] at h; cases h
        | some y => rw [hs, hs'] at h; cases h; nofun
    · rw [if_neg h0] at h; cases h
  | names k l =>
    unfold Sub.build at h
    cases hc : buildMap l with
    | none => simp only [hc] at h; cases h
    | some c =>
      simp only [hc] at h
      obtain ⟨-, rfl⟩ := mapSubsection_some h
      nofun
  | nested k l =>
    unfold Sub.build at h
    cases hc : buildNested l with
    | none => simp only [hc] at h; cases h
    | some c =>
      simp only [hc] at h
      obtain ⟨-, rfl⟩ := mapSubsection_some h
      nofun
  | other id d =>
    simp only [Sub.build, rawSubsection] at h
    cases hs : encodeSlice d with
    | none => rw [hs] at h; cases h
    | some x => rw [hs] at h; cases h; nofun

theorem section_says : ∀ {subs : List Sub} {b : List UInt8}, Enc.encodeAll Sub.build subs = some b →
    (∀ s ∈ subs, s.Fits) → ∀ {n : Nat} {r : Reader}, r.rest = b → b.length ≤ n →
    ∃ xs, subsectionsFrom n r = .ok xs ∧ List.Forall₂ Says xs subs
  | [], b, h, _, n, r, hr, _ => by
    cases h
    refine ⟨[], ?_, .nil⟩
    cases n with
    | zero => rfl
    | succ n => unfold subsectionsFrom; rw [if_pos (eof_of_rest hr)]
  | s :: ss, b, h, hf, n, r, hr, hn => by
    unfold Enc.encodeAll at h
    cases h1 : s.build with
    | none => rw [h1] at h; cases h
    | some b1 =>
      cases h2 : Enc.encodeAll Sub.build ss with
      | none => rw [h1, h2] at h; cases h
      | some b2 =>
        rw [h1, h2] at h
        cases h
        have hne := build_ne_nil h1
        have hl : 0 < b1.length := List.length_pos_iff.2 hne
        simp only [List.length_append] at hn
        obtain ⟨x, h3, h4⟩ := decP_build h1 (hf s (List.mem_cons_self ..)) r b2 hr
        cases n with
        | zero => omega
        | succ n =>
          obtain ⟨xs, h5, h6⟩ := section_says h2 (fun y hy => hf y (List.mem_cons_of_mem _ hy))
            (n := n) (r := r.advance b1.length) (by simp [hr]) (by omega)
          refine ⟨x :: xs, ?_, .cons h4 h6⟩
          unfold subsectionsFrom
          rw [not_eof_of_rest (by rw [hr]; simp [hne]), h3]
          simp only [h5]
          rfl

end Verif.Names
