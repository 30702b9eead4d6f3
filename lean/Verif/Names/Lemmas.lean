import Verif.Names.Codec
import Verif.Reenc.Twin
/-! What wasmparser accepts in a name section fits what wasm-encoder can write, and the re-encoder
writes it with the indices mapped. -/
namespace Verif.Names
open Verif.Reader Verif.Leb Verif.Items Verif.Framing Verif.Types Spec

theorem internalReadString_ok {n : Nat} {r r' : Reader} {s : List UInt8}
    (h : internalReadString n r = .ok (s, r')) :
    validUtf8 s = true ∧ s.length = n ∧ r' = r.advance n ∧ n ≤ r.rest.length := by
  obtain ⟨b, r1, h1, h2⟩ := bind_ok.mp h
  rw [readBytes_eq] at h1
  split at h1
  · rename_i hn
    cases h1
    by_cases hv : validUtf8 (r.rest.take n) = true
    · rw [if_pos hv] at h2
      cases h2
      exact ⟨hv, by simp; omega, rfl, hn⟩
    · rw [if_neg hv] at h2
      obtain ⟨_, _, _, h3⟩ := bind_ok.mp h2
      cases h3
  · cases h1

theorem advanceBy_ok {n : Nat} {r r' : Reader} (h : advanceBy n r = .ok ((), r')) :
    r' = r.advance n ∧ n ≤ r.rest.length := by
  unfold advanceBy at h
  rw [ensureHasBytes_eq] at h
  by_cases hn : n ≤ r.rest.length
  · rw [if_pos hn] at h
    cases h
    exact ⟨rfl, hn⟩
  · rw [if_neg hn] at h
    cases h

theorem readString_ok {r r' : Reader} {s : List UInt8} (h : readString r = .ok (s, r')) :
    s.length ≤ 100000 ∧ validUtf8 s = true := by
  obtain ⟨n, r1, h1, h2⟩ := bind_ok.mp h
  by_cases hn : n.toNat > maxWasmStringSize
  · rw [if_pos hn] at h2
    obtain ⟨_, _, _, h3⟩ := bind_ok.mp h2
    cases h3
  · rw [if_neg hn] at h2
    obtain ⟨h3, h4, -⟩ := internalReadString_ok h2
    unfold maxWasmStringSize at hn
    exact ⟨by omega, h3⟩

theorem Twin.advanceBy (n : Nat) : Twin (advanceBy n) (advanceBy n) (fun _ _ => True) := by
  intro r a r' e
  obtain ⟨rfl, hn⟩ := advanceBy_ok e
  have hl : (r.rest.take n).length = n := by simp; omega
  refine ⟨r.rest.take n, by simp, by rw [hl], fun q tail hq => ⟨(), ?_, trivial⟩⟩
  unfold Reader.advanceBy
  rw [ensureHasBytes_eq, if_pos (by rw [hq, List.length_append, hl]; omega), hl]
  rfl

theorem Twin.skipString : Twin skipString skipString (fun _ _ => True) :=
  Twin1.u32.toTwin.bindE fun _ => .ite (fun _ => .pos fun _ _ => .fail) fun _ => Twin.advanceBy _

theorem Twin.skipNaming : Twin skipNaming skipNaming (fun _ _ => True) :=
  Twin1.u32.toTwin.bindE fun _ => Twin.skipString

theorem Twin.skipItems {item : R Unit} (h : Twin item item (fun _ _ => True)) :
    Twin (skipItems item) (skipItems item) (fun _ _ => True) :=
  Twin1.u32.toTwin.bindE fun n => (h.many n.toNat).bind fun _ _ _ => .pure trivial

theorem readNaming_utf8 : Yields readNaming (fun x => validUtf8 x.name = true) := by
  intro r a r' h
  obtain ⟨i, r1, -, h2⟩ := bind_ok.mp h
  obtain ⟨s, r2, h3, h4⟩ := bind_ok.mp h2
  cases h4
  obtain ⟨n, r3, -, h5⟩ := bind_ok.mp h3
  exact (internalReadString_ok h5).1

/-- Skipping an entry ends where reading it ends, and bounds the name. -/
theorem naming_skip {r r1 r2 : Reader} {x : Naming} {u : Unit} (h1 : readNaming r = .ok (x, r1))
    (h2 : skipNaming r = .ok (u, r2)) : r1 = r2 ∧ x.name.length ≤ 100000 := by
  obtain ⟨i, q1, e1, h1⟩ := bind_ok.mp h1
  obtain ⟨s, q2, e2, h1⟩ := bind_ok.mp h1
  cases h1
  obtain ⟨j, q3, e3, h2⟩ := bind_ok.mp h2
  rw [e1] at e3
  cases e3
  obtain ⟨n, q4, e4, e2⟩ := bind_ok.mp e2
  obtain ⟨n', q5, e5, h2⟩ := bind_ok.mp h2
  rw [e4] at e5
  cases e5
  obtain ⟨-, hl, rfl, -⟩ := internalReadString_ok e2
  by_cases hn : n.toNat > maxWasmStringSize
  · rw [if_pos hn] at h2
    obtain ⟨_, _, _, h3⟩ := bind_ok.mp h2
    cases h3
  · rw [if_neg hn] at h2
    obtain ⟨rfl, -⟩ := advanceBy_ok h2
    unfold maxWasmStringSize at hn
    exact ⟨rfl, by show s.length ≤ _; omega⟩

theorem many_skip : ∀ {n : Nat} {r r1 r2 : Reader} {xs : List Naming} {us : List Unit},
    readMany readNaming n r = .ok (xs, r1) → readMany skipNaming n r = .ok (us, r2) →
    ∀ x ∈ xs, x.name.length ≤ 100000
  | 0, r, r1, r2, xs, us, h1, _ => by cases h1; simp
  | n + 1, r, r1, r2, xs, us, h1, h2 => by
    obtain ⟨x, q1, e1, h1⟩ := bind_ok.mp h1
    obtain ⟨xs', q2, e2, h1⟩ := bind_ok.mp h1
    cases h1
    obtain ⟨u, q3, e3, h2⟩ := bind_ok.mp h2
    obtain ⟨us', q4, e4, h2⟩ := bind_ok.mp h2
    obtain ⟨rfl, hl⟩ := naming_skip e1 e3
    have := many_skip e2 e4
    intro y hy
    rcases List.mem_cons.1 hy with rfl | hy
    · exact hl
    · exact this y hy

theorem readMany_length {item : R α} : ∀ {n : Nat} {r r' : Reader} {xs : List α},
    readMany item n r = .ok (xs, r') → xs.length = n
  | 0, _, _, _, h => by cases h; rfl
  | n + 1, _, _, _, h => by
    obtain ⟨x, q1, e1, h1⟩ := bind_ok.mp h
    obtain ⟨xs', q2, e2, h1⟩ := bind_ok.mp h1
    cases h1
    simp [readMany_length e2]

theorem readMany_yields {item : R α} {P : α → Prop} (hy : Yields item P) :
    ∀ {n : Nat} {r r' : Reader} {xs : List α}, readMany item n r = .ok (xs, r') → ∀ x ∈ xs, P x
  | 0, _, _, _, h => by cases h; simp
  | n + 1, _, _, _, h => by
    obtain ⟨x, q1, e1, h1⟩ := bind_ok.mp h
    obtain ⟨xs', q2, e2, h1⟩ := bind_ok.mp h1
    cases h1
    intro y h
    rcases List.mem_cons.1 h with rfl | h
    · exact hy _ _ _ e1
    · exact readMany_yields hy e2 y h

theorem entries_fits {s : SectionLimited} {l : List (BitVec 32 × List UInt8)} (h : entries s l) :
    l.length < 2 ^ 32 ∧ ∀ e ∈ l, NameFits e.2 := by
  obtain ⟨xs, h1, rfl⟩ := h
  obtain ⟨r', h2, -⟩ := collectFrom_ok.1 h1
  refine ⟨?_, ?_⟩
  · rw [List.length_map, readMany_length h2]; exact s.count.isLt
  · intro e he
    obtain ⟨x, hx, rfl⟩ := List.mem_map.1 he
    exact readMany_yields readNaming_utf8 h2 x hx

/-- Names in a nested map are at most as long as `skip_string` allows. -/
theorem indirect_bounded : Yields readIndirectNaming (fun x => ∀ l, entries x.names l →
    ∀ e ∈ l, e.2.length ≤ 100000) := by
  intro r a r' h
  obtain ⟨i, q1, e1, h⟩ := bind_ok.mp h
  obtain ⟨sub, q2, e2, h⟩ := bind_ok.mp h
  obtain ⟨s, q3, e3, h⟩ := bind_ok.mp h
  cases h
  rintro l ⟨xs, h1, rfl⟩ e he
  obtain ⟨x, hx, rfl⟩ := List.mem_map.1 he
  obtain ⟨bytes, -, -, d⟩ := (Reader.Twin.skip (Twin.skipItems Twin.skipNaming)) _ _ _ e2
  obtain ⟨s', e4, e5, -, e6⟩ := d ⟨bytes, 0, 0⟩ [] (by simp [Reader.rest])
  obtain ⟨u, e7, -⟩ := e6 sub [] (by rw [e5]; simp)
  obtain ⟨n, q4, e8, e7⟩ := bind_ok.mp e7
  obtain ⟨us, q5, e9, -⟩ := bind_ok.mp e7
  unfold limited SectionLimited.new at e3
  rw [e8] at e3
  cases e3
  obtain ⟨r', h2, -⟩ := collectFrom_ok.1 h1
  exact many_skip h2 e9 x hx

theorem nested_fits {s : SectionLimited} {l : List (BitVec 32 × List (BitVec 32 × List UInt8))}
    (h : nestedEntries s l) : l.length < 2 ^ 32 ∧ ∀ e ∈ l, e.2.length < 2 ^ 32 ∧
      ∀ x ∈ e.2, NameFits x.2 ∧ x.2.length ≤ 100000 := by
  obtain ⟨xs, h1, h3⟩ := h
  obtain ⟨r', h2, -⟩ := collectFrom_ok.1 h1
  refine ⟨?_, ?_⟩
  · rw [← h3.length_eq, readMany_length h2]; exact s.count.isLt
  · have h4 := readMany_yields indirect_bounded h2
    clear h1 h2
    induction h3 with
    | nil => simp
    | cons h5 _ ih =>
      intro e he
      rcases List.mem_cons.1 he with rfl | he
      · have := entries_fits h5.2
        exact ⟨this.1, fun x hx => ⟨this.2 x hx, h4 _ (List.mem_cons_self ..) _ h5.2 x hx⟩⟩
      · exact ih (fun x hx => h4 x (List.mem_cons_of_mem _ hx)) e he

theorem readU7_ok {r r' : Reader} {b : UInt8} (h : readU7 r = .ok (b, r')) : b < 128 := by
  obtain ⟨x, q, -, h⟩ := bind_ok.mp h
  by_cases hx : x &&& 0x80 ≠ 0
  · rw [if_pos hx] at h
    obtain ⟨_, _, _, h3⟩ := bind_ok.mp h
    cases h3
  · rw [if_neg hx] at h
    cases h
    exact UInt8.lt_iff_toNat_lt.2 ((and80_eq_zero_iff _).1 (Decidable.not_not.1 hx))

theorem readSubsection_ok {r r' : Reader} {x : Name} (h : readSubsection r = .ok (x, r')) :
    ∃ id q q', readU7 r = .ok (id, q') ∧ readReader q' = .ok (q, r') ∧ id < 128 ∧
      nameFromReader id q = .ok x := by
  obtain ⟨id, q1, e1, h⟩ := bind_ok.mp h
  obtain ⟨q, q2, e2, h⟩ := bind_ok.mp h
  cases hn : nameFromReader id q with
  | error e => rw [hn] at h; cases h
  | ok y =>
    rw [hn] at h
    cases h
    exact ⟨id, q, q1, e1, e2, readU7_ok e1, hn⟩

theorem map_ok {e : Except Err α} {f : α → β} {b : β} (h : e.map f = .ok b) :
    ∃ a, e = .ok a ∧ f a = b := by
  cases e with
  | error _ => cases h
  | ok a => cases h; exact ⟨a, rfl, rfl⟩

theorem name_fits {id : UInt8} {q : Reader} {x : Name} {sub : Sub} (hid : id < 128)
    (h : nameFromReader id q = .ok x) (hs : Says x sub) : sub.Fits := by
  unfold nameFromReader at h
  by_cases h0 : id = 0
  · rw [if_pos h0] at h
    unfold readModuleName at h
    cases hr : readString q with
    | error e => rw [hr] at h; cases h
    | ok p =>
      obtain ⟨n, q'⟩ := p
      rw [hr] at h
      by_cases he : q'.eof = true
      · simp only [he] at h
        cases h
        cases sub with
        | module n' => cases hs; exact readString_ok hr
        | _ => cases hs
      · simp only [he] at h
        cases h
  · rw [if_neg h0] at h
    cases hd : directOf id with
    | some k =>
      rw [hd] at h
      obtain ⟨s, -, rfl⟩ := map_ok h
      cases sub with
      | names k' l => exact entries_fits hs.2
      | _ => cases hs
    | none =>
      cases hi : indirectOf id with
      | some k =>
        rw [hd, hi] at h
        obtain ⟨s, -, rfl⟩ := map_ok h
        cases sub with
        | nested k' l => exact nested_fits hs.2
        | _ => cases hs
      | none =>
        rw [hd, hi] at h
        cases h
        cases sub with
        | other id' d =>
          obtain ⟨rfl, -⟩ := hs
          exact ⟨other_id.1 ⟨h0, hd, hi⟩, hid⟩
        | _ => cases hs

theorem subsections_mem : ∀ {n : Nat} {r : Reader} {xs : List Name},
    subsectionsFrom n r = .ok xs → ∀ x ∈ xs, ∃ id q, id < 128 ∧ nameFromReader id q = .ok x
  | 0, _, _, h => by cases h; simp
  | n + 1, r, xs, h => by
    unfold subsectionsFrom at h
    by_cases he : r.eof = true
    · rw [if_pos he] at h; cases h; simp
    · rw [if_neg he] at h
      cases hs : readSubsection r with
      | error e => rw [hs] at h; cases h
      | ok p =>
        obtain ⟨x, r'⟩ := p
        rw [hs] at h
        cases hr : subsectionsFrom n r' with
        | error e => simp only [hr] at h; cases h
        | ok ys =>
          simp only [hr] at h
          cases h
          intro y hy
          rcases List.mem_cons.1 hy with rfl | hy
          · obtain ⟨id, q, -, -, -, h1, h2⟩ := readSubsection_ok hs
            exact ⟨id, q, h1, h2⟩
          · exact subsections_mem hr y hy

theorem section_fits {r : Reader} {subs : List Sub} (h : SectionSays r subs) :
    ∀ s ∈ subs, s.Fits := by
  obtain ⟨xs, h1, h2⟩ := h
  have h3 := subsections_mem h1
  clear h1
  induction h2 with
  | nil => simp
  | cons h4 _ ih =>
    intro s hs
    rcases List.mem_cons.1 hs with rfl | hs
    · obtain ⟨id, q, h5, h6⟩ := h3 _ (List.mem_cons_self ..)
      exact name_fits h5 h6 h4
    · exact ih (fun x hx => h3 x (List.mem_cons_of_mem _ hx)) s hs

/-! ### The re-encoder -/

theorem nameMapFrom_eq (f : BitVec 32 → BitVec 32) : ∀ (xs : List Naming) (b : Enc.Builder),
    nameMapFrom f b xs =
      ((xs.map fun x => (x.index, x.name)).map fun e => (f e.1, e.2)).foldlM
        (fun b e => append b e.1 e.2) b
  | [], _ => rfl
  | x :: xs, b => by
    unfold nameMapFrom
    simp only [List.map_cons, List.foldlM_cons]
    cases append b (f x.index) x.name with
    | none => rfl
    | some c => exact nameMapFrom_eq f xs c

theorem nameMap_eq {f : BitVec 32 → BitVec 32} {s : SectionLimited}
    {l : List (BitVec 32 × List UInt8)} (h : entries s l) :
    nameMap f s = buildMap (l.map fun e => (f e.1, e.2)) := by
  obtain ⟨xs, h1, rfl⟩ := h
  unfold nameMap
  rw [h1]
  exact nameMapFrom_eq f xs {}

theorem indirectNameMapFrom_eq (f : BitVec 32 → BitVec 32) {xs : List IndirectNaming}
    {l : List (BitVec 32 × List (BitVec 32 × List UInt8))}
    (h : List.Forall₂ (fun x e => x.index = e.1 ∧ entries x.names e.2) xs l) :
    ∀ b, indirectNameMapFrom f b xs = (l.map fun e => (f e.1, e.2)).foldlM
      (fun b e => do pure (appendIndirect b e.1 (← buildMap e.2))) b := by
  induction h with
  | nil => intro b; rfl
  | cons h1 _ ih =>
    rename_i x e xs l _
    intro b
    unfold indirectNameMapFrom
    simp only [List.map_cons, List.foldlM_cons]
    rw [nameMap_eq h1.2, h1.1]
    simp only [id, List.map_id']
    cases buildMap e.2 with
    | none => rfl
    | some c => exact ih _

theorem indirectNameMap_eq {f : BitVec 32 → BitVec 32} {s : SectionLimited}
    {l : List (BitVec 32 × List (BitVec 32 × List UInt8))} (h : nestedEntries s l) :
    indirectNameMap f s = buildNested (l.map fun e => (f e.1, e.2)) := by
  obtain ⟨xs, h1, h2⟩ := h
  unfold indirectNameMap
  rw [h1]
  exact indirectNameMapFrom_eq f h2 {}

theorem directMap_eq (m : Reenc.Maps) (k : Direct) :
    directMap m k = Reenc.Spec.into m (directSpace k) := by cases k <;> rfl

theorem indirectMap_eq (m : Reenc.Maps) (k : Indirect) :
    indirectMap m k = Reenc.Spec.into m (indirectSpace k) := by cases k <;> rfl

theorem nameSubsection_eq {m : Reenc.Maps} {x : Name} {sub : Sub} (h : Says x sub) :
    nameSubsection m x = (sub.rename m).build := by
  cases x <;> cases sub <;> try exact h.elim
  · cases h; rfl
  · obtain ⟨rfl, h⟩ := h
    simp only [nameSubsection, Sub.rename, Sub.build, nameMap_eq h, directMap_eq]
  · obtain ⟨rfl, h⟩ := h
    simp only [nameSubsection, Sub.rename, Sub.build, indirectNameMap_eq h, indirectMap_eq]
  · obtain ⟨rfl, rfl⟩ := h; rfl

theorem nameSection_eq {m : Reenc.Maps} {r : Reader} {subs : List Sub} (h : SectionSays r subs) :
    nameSection m r = Enc.encodeAll Sub.build (subs.map (Sub.rename m)) := by
  obtain ⟨xs, h1, h2⟩ := h
  unfold nameSection
  rw [h1]
  clear h1
  show Enc.encodeAll (nameSubsection m) xs = _
  induction h2 with
  | nil => rfl
  | cons h3 _ ih =>
    simp only [List.map_cons]
    unfold Enc.encodeAll
    rw [nameSubsection_eq h3, ih]

theorem nameMap_some {f : BitVec 32 → BitVec 32} {s : SectionLimited} {b : Enc.Builder}
    (h : nameMap f s = some b) : ∃ l, entries s l := by
  unfold nameMap at h
  cases hc : s.collect readNaming with
  | error e => rw [hc] at h; cases h
  | ok xs => exact ⟨_, xs, hc, rfl⟩

theorem indirectNameMapFrom_some {f : BitVec 32 → BitVec 32} : ∀ {xs : List IndirectNaming}
    {b b' : Enc.Builder}, indirectNameMapFrom f b xs = some b' →
    ∃ l : List (BitVec 32 × List (BitVec 32 × List UInt8)),
      List.Forall₂ (fun x e => x.index = e.1 ∧ entries x.names e.2) xs l
  | [], _, _, _ => ⟨[], .nil⟩
  | x :: xs, b, b', h => by
    unfold indirectNameMapFrom at h
    cases hn : nameMap id x.names with
    | none => rw [hn] at h; cases h
    | some c =>
      rw [hn] at h
      obtain ⟨l, hl⟩ := indirectNameMapFrom_some (xs := xs) h
      obtain ⟨e, he⟩ := nameMap_some hn
      exact ⟨(x.index, e) :: l, .cons ⟨rfl, he⟩ hl⟩

theorem indirectNameMap_some {f : BitVec 32 → BitVec 32} {s : SectionLimited} {b : Enc.Builder}
    (h : indirectNameMap f s = some b) : ∃ l, nestedEntries s l := by
  unfold indirectNameMap at h
  cases hc : s.collect readIndirectNaming with
  | error e => rw [hc] at h; cases h
  | ok xs =>
    rw [hc] at h
    obtain ⟨l, hl⟩ := indirectNameMapFrom_some h
    exact ⟨l, xs, hc, hl⟩

theorem nameSubsection_some {m : Reenc.Maps} {x : Name} {b : List UInt8}
    (h : nameSubsection m x = some b) : ∃ sub, Says x sub := by
  cases x with
  | module n r => exact ⟨.module n, rfl⟩
  | direct k s =>
    unfold nameSubsection at h
    cases hn : nameMap (directMap m k) s with
    | none => simp only [hn] at h; cases h
    | some c =>
      obtain ⟨l, hl⟩ := nameMap_some hn
      exact ⟨.names k l, rfl, hl⟩
  | indirect k s =>
    unfold nameSubsection at h
    cases hn : indirectNameMap (indirectMap m k) s with
    | none => simp only [hn] at h; cases h
    | some c =>
      obtain ⟨l, hl⟩ := indirectNameMap_some hn
      exact ⟨.nested k l, rfl, hl⟩
  | unknown id d r => exact ⟨.other id d, rfl, rfl⟩

theorem nameSection_some {m : Reenc.Maps} {r : Reader} {b : List UInt8}
    (h : nameSection m r = some b) : ∃ subs, SectionSays r subs := by
  unfold nameSection at h
  cases hs : subsections r with
  | error e => rw [hs] at h; cases h
  | ok xs =>
    rw [hs] at h
    have : ∀ x ∈ xs, ∃ sub, Says x sub := fun x hx =>
      let ⟨_, hb⟩ := encodeAll_mem (enc := nameSubsection m) h x hx
      nameSubsection_some hb
    clear h
    suffices ∃ subs, List.Forall₂ Says xs subs from
      let ⟨subs, h⟩ := this
      ⟨subs, xs, hs, h⟩
    clear hs
    induction xs with
    | nil => exact ⟨[], .nil⟩
    | cons x xs ih =>
      obtain ⟨s, h1⟩ := this x (List.mem_cons_self ..)
      obtain ⟨ss, h2⟩ := ih fun y hy => this y (List.mem_cons_of_mem _ hy)
      exact ⟨s :: ss, .cons h1 h2⟩

/-! ### Uniqueness -/

theorem entries_unique {s : SectionLimited} {l l' : List (BitVec 32 × List UInt8)}
    (h : entries s l) (h' : entries s l') : l = l' := by
  obtain ⟨xs, h1, rfl⟩ := h
  obtain ⟨ys, h2, rfl⟩ := h'
  rw [h1] at h2
  cases h2
  rfl

theorem forall₂_unique {R : α → β → Prop} (hu : ∀ a b b', R a b → R a b' → b = b') {xs : List α}
    {l : List β} (h : List.Forall₂ R xs l) : ∀ {l' : List β}, List.Forall₂ R xs l' → l = l' := by
  induction h with
  | nil => intro l' h; cases h; rfl
  | cons h1 _ ih =>
    intro l' h'
    cases h' with
    | cons h2 h3 => rw [hu _ _ _ h1 h2, ih h3]

theorem says_unique {x : Name} {s s' : Sub} (h : Says x s) (h' : Says x s') : s = s' := by
  cases x <;> cases s <;> (try exact h.elim) <;> cases s' <;> try exact h'.elim
  · cases h; cases h'; rfl
  · obtain ⟨rfl, h⟩ := h
    obtain ⟨rfl, h'⟩ := h'
    rw [entries_unique h h']
  · obtain ⟨rfl, xs, h1, h2⟩ := h
    obtain ⟨rfl, ys, h3, h4⟩ := h'
    rw [h1] at h3
    cases h3
    rw [forall₂_unique (fun a b b' h h' => ?_) h2 h4]
    exact Prod.ext (h.1.symm.trans h'.1) (entries_unique h.2 h'.2)
  · obtain ⟨rfl, rfl⟩ := h
    obtain ⟨rfl, rfl⟩ := h'
    rfl

end Verif.Names
