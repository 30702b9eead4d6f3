import Verif.CompNames.Spec
import Verif.Custom.DylinkProps
import Verif.Custom.Write
import Verif.Names.Lemmas
/-! Lemmas on `component-name` sections. -/
namespace Verif.CompNames
open Verif.Reader Verif.Leb Verif.Items Verif.Framing Spec
open Verif.Custom hiding Sub

/-! ### Reading -/

theorem coreKind_some {c : UInt8} {k : Kind} : coreKind c = some k ↔ (c, k) ∈ coreSorts := by
  unfold coreKind coreSorts
  simp only [List.mem_cons, Prod.mk.injEq, List.not_mem_nil, or_false]
  grind

theorem compKind_some {c : UInt8} {k : Kind} : compKind c = some k ↔ (c, k) ∈ sorts := by
  unfold compKind sorts
  simp only [List.mem_cons, Prod.mk.injEq, List.not_mem_nil, or_false]
  grind

/-- What `readKind` reads. -/
inductive Sorted : Grammar (Option Kind)
  | known {k b} : IsSort k b → Sorted (some k) b
  | unknown {b} : NoSort b → Sorted none b

theorem exact_kind : Exact readKind Sorted := by
  unfold readKind
  refine (Exact.readU8.bind fun b => Exact.ite (Exact.readU8.bind fun c => .pure _)
    (.pure _)).congr fun k b => ?_
  constructor
  · rintro ⟨c, b1, b2, rfl, rfl, h⟩
    rcases h with ⟨rfl, h⟩ | ⟨hc, h⟩
    · obtain ⟨d, b3, b4, rfl, rfl, rfl, rfl⟩ := h
      cases hk : coreKind d with
      | some k => exact .known (.core (coreKind_some.1 hk))
      | none =>
        refine .unknown (.core fun k hm => ?_)
        rw [coreKind_some.2 hm] at hk
        cases hk
    · obtain ⟨rfl, rfl⟩ := h
      cases hk : compKind c with
      | some k => exact .known (.comp (compKind_some.1 hk))
      | none =>
        refine .unknown (.comp hc fun k hm => ?_)
        rw [compKind_some.2 hm] at hk
        cases hk
  · intro h
    cases h with
    | known h =>
      cases h with
      | @core c k h =>
        exact ⟨0, [0], [c], rfl, rfl, 
          .inl ⟨rfl, c, [c], [], rfl, rfl, (coreKind_some.2 h).symm, rfl⟩⟩
      | @comp c k h =>
        have hc : c ≠ 0 := by
          rintro rfl
          simp [sorts] at h
        exact ⟨c, [c], [], rfl, rfl, .inr ⟨hc, (compKind_some.2 h).symm, rfl⟩⟩
    | unknown h =>
      cases h with
      | @core c h =>
        refine ⟨0, [0], [c], rfl, rfl, .inl ⟨rfl, c, [c], [], rfl, rfl, ?_, rfl⟩⟩
        cases hk : coreKind c with
        | none => rfl
        | some k => exact absurd (coreKind_some.1 hk) (h k)
      | @comp c hc h =>
        refine ⟨c, [c], [], rfl, rfl, .inr ⟨hc, ?_, rfl⟩⟩
        cases hk : compKind c with
        | none => rfl
        | some k => exact absurd (compKind_some.1 hk) (h k)

theorem exactR_naming : ExactR Names.readNaming (fun x e => (x.index, x.name) = e) IsNaming := by
  unfold Names.readNaming
  refine (Exact.u32.bindR (G := fun i e b => ∃ n b1 b2, b = b1 ++ b2 ∧ Name n b1 ∧ e = (i, n) ∧
    b2 = []) fun i => exact_name.bindR (G := fun n e b => e = (i, n) ∧ b = [])
      fun n => ?_).congr fun e b => ?_
  · intro r
    constructor
    · intro a r' x h hq
      cases h
      exact ⟨[], r.rest, rfl, ⟨hq.symm, rfl⟩, rfl⟩
    · rintro x b t e ⟨rfl, rfl⟩
      exact ⟨_, rfl, rfl⟩
  · constructor
    · rintro ⟨i, b1, b2, rfl, h1, n, b3, b4, rfl, h2, rfl, rfl⟩
      simpa using IsNaming.mk (e := (i, n)) h1 h2
    · rintro ⟨h1, h2⟩
      rename_i b1 b2
      exact ⟨_, b1, b2, rfl, h1, _, b2, [], by simp, h2, rfl, rfl⟩

theorem map_iff (r : Reader) (l : List (BitVec 32 × List UInt8)) :
    (∃ s, SectionLimited.new r = .ok s ∧ Names.Spec.entries s l) ↔ Vec IsNaming l r.rest := by
  rw [← collect_iff exactR_naming]
  unfold Names.Spec.entries
  simp only [forall₂_map]
  constructor
  · rintro ⟨s, h1, xs, h2, h3⟩; exact ⟨s, xs, h1, h2, h3⟩
  · rintro ⟨s, xs, h1, h2, h3⟩; exact ⟨s, h1, xs, h2, h3⟩

theorem readComponent_iff (r : Reader) (n : List UInt8) :
    (∃ g, readComponent r = .ok (.component n g)) ↔ Name n r.rest := by
  unfold readComponent
  constructor
  · rintro ⟨g, h⟩
    split at h
    · cases h
    · next n' r' h1 =>
      split at h
      · cases h
      · next he =>
        cases h
        obtain ⟨b, t, e, g, rfl⟩ := (exact_name _ _ _).1 h1
        have he : (r.advance b.length).eof = true := by simpa using he
        rw [eof_iff, Reader.rest_advance, e, List.drop_left] at he
        subst he
        rw [e, List.append_nil]
        exact g
  · intro h
    rw [(exact_name r n (r.advance r.rest.length)).2 ⟨r.rest, [], by simp, h, rfl⟩]
    have : (r.advance r.rest.length).eof = true := eof_advance rfl
    simp [this]

theorem readComponent_ok {r : Reader} {x : CName} (h : readComponent r = .ok x) :
    ∃ n g, x = .component n g := by
  unfold readComponent at h
  split at h
  · cases h
  · split at h
    · cases h
    · cases h; exact ⟨_, _, rfl⟩

@[simp] theorem rest_shrink (r : Reader) : (shrink r).rest = r.rest := by
  simp [shrink, Reader.new, Reader.rest]

theorem from_iff (id : UInt8) (r : Reader) (x : Sub) :
    (∃ a, fromReader id r = .ok a ∧ Says a x) ↔ IsSub id x r.rest := by
  unfold fromReader
  split
  · next h0 =>
    subst h0
    constructor
    · rintro ⟨a, h1, h2⟩
      obtain ⟨n, g, rfl⟩ := readComponent_ok h1
      cases x with
      | component n' => cases h2; exact .component ((readComponent_iff _ _).1 ⟨_, h1⟩)
      | _ => exact h2.elim
    · intro h
      cases h with
      | component h =>
        obtain ⟨g, h1⟩ := (readComponent_iff _ _).2 h
        exact ⟨_, h1, rfl⟩
      | other h => exact absurd rfl h
  · next h0 =>
    split
    · next h1 =>
      subst h1
      constructor
      · rintro ⟨a, h1, h2⟩
        split at h1
        · cases h1
        · next k r' hk =>
          obtain ⟨s, h3, rfl⟩ := Names.map_ok h1
          cases x with
          | names k' l =>
            obtain ⟨rfl, h2⟩ := h2
            obtain ⟨b, t, e, g, rfl⟩ := (exact_kind _ _ _).1 hk
            have := (map_iff _ _).1 ⟨s, h3, h2⟩
            rw [rest_shrink, Reader.rest_advance, e, List.drop_left] at this
            rw [e]
            cases g with
            | known g => exact .names g this
          | _ => exact h2.elim
        · next r' hk =>
          cases h1
          cases x with
          | other id d =>
            obtain ⟨rfl, rfl⟩ := h2
            obtain ⟨b, t, e, g, rfl⟩ := (exact_kind _ _ _).1 hk
            rw [Reader.rest_advance, e, List.drop_left]
            cases g with
            | unknown g => exact .sort g
          | _ => exact h2.elim
      · intro h
        generalize hr : r.rest = p at h
        cases h with
        | @names k l b1 b2 g h =>
          have h3 : (shrink (r.advance b1.length)).rest = b2 := by
            rw [rest_shrink, Reader.rest_advance, hr, List.drop_left]
          obtain ⟨s, h4, h5⟩ := (map_iff (shrink (r.advance b1.length)) l).2 (h3 ▸ h)
          rw [(exact_kind r (some k) (r.advance b1.length)).2 ⟨b1, b2, hr, .known g, rfl⟩]
          exact ⟨.names k s, by simp [h4, Except.map], rfl, h5⟩
        | @sort s d g =>
          rw [(exact_kind r none (r.advance s.length)).2 ⟨s, d, hr, .unknown g, rfl⟩]
          refine ⟨_, rfl, rfl, ?_⟩
          rw [Reader.rest_advance, hr, List.drop_left]
        | other _ h => exact absurd rfl h
    · next h1 =>
      constructor
      · rintro ⟨a, h2, h3⟩
        cases h2
        cases x with
        | other id d =>
          obtain ⟨rfl, rfl⟩ := h3
          exact .other h0 h1
        | _ => exact h3.elim
      · intro h
        generalize r.rest = p at h
        cases h with
        | other => exact ⟨_, rfl, rfl, rfl⟩
        | component => exact absurd rfl h0
        | names => exact absurd rfl h1
        | sort => exact absurd rfl h1

/-! ### Writing -/

theorem append_eq (b : Enc.Builder) (e : BitVec 32 × List UInt8) :
    Names.append b e.1 e.2 = (Names.encEntry e).bind fun c => some (b.add c) := by
  unfold Names.append Names.encEntry
  cases encodeSlice e.2 <;> rfl

theorem writes_naming {e : BitVec 32 × List UInt8} (h : Str e.2) :
    Writes (Names.encEntry e) (IsNaming e) := by
  obtain ⟨b, h1, h2⟩ := writes_name h
  exact ⟨_, by unfold Names.encEntry; rw [h1]; rfl, .mk (u32_enc _) h2⟩

theorem buildMap_vec {l : List (BitVec 32 × List UInt8)} {c : Enc.Builder}
    (h : Names.Spec.buildMap l = some c) (hl : l.length < 2 ^ 32)
    (hf : ∀ e ∈ l, validUtf8 e.2) : Vec IsNaming l (Names.encodeMap c) := by
  have hs : ∀ e ∈ l, Str e.2 := fun e he => by
    rw [Names.buildMap_eq] at h
    obtain ⟨bs, h1⟩ := Names.buildFrom_some h
    obtain ⟨b, h2⟩ := Names.encodeAll_mem h1 e he
    unfold Names.encEntry at h2
    obtain ⟨b', h3, -⟩ := Option.bind_eq_some_iff.1 h2
    exact ⟨hf e he, (Names.encodeSlice_some h3).1⟩
  obtain ⟨b, h1, h2⟩ := calls_vec append_eq hl fun e he => writes_naming (hs e he)
  have : Names.Spec.buildMap l = some b := h1
  rw [h] at this
  cases this
  exact h2

theorem insub_of {P : UInt8 → Grammar α} {id : UInt8} {x : α} {p b : List UInt8} (hid : id < 128)
    (hp : P id x p) (h : b = [id] ++ encodeU32 (BitVec.ofNat 32 p.length) ++ p)
    (hl : p.length < 2 ^ 32) : InSub P x b := by
  subst h
  simpa using InSub.mk hid (leb_enc hl) hp

theorem decls_some {k : Kind} {c : Enc.Builder} {b : List UInt8} (h : decls k c = some b) :
    ∃ s, IsSort k s ∧ (s ++ Names.encodeMap c).length < 2 ^ 32 ∧
      b = [1] ++ encodeU32 (BitVec.ofNat 32 (s ++ Names.encodeMap c).length) ++
        (s ++ Names.encodeMap c) := by
  have core : ∀ t, (t, k) ∈ coreSorts → coreDecls t c = some b →
      ∃ s, IsSort k s ∧ (s ++ Names.encodeMap c).length < 2 ^ 32 ∧
      b = [1] ++ encodeU32 (BitVec.ofNat 32 (s ++ Names.encodeMap c).length) ++
        (s ++ Names.encodeMap c) := by
    intro t ht h
    unfold coreDecls at h
    obtain ⟨x, h1, h2⟩ := Option.bind_eq_some_iff.1 h
    obtain ⟨h3, rfl⟩ := Names.encodeUsize_some h1
    cases h2
    rw [Names.length_encodeMap] at h3 ⊢
    have e : ([0, t] ++ Names.encodeMap c).length = 2 + (Names.encodeMap c).length := by
      simp; omega
    exact ⟨[0, t], .core ht, by rw [e]; exact h3, by rw [e]; simp⟩
  have comp : ∀ t, (t, k) ∈ sorts → componentDecls t c = some b →
      ∃ s, IsSort k s ∧ (s ++ Names.encodeMap c).length < 2 ^ 32 ∧
      b = [1] ++ encodeU32 (BitVec.ofNat 32 (s ++ Names.encodeMap c).length) ++
        (s ++ Names.encodeMap c) := by
    intro t ht h
    unfold componentDecls at h
    obtain ⟨x, h1, h2⟩ := Option.bind_eq_some_iff.1 h
    obtain ⟨h3, rfl⟩ := Names.encodeUsize_some h1
    cases h2
    rw [Names.length_encodeMap] at h3 ⊢
    have e : ([t] ++ Names.encodeMap c).length = 1 + (Names.encodeMap c).length := by
      simp; omega
    exact ⟨[t], .comp ht, by rw [e]; exact h3, by rw [e]; simp⟩
  cases k
  case coreFuncs => exact core _ (by simp [coreSorts]) h
  case coreTables => exact core _ (by simp [coreSorts]) h
  case coreMemories => exact core _ (by simp [coreSorts]) h
  case coreGlobals => exact core _ (by simp [coreSorts]) h
  case coreTags => exact core _ (by simp [coreSorts]) h
  case coreTypes => exact core _ (by simp [coreSorts]) h
  case coreModules => exact core _ (by simp [coreSorts]) h
  case coreInstances => exact core _ (by simp [coreSorts]) h
  case funcs => exact comp _ (by simp [sorts]) h
  case values => exact comp _ (by simp [sorts]) h
  case types => exact comp _ (by simp [sorts]) h
  case components => exact comp _ (by simp [sorts]) h
  case instances => exact comp _ (by simp [sorts]) h

theorem build_insub {x : Sub} {b : List UInt8} (hf : x.Fits) (h : x.build = some b) :
    InSub IsSub x b := by
  cases x with
  | component n =>
    have h : CompNames.component n = some b := h
    unfold CompNames.component at h
    split at h
    · next hl =>
      obtain ⟨y, h1, h⟩ := Option.bind_eq_some_iff.1 h
      obtain ⟨z, h2, h⟩ := Option.bind_eq_some_iff.1 h
      obtain ⟨h3, rfl⟩ := Names.encodeUsize_some h1
      obtain ⟨-, rfl⟩ := Names.encodeSlice_some h2
      cases h
      have e : (encodeU32 (BitVec.ofNat 32 n.length) ++ n).length =
        encodingSize (BitVec.ofNat 32 n.length) + n.length := by simp [encodingSize]
      exact insub_of (P := IsSub) (id := 0) (by decide) (.component ⟨hf, _, leb_enc hl, rfl⟩)
        (by rw [e]) (by rw [e]; exact h3)
    · cases h
  | names k l =>
    obtain ⟨c, h1, h2⟩ := Option.bind_eq_some_iff.1 (h : (Names.Spec.buildMap l).bind (decls k) = _)
    obtain ⟨s, h3, h4, h5⟩ := decls_some h2
    exact insub_of (P := IsSub) (id := 1) (by decide) (.names h3 (buildMap_vec h1 hf.1 hf.2)) h5 h4
  | other id d =>
    obtain ⟨y, h1, h2⟩ := Option.bind_eq_some_iff.1
      (h : (encodeSlice d).bind (fun x => some ([id] ++ x)) = some b)
    obtain ⟨h3, rfl⟩ := Names.encodeSlice_some h1
    cases h2
    exact insub_of (P := IsSub) hf.1 (.other hf.2.1 hf.2.2) (by simp) h3

theorem build_all : ∀ {l : List Sub} {b : List UInt8}, (∀ x ∈ l, x.Fits) →
    Enc.encodeAll Sub.build l = some b → Seq (InSub IsSub) l b
  | [], b, _, h => by cases h; exact ⟨[], rfl, .nil⟩
  | d :: l, b, hf, h => by
    unfold Enc.encodeAll at h
    obtain ⟨b1, h1, h⟩ := Option.bind_eq_some_iff.1 h
    obtain ⟨b2, h2, h⟩ := Option.bind_eq_some_iff.1 h
    cases h
    obtain ⟨bs, rfl, h3⟩ := build_all (fun e he => hf e (List.mem_cons_of_mem _ he)) h2
    exact ⟨b1 :: bs, rfl, .cons (build_insub (hf d (List.mem_cons_self ..)) h1) h3⟩

/-! ### Re-encoding -/

theorem insub_fits {x : Sub} {b : List UInt8} (h : InSub IsSub x b) :
    (∀ d, x ≠ .other 1 d) → x.Fits := by
  intro hx
  cases h with
  | mk hid _ h =>
    cases h with
    | component h => exact (name_fits h).1
    | names _ h =>
      refine ⟨vec_length h, fun e he => ?_⟩
      obtain ⟨c, hc⟩ := vec_mem h e he
      cases hc with
      | mk _ hn => exact (name_fits hn).1
    | sort => exact absurd rfl (hx _)
    | other h0 h1 => exact ⟨hid, h0, h1⟩

theorem seq_fits {l : List Sub} {b : List UInt8} (h : Seq (InSub IsSub) l b)
    (hl : ∀ x ∈ l, ∀ d, x ≠ .other 1 d) : ∀ x ∈ l, x.Fits := by
  obtain ⟨bs, -, h⟩ := h
  intro x hx
  obtain ⟨c, hc⟩ := forall₂_mem h x hx
  exact insub_fits hc (hl x hx)

theorem mapOf_eq (m : Maps) (k : Kind) : mapOf m k = moved m k := by
  cases k <;> rfl

theorem rename_fits {m : Maps} {x : Sub} (h : x.Fits) : (x.rename m).Fits := by
  cases x with
  | component => exact h
  | other => exact h
  | names k l =>
    refine ⟨by simpa [Sub.rename] using h.1, fun e he => ?_⟩
    obtain ⟨e', h1, rfl⟩ := List.mem_map.1 he
    exact h.2 e' h1

theorem reencodeSub_eq {m : Maps} {x : CName} {y : Sub} (h : Says x y) :
    reencodeSub m x = (y.rename m).build := by
  cases x <;> cases y <;> try exact h.elim
  · cases h; rfl
  · obtain ⟨rfl, h⟩ := h
    simp only [reencodeSub, Sub.rename, Sub.build]
    rw [Names.nameMap_eq h, mapOf_eq]
  · obtain ⟨rfl, rfl⟩ := h; rfl

theorem reencodeAll_eq {m : Maps} {xs : List CName} {l : List Sub} (h : List.Forall₂ Says xs l) :
    Enc.encodeAll (reencodeSub m) xs = Enc.encodeAll Sub.build (l.map (Sub.rename m)) := by
  induction h with
  | nil => rfl
  | cons h _ ih =>
    simp only [List.map_cons, Enc.encodeAll]
    rw [reencodeSub_eq h, ih]

theorem reencodeSub_some {m : Maps} {x : CName} {b : List UInt8} (h : reencodeSub m x = some b) :
    ∃ y, Says x y := by
  cases x with
  | component n => exact ⟨.component n, rfl⟩
  | unknown id d => exact ⟨.other id d, rfl, rfl⟩
  | names k s =>
    obtain ⟨c, h1, -⟩ := Option.bind_eq_some_iff.1
      (h : (Names.nameMap (mapOf m k) s).bind (decls k) = some b)
    obtain ⟨l, hl⟩ := Names.nameMap_some h1
    exact ⟨.names k l, rfl, hl⟩

theorem reencodeAll_some {m : Maps} : ∀ {xs : List CName} {b : List UInt8},
    Enc.encodeAll (reencodeSub m) xs = some b → ∃ l, List.Forall₂ Says xs l
  | [], _, _ => ⟨[], .nil⟩
  | x :: xs, b, h => by
    unfold Enc.encodeAll at h
    obtain ⟨b1, h1, h⟩ := Option.bind_eq_some_iff.1 h
    obtain ⟨b2, h2, h⟩ := Option.bind_eq_some_iff.1 h
    obtain ⟨y, hy⟩ := reencodeSub_some h1
    obtain ⟨l, hl⟩ := reencodeAll_some h2
    exact ⟨y :: l, .cons hy hl⟩

end Verif.CompNames
