import Verif.TypeList.Abs
import Verif.TypeList.Close
/-! # Canonicalization and interning -/
namespace Verif.TypeList
open Verif.Types
open Spec (SubT Comp Heap)

/-! ## Results -/

/-- If the computation succeeds then with a result satisfying `P`, and if it panics then `sz`
is false. -/
def Res {α : Type} (sz : Prop) (r : M α) (P : α → Prop) : Prop :=
  (∀ a, r = .ok a → P a) ∧ ((r = .error .panic ∨ r = .error .diverges) → ¬ sz)

variable {sz : Prop}

theorem Res.ok {α : Type} {a : α} {P : α → Prop} (h : P a) : Res sz (.ok a) P :=
  ⟨by rintro _ ⟨⟩; exact h, by rintro (h | h) <;> cases h⟩

theorem Res.pure {α : Type} {a : α} {P : α → Prop} (h : P a) : Res sz (Pure.pure a : M α) P :=
  Res.ok h

theorem Res.err {α : Type} {msg : String} {P : α → Prop} : Res sz (.error (.error msg) : M α) P :=
  ⟨by rintro _ ⟨⟩, by rintro (h | h) <;> cases h⟩

theorem Res.bind {α β : Type} {r : M α} {k : α → M β} {P : α → Prop} {Q : β → Prop}
    (h : Res sz r P) (h' : ∀ a, P a → Res sz (k a) Q) : Res sz (r >>= k) Q := by
  cases r with
  | ok a => exact h' a (h.1 a rfl)
  | error e =>
    refine ⟨by rintro _ ⟨⟩, ?_⟩
    intro he
    apply h.2
    rcases he with he | he
    · left; injection he with he; rw [he]
    · right; injection he with he; rw [he]

theorem Res.mono {α : Type} {r : M α} {P Q : α → Prop} (h : Res sz r P) (hpq : ∀ a, P a → Q a) :
    Res sz r Q := ⟨fun a e => hpq a (h.1 a e), h.2⟩

theorem Res.ite {α : Type} {c : Prop} [Decidable c] {r s : M α} {P : α → Prop}
    (h : c → Res sz r P) (h' : ¬ c → Res sz s P) : Res sz (if c then r else s) P := by
  split
  · exact h ‹_›
  · exact h' ‹_›

theorem Res.require (b : Bool) (msg : String) : Res sz (require b msg) fun _ => b = true := by
  unfold TypeList.require; split
  · exact .ok ‹_›
  · exact .err

theorem Res.assert {b : Bool} (h : b = true) : Res sz (assert b) fun _ => True := by
  unfold TypeList.assert; rw [h]; exact .ok trivial

theorem Res.unwrap {α : Type} {o : Option α} {a : α} (h : o = some a) :
    Res sz (unwrap o) fun x => x = a := by
  rw [h]; exact .ok rfl

theorem Res.u32 {n : Nat} (h : n < 2 ^ 32) : Res sz (u32 n) fun x => x = n := by
  unfold TypeList.u32; rw [if_pos h]; exact .ok rfl

/-- The panic of `u32` is ruled out only by the size. -/
theorem Res.u32' {n : Nat} (h : sz → n < 2 ^ 32) :
    Res sz (TypeList.u32 n) fun x => x = n ∧ n < 2 ^ 32 := by
  unfold TypeList.u32; split
  · exact .ok ⟨rfl, ‹_›⟩
  · exact ⟨by rintro _ ⟨⟩, fun _ hs => ‹¬ _› (h hs)⟩

/-- A visitor over all the references. -/
theorem Res.remaps {α β : Type} {f : PackedIndex → M PackedIndex} {r : M α} {D : α → β → Prop}
    {x : β} {refs : List U} {Q : U → U → Prop} (h : Remaps f r D x refs)
    (hr : ∀ u ∈ refs, Res sz (fhat f u) (Q u)) :
    Res sz r fun a => D a x ∧ ∀ u ∈ refs, Q u (ghat f u) := by
  rcases h with ⟨a, rfl, ha, hl⟩ | ⟨e, rfl, u, hu, he⟩
  · refine .ok ⟨ha, fun u hu => ?_⟩
    obtain ⟨u', hu'⟩ := hl u hu
    have := (hr u hu).1 u' hu'
    simpa only [ghat, hu'] using this
  · refine ⟨by rintro _ ⟨⟩, fun hp => (hr u hu).2 ?_⟩
    rw [he]
    rcases hp with hp | hp
    · left; injection hp with hp; rw [hp]
    · right; injection hp with hp; rw [hp]

/-! ## References -/

/-- An identifier. -/
def idx (i : Nat) : U := .id (BitVec.ofNat 32 i)
/-- An index of the module. -/
def modIdx (i : Nat) : U := .module (BitVec.ofNat 32 i)
/-- A canonical reference. -/
def cpack : CRef → U
  | .inl i => .recGroup (BitVec.ofNat 32 i)
  | .inr j => .id (BitVec.ofNat 32 j)

theorem toNat_small {i : Nat} (h : i < 2 ^ 20) : (BitVec.ofNat 32 i).toNat = i := by
  rw [BitVec.toNat_ofNat]; omega

theorem toNat_32 {i : Nat} (h : i < 2 ^ 32) : (BitVec.ofNat 32 i).toNat = i := by
  rw [BitVec.toNat_ofNat]; omega

theorem pack_ok {u : U} (h : u.raw.toNat < 2 ^ 20) : ∃ p, u.pack = some p ∧ p.unpack = some u := by
  obtain ⟨p, hp⟩ := dIdx_of_lt u h
  exact ⟨p, hp, DIdx.unpack hp⟩

theorem pack_none {u : U} (h : ¬ u.raw.toNat < 2 ^ 20) : u.pack = none := by
  rw [pack_eq, if_neg h]

/-- Small enough to be packed. -/
def Small : CRef → Prop
  | .inl i => i < 2 ^ 20
  | .inr j => j < 2 ^ 20

theorem keeps_canon (f : Features) (m : List Nat) (s len : Nat) :
    Keeps (canonicalizeTypeIndex f m s len) := by
  intro p u p' hd h
  unfold canonicalizeTypeIndex at h
  rw [hd.unpack] at h
  simp only [unwrap, ok_bind] at h
  cases u with
  | id b => cases h; exact ⟨_, hd⟩
  | recGroup b => cases h; exact ⟨_, hd⟩
  | module b =>
    simp only at h
    split at h
    · unfold typeIdAt at h
      cases hm : m[b.toNat]? with
      | none => rw [hm] at h; cases h
      | some id =>
        rw [hm] at h
        simp only [pure_ok, ok_bind] at h
        cases hp : PackedIndex.fromId (BitVec.ofNat 32 id) with
        | none => rw [hp] at h; cases h
        | some q => rw [hp] at h; cases h; exact ⟨.id (BitVec.ofNat 32 id), hp⟩
    · unfold assert at h
      split at h
      · simp only [ok_bind] at h
        split at h
        · split at h
          · cases hp : PackedIndex.fromRecGroupIndex (BitVec.ofNat 32 (b.toNat - s)) with
            | none => rw [hp] at h; cases h
            | some q => rw [hp] at h; cases h; exact ⟨.recGroup (BitVec.ofNat 32 (b.toNat - s)), hp⟩
          · cases h
        · cases h
      · cases h

theorem keeps_local (s : Nat) : Keeps (localToId s) := by
  intro p u p' hd h
  unfold localToId at h
  rw [hd.unpack] at h
  simp only [unwrap, ok_bind] at h
  cases u with
  | id b => cases h; exact ⟨_, hd⟩
  | module b => cases h; exact ⟨_, hd⟩
  | recGroup b =>
    simp only [u32] at h
    split at h
    · simp only [ok_bind] at h
      cases hp : (UnpackedIndex.id (BitVec.ofNat 32 (s + b.toNat))).pack with
      | none => rw [hp] at h; cases h
      | some q => rw [hp] at h; cases h; exact ⟨.id (BitVec.ofNat 32 (s + b.toNat)), hp⟩
    · cases h

/-- Canonicalizing one index of the module. -/
theorem canon_ref (f : Features) {m : List Nat} {len r : Nat} (hr : r < 2 ^ 20)
    (hm : ∀ id ∈ m, id < 2 ^ 32) (hg : f.gc = true ∨ len = 1) :
    Res sz (fhat (canonicalizeTypeIndex f m m.length len) (modIdx r)) fun u =>
      u = cpack (canon m r) ∧ r < m.length + len ∧ Small (canon m r) := by
  have hr' := toNat_small hr
  obtain ⟨p, hp, hu⟩ := pack_ok (u := modIdx r) (by show (BitVec.ofNat 32 r).toNat < _; omega)
  unfold fhat
  rw [hp]
  simp only [unwrap, ok_bind]
  unfold canonicalizeTypeIndex
  rw [hu]
  simp only [unwrap, ok_bind, modIdx, hr']
  split
  · rename_i hlt
    unfold typeIdAt
    rw [List.getElem?_eq_getElem hlt]
    simp only [pure_ok, ok_bind]
    have hid := hm _ (List.getElem_mem hlt)
    by_cases hs : m[r] < 2 ^ 20
    · obtain ⟨q, hq, hqu⟩ := pack_ok (u := .id (BitVec.ofNat 32 m[r]))
        (by show (BitVec.ofNat 32 m[r]).toNat < _; rw [toNat_32 hid]; exact hs)
      have hq' : PackedIndex.fromId (BitVec.ofNat 32 m[r]) = some q := hq
      rw [hq']
      simp only [ok_bind, hqu]
      refine .ok ?_
      unfold canon
      rw [List.getElem?_eq_getElem hlt]
      exact ⟨rfl, by omega, hs⟩
    · have hq' : PackedIndex.fromId (BitVec.ofNat 32 m[r]) = none :=
        pack_none (u := .id (BitVec.ofNat 32 m[r]))
          (by show ¬ (BitVec.ofNat 32 m[r]).toNat < _; rw [toNat_32 hid]; exact hs)
      rw [hq']
      exact .err
  · rename_i hge
    have ha : (f.gc || len == 1) = true := by rcases hg with h | h <;> simp [h]
    unfold assert
    rw [ha]
    simp only [if_true, ok_bind]
    split
    · rename_i hl
      split
      · have hs : r - m.length < 2 ^ 20 := by omega
        obtain ⟨q, hq, hqu⟩ := pack_ok (u := .recGroup (BitVec.ofNat 32 (r - m.length)))
          (by show (BitVec.ofNat 32 (r - m.length)).toNat < _; rw [toNat_small hs]; exact hs)
        have hq' : PackedIndex.fromRecGroupIndex (BitVec.ofNat 32 (r - m.length)) = some q := hq
        rw [hq']
        simp only [pure_ok, ok_bind, hqu]
        refine .ok ?_
        unfold canon
        rw [List.getElem?_eq_none (by omega)]
        exact ⟨rfl, by omega, hs⟩
      · exact .err
    · exact .err

/-- Making one canonical reference an identifier. -/
theorem local_ref {s len : Nat} {r : CRef} (hr : Small r)
    (hl : ∀ i, r = .inl i → sz → s + i < 2 ^ 20) :
    Res sz (fhat (localToId s) (cpack r)) fun u =>
      u = idx (toId s r) ∧ toId s r < 2 ^ 20 := by
  unfold fhat
  cases r with
  | inr j =>
    have hj : j < 2 ^ 20 := hr
    obtain ⟨p, hp, hu⟩ := pack_ok (u := cpack (.inr j))
      (by show (BitVec.ofNat 32 j).toNat < _; rw [toNat_small hj]; exact hj)
    rw [hp]
    simp only [unwrap, ok_bind]
    unfold localToId
    rw [hu]
    simp only [unwrap, ok_bind, cpack, pure_ok, hu]
    exact .ok ⟨rfl, hj⟩
  | inl i =>
    have hi : i < 2 ^ 20 := hr
    obtain ⟨p, hp, hu⟩ := pack_ok (u := cpack (.inl i))
      (by show (BitVec.ofNat 32 i).toNat < _; rw [toNat_small hi]; exact hi)
    rw [hp]
    simp only [unwrap, ok_bind]
    unfold localToId
    rw [hu]
    simp only [unwrap, ok_bind, cpack]
    rw [toNat_small hi]
    have hl := hl i rfl
    unfold u32
    split
    · simp only [ok_bind]
      rename_i h32
      by_cases hs : s + i < 2 ^ 20
      · obtain ⟨q, hq, hqu⟩ := pack_ok (u := .id (BitVec.ofNat 32 (s + i)))
          (by show (BitVec.ofNat 32 (s + i)).toNat < _; rw [toNat_32 h32]; exact hs)
        rw [hq]
        simp only [ok_bind, hqu]
        exact .ok ⟨rfl, hs⟩
      · rw [pack_none (u := .id (BitVec.ofNat 32 (s + i)))
          (by show ¬ (BitVec.ofNat 32 (s + i)).toNat < _; rw [toNat_32 h32]; exact hs)]
        exact ⟨by rintro _ ⟨⟩, fun _ h => hs (hl h)⟩
    · exact ⟨by rintro _ ⟨⟩, fun _ h => by have := hl h; omega⟩

/-! ## Canonicalizing a group -/

theorem isForward_spec {o : Option PackedIndex} {x : Option Nat} (n : Nat)
    (h : OptIs DIdx o (x.map modIdx)) (hx : ∀ r ∈ x, r < 2 ^ 20) :
    Res sz (isForward n o) fun b => b = false → ∀ r ∈ x, r < n := by
  cases x with
  | none =>
    cases o with
    | none => exact .ok (by simp)
    | some p => exact h.elim
  | some r =>
    cases o with
    | none => exact h.elim
    | some p =>
      have h : DIdx p (modIdx r) := h
      have hr := hx r rfl
      unfold isForward
      simp only
      refine (Res.unwrap h.unpack).bind ?_
      rintro _ rfl
      refine .ok ?_
      rw [toNat_small hr]
      simp

/-- What canonicalization establishes about one type, at position `p` of the module. -/
def CanonOk (m : List Nat) (len p : Nat) (x : SubT Nat) : Prop :=
  (∀ r ∈ x.refs, r < m.length + len ∧ Small (canon m r)) ∧
  (∀ r ∈ x.supertype, r < p) ∧ (∀ r ∈ x.describes, r < p)

theorem canonicalizeTypes_spec {f : Features} {m : List Nat} {len : Nat}
    (hm : ∀ id ∈ m, id < 2 ^ 32) (hg : f.gc = true ∨ len = 1) {g : List SubType}
    {xs : List (SubT Nat)} (h : List.Forall₂ (fun t x => DSub t (x.map modIdx)) g xs)
    (hr : ∀ x ∈ xs, ∀ r ∈ x.refs, r < 2 ^ 20) (n : Nat) (hn : m.length + n + xs.length < 2 ^ 32) :
    Res sz (canonicalizeTypes f m m.length len n g) fun g' =>
      List.Forall₂ (fun t x => DSub t ((x.map (canon m)).map cpack)) g' xs ∧
      ∀ p x, xs[p]? = some x → CanonOk m len (m.length + n + p) x := by
  induction h generalizing n with
  | nil => exact .ok ⟨.nil, by simp⟩
  | @cons t x g xs ht _ ih =>
    simp only [List.length_cons] at hn
    have hrx := hr x (by simp)
    unfold canonicalizeTypes
    refine (Res.u32 (by omega)).bind ?_
    rintro _ rfl
    refine (isForward_spec (m.length + n) ht.2.1
      (fun r h => hrx r (by simp [SubT.refs, Option.mem_def.1 h]))).bind fun b hb => ?_
    cases b with
    | true => simp only [if_true]; exact Res.bind (P := fun _ => False) .err fun _ h => h.elim
    | false =>
      simp only [Bool.false_eq_true, if_false]
      refine (isForward_spec (m.length + n) ht.2.2.2.2.1
        (fun r h => hrx r (by simp [SubT.refs, Option.mem_def.1 h]))).bind fun b' hb' => ?_
      cases b' with
      | true => simp only [if_true]; exact Res.bind (P := fun _ => False) .err fun _ h => h.elim
      | false =>
        simp only [Bool.false_eq_true, if_false]
        refine (Res.remaps (remapSub_spec (keeps_canon f m m.length len) ht) (Q := fun u u' =>
          ∀ r, u = modIdx r → r < 2 ^ 20 →
            u' = cpack (canon m r) ∧ r < m.length + len ∧ Small (canon m r)) ?_).bind ?_
        · intro u hu
          rw [SubT.refs_map] at hu
          obtain ⟨r, hr', rfl⟩ := List.mem_map.1 hu
          refine (canon_ref f (hrx r hr') hm hg).mono fun u' h r' e h20 => ?_
          have : r = r' := by
            have := hrx r hr'
            simp only [modIdx, UnpackedIndex.module.injEq] at e
            have := congrArg BitVec.toNat e
            rw [toNat_small ‹_›, toNat_small h20] at this
            exact this
          subst this
          exact h
        · rintro t' ⟨ht', hq⟩
          have hq' : ∀ r ∈ x.refs, ghat (canonicalizeTypeIndex f m m.length len) (modIdx r) =
              cpack (canon m r) ∧ r < m.length + len ∧ Small (canon m r) := fun r hr' =>
            hq _ (by rw [SubT.refs_map]; exact List.mem_map_of_mem hr') r rfl (hrx r hr')
          refine (ih (fun y hy => hr y (by simp [hy])) (n + 1) (by omega)).bind ?_
          rintro g' ⟨hg', hps⟩
          refine .ok ⟨.cons ?_ hg', ?_⟩
          · rw [SubT.map_map] at ht' ⊢
            rwa [SubT.map_congr fun r hr' => (hq' r hr').1] at ht'
          · intro p y hy
            cases p with
            | zero =>
              simp only [List.getElem?_cons_zero, Option.some.injEq] at hy
              subst hy
              exact ⟨fun r hr' => (hq' r hr').2, hb rfl, hb' rfl⟩
            | succ p =>
              have := hps p y (by simpa using hy)
              rwa [show m.length + (n + 1) + p = m.length + n + (p + 1) by omega] at this

end Verif.TypeList
