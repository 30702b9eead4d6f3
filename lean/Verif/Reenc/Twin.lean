import Verif.Types.Yields
/-! Reading the same bytes again: what a reader consumed once, it consumes again at any other
position in any other buffer, and returns a related value. -/
namespace Verif.Reader
open Verif.Leb Verif.Types

/-- Whatever `m` consumed, `m'` consumes wherever it sees these bytes, and the values are
related. -/
def Twin (m : R α) (m' : R β) (S : α → β → Prop) : Prop :=
  ∀ r a r', m r = .ok (a, r') → ∃ bytes, r.rest = bytes ++ r'.rest ∧
    r' = r.advance bytes.length ∧ DecP m' bytes (S a)

/-- The same, where at least one byte is consumed. -/
def Twin1 (m : R α) (m' : R β) (S : α → β → Prop) : Prop :=
  ∀ r a r', m r = .ok (a, r') → ∃ b bytes, r.rest = b :: bytes ++ r'.rest ∧
    r' = r.advance (bytes.length + 1) ∧ DecP m' (b :: bytes) (S a)

theorem Twin1.toTwin {m : R α} {m' : R β} {S : α → β → Prop} (h : Twin1 m m' S) :
    Twin m m' S := fun r a r' e =>
  let ⟨b, bytes, h1, h2, h3⟩ := h r a r' e
  ⟨b :: bytes, h1, h2, h3⟩

theorem Twin.mono {m : R α} {m' : R β} {S T : α → β → Prop} (h : Twin m m' S)
    (hs : ∀ a b, S a b → T a b) : Twin m m' T := fun r a r' e =>
  let ⟨bytes, h1, h2, h3⟩ := h r a r' e
  ⟨bytes, h1, h2, h3.mono fun b hb => hs a b hb⟩

theorem Twin1.mono {m : R α} {m' : R β} {S T : α → β → Prop} (h : Twin1 m m' S)
    (hs : ∀ a b, S a b → T a b) : Twin1 m m' T := fun r a r' e =>
  let ⟨b, bytes, h1, h2, h3⟩ := h r a r' e
  ⟨b, bytes, h1, h2, h3.mono fun b hb => hs a b hb⟩

/-- What is known about the returned value. -/
theorem Twin.yields {m : R α} {m' : R β} {S : α → β → Prop} {P : α → Prop} (h : Twin m m' S)
    (hy : Yields m P) : Twin m m' (fun a b => S a b ∧ P a) := fun r a r' e =>
  let ⟨bytes, h1, h2, h3⟩ := h r a r' e
  ⟨bytes, h1, h2, h3.mono fun _ hb => ⟨hb, hy r a r' e⟩⟩

theorem Twin.pure {a : α} {b : β} {S : α → β → Prop} (h : S a b) :
    Twin (pure a) (pure b : R β) S := by
  intro r a' r' e
  cases e
  exact ⟨[], rfl, rfl, .pure h⟩

theorem Twin.fail {s o} {m' : R β} {S : α → β → Prop} : Twin (R.fail s o) m' S := by
  intro r a r' e; cases e

theorem Twin1.fail {s o} {m' : R β} {S : α → β → Prop} : Twin1 (R.fail s o) m' S := by
  intro r a r' e; cases e

theorem Twin.bind {m : R α} {m' : R β} {S : α → β → Prop} {g : α → R γ} {g' : β → R δ}
    {T : γ → δ → Prop} (h1 : Twin m m' S) (h2 : ∀ a b, S a b → Twin (g a) (g' b) T) :
    Twin (m >>= g) (m' >>= g') T := by
  intro r c r' e
  obtain ⟨a, r1, e1, e2⟩ := bind_ok.mp e
  obtain ⟨b1, p1, q1, d1⟩ := h1 _ _ _ e1
  -- the bytes of the second part, from any related value
  obtain ⟨a0, -, s0⟩ := d1 (Reader.new b1 0) [] (by simp [Reader.new, Reader.rest])
  obtain ⟨b2, p2, q2, -⟩ := h2 a a0 s0 _ _ _ e2
  refine ⟨b1 ++ b2, ?_, ?_, d1.bind fun b hb => ?_⟩
  · rw [p1, p2, List.append_assoc]
  · rw [q2, q1]; simp
  · obtain ⟨b2', p2', q2', d2⟩ := h2 a b hb _ _ _ e2
    rw [p2] at p2'
    have hl : b2.length = b2'.length := by
      have := q2.symm.trans q2'
      have := congrArg Reader.position this
      simpa using this
    obtain ⟨rfl, -⟩ := List.append_inj p2' hl
    exact d2

theorem Twin1.bind {m : R α} {m' : R β} {S : α → β → Prop} {g : α → R γ} {g' : β → R δ}
    {T : γ → δ → Prop} (h1 : Twin1 m m' S) (h2 : ∀ a b, S a b → Twin (g a) (g' b) T) :
    Twin1 (m >>= g) (m' >>= g') T := by
  intro r c r' e
  obtain ⟨bytes, p, q, d⟩ := h1.toTwin.bind h2 _ _ _ e
  obtain ⟨a, r1, e1, e2⟩ := bind_ok.mp e
  obtain ⟨b1, bs, p1, q1, d1⟩ := h1 _ _ _ e1
  obtain ⟨a0, -, s0⟩ := d1 (Reader.new (b1 :: bs) 0) [] (by simp [Reader.new, Reader.rest])
  obtain ⟨b2, p2, q2, -⟩ := h2 a a0 s0 _ _ _ e2
  have : bytes.length = b2.length + (bs.length + 1) := by
    have := q2.symm.trans q
    rw [q1] at this
    have := congrArg Reader.position this
    simp at this
    omega
  cases bytes with
  | nil => simp at this
  | cons x xs => exact ⟨x, xs, p, q, d⟩

theorem Twin.fmap {m : R α} {m' : R β} {S : α → β → Prop} {g : α → γ} {g' : β → δ}
    {T : γ → δ → Prop} (h : Twin m m' S) (hg : ∀ a b, S a b → T (g a) (g' b)) :
    Twin (g <$> m) (g' <$> m') T := h.bind fun a b hb => .pure (hg a b hb)

theorem Twin1.fmap {m : R α} {m' : R β} {S : α → β → Prop} {g : α → γ} {g' : β → δ}
    {T : γ → δ → Prop} (h : Twin1 m m' S) (hg : ∀ a b, S a b → T (g a) (g' b)) :
    Twin1 (g <$> m) (g' <$> m') T := h.bind fun a b hb => .pure (hg a b hb)

theorem Twin.readPos : Twin readPos readPos (fun _ _ => True) := by
  intro r a r' e
  cases e
  exact ⟨[], rfl, rfl, fun r tail _ => ⟨_, rfl, trivial⟩⟩

theorem Twin.pos {g : Nat → R γ} {g' : Nat → R δ} {T : γ → δ → Prop}
    (h : ∀ a b, Twin (g a) (g' b) T) : Twin (Reader.readPos >>= g) (Reader.readPos >>= g') T :=
  Twin.readPos.bind fun a b _ => h a b

theorem Twin1.pos {g : Nat → R γ} {g' : Nat → R δ} {T : γ → δ → Prop}
    (h : ∀ a b, Twin1 (g a) (g' b) T) : Twin1 (Reader.readPos >>= g) (Reader.readPos >>= g') T := by
  intro r c r' e
  obtain ⟨b, bytes, p, q, d⟩ := h r.originalPosition 0 r c r' e
  refine ⟨b, bytes, p, q, .readPos fun n => ?_⟩
  obtain ⟨b', bytes', p', q', d'⟩ := h r.originalPosition n r c r' e
  have hl : (b :: bytes).length = (b' :: bytes').length := by
    have := congrArg Reader.position (q.symm.trans q')
    simpa using this
  obtain ⟨h3, -⟩ := List.append_inj (p.symm.trans p') hl
  rw [h3]
  exact d'

theorem Twin.ite {c : Prop} [Decidable c] {m n : R α} {m' n' : R β} {S : α → β → Prop}
    (h1 : c → Twin m m' S) (h2 : ¬ c → Twin n n' S) :
    Twin (if c then m else n) (if c then m' else n') S := by
  by_cases h : c
  · simp only [if_pos h]; exact h1 h
  · simp only [if_neg h]; exact h2 h

theorem Twin1.ite {c : Prop} [Decidable c] {m n : R α} {m' n' : R β} {S : α → β → Prop}
    (h1 : c → Twin1 m m' S) (h2 : ¬ c → Twin1 n n' S) :
    Twin1 (if c then m else n) (if c then m' else n') S := by
  by_cases h : c
  · simp only [if_pos h]; exact h1 h
  · simp only [if_neg h]; exact h2 h

theorem peekR_ok {r r' : Reader} {b : UInt8} (h : peekR r = .ok (b, r')) :
    r' = r ∧ ∃ bs, r.rest = b :: bs := by
  cases hr : r.rest with
  | nil =>
    exfalso
    have h1 : r.buffer.length ≤ r.position := by
      have := congrArg List.length hr
      simp [Reader.rest] at this
      omega
    unfold peekR peek ensureHasByte Reader.maxPosition at h
    rw [if_neg (by omega)] at h
    cases h
  | cons x xs =>
    rw [peekR_cons hr] at h
    cases h
    exact ⟨rfl, xs, rfl⟩

theorem Twin1.peek {g : UInt8 → R α} {g' : UInt8 → R β} {S : α → β → Prop}
    (h : ∀ b, Twin1 (g b) (g' b) S) : Twin1 (peekR >>= g) (peekR >>= g') S := by
  intro r a r' e
  obtain ⟨b, r1, e1, e2⟩ := bind_ok.mp e
  obtain ⟨rfl, bs, hr⟩ := peekR_ok e1
  obtain ⟨b', bytes, p, q, d⟩ := h b _ _ _ e2
  have : b' = b := by
    rw [hr] at p
    exact (List.cons.inj p).1.symm
  subst this
  exact ⟨b', bytes, p, q, .peek d⟩

theorem Twin.mapErr {m : R α} {m' : R β} {S : α → β → Prop} {k k' : Err → Err}
    (h : Twin m m' S) : Twin (mapErr k m) (mapErr k' m') S := by
  intro r a r' e
  unfold Types.mapErr at e
  split at e
  · rename_i x hx
    cases e
    obtain ⟨bytes, p, q, d⟩ := h _ _ _ hx
    exact ⟨bytes, p, q, d.mapErr⟩
  · cases e

theorem Twin1.mapErr {m : R α} {m' : R β} {S : α → β → Prop} {k k' : Err → Err}
    (h : Twin1 m m' S) : Twin1 (mapErr k m) (mapErr k' m') S := by
  intro r a r' e
  unfold Types.mapErr at e
  split at e
  · rename_i x hx
    cases e
    obtain ⟨b, bytes, p, q, d⟩ := h _ _ _ hx
    exact ⟨b, bytes, p, q, d.mapErr⟩
  · cases e

theorem Twin1.readU8 : Twin1 readU8 readU8 Eq := by
  intro r a r' e
  obtain ⟨h1, h2⟩ := readU8_ok e
  exact ⟨a, [], h2, h1, (Dec.readU8 a).toP rfl⟩

theorem Twin.readBytes (n : Nat) : Twin (readBytes n) (readBytes n) (fun a b => a = b ∧ a.length = n) := by
  intro r a r' e
  rw [readBytes_eq] at e
  split at e
  · rename_i h
    cases e
    have hl : (r.rest.take n).length = n := by simp; omega
    refine ⟨r.rest.take n, by simp, by rw [hl], ?_⟩
    have := (Dec.readBytes (r.rest.take n))
    rw [hl] at this
    exact this.toP ⟨rfl, hl⟩
  · cases e

/-- From an exact description of a reader by the bytes it accepts. -/
theorem Twin1.of_iff {m : R α} {P : List UInt8 → α → Prop} (hne : ∀ bs a, P bs a → bs ≠ [])
    (h : ∀ r a r', m r = .ok (a, r') ↔ ∃ enc tail, r.rest = enc ++ tail ∧ P enc a ∧
      r' = { r with position := r.position + enc.length }) : Twin1 m m Eq := by
  intro r a r' e
  obtain ⟨enc, tail, h1, h2, h3⟩ := (h r a r').mp e
  have hd : DecP m enc (Eq a) := fun q t hq => ⟨a, (h _ _ _).mpr ⟨enc, t, hq, h2, rfl⟩, rfl⟩
  have ht : tail = r'.rest := by
    rw [h3]
    show tail = (r.advance enc.length).rest
    simp [h1]
  subst ht
  cases enc with
  | nil => exact absurd rfl (hne _ _ h2)
  | cons b bs => exact ⟨b, bs, h1, h3, hd⟩

theorem Twin1.u32 : Twin1 readVarU32 readVarU32 Eq :=
  .of_iff (P := fun bs v => ULeb 32 bs v.toNat) (fun _ _ h => h.ne_nil) c01_u32_exact
theorem Twin1.u64 : Twin1 readVarU64 readVarU64 Eq :=
  .of_iff (P := fun bs v => ULeb 64 bs v.toNat) (fun _ _ h => h.ne_nil) c01_u64_exact
theorem Twin1.i32 : Twin1 readVarI32 readVarI32 Eq :=
  .of_iff (P := fun bs v => SLeb 32 bs v.toInt) (fun _ _ h => h.ne_nil) c02_i32_exact
theorem Twin1.i64 : Twin1 readVarI64 readVarI64 Eq :=
  .of_iff (P := fun bs v => SLeb 64 bs v.toInt) (fun _ _ h => h.ne_nil) c02_i64_exact
theorem Twin1.s33 : Twin1 readVarS33 readVarS33 Eq :=
  .of_iff (P := fun bs v => ∃ m, SLeb 33 bs m ∧
      v.toInt = (if m < 0 ∧ bs.length = 5 then m + 2 ^ 35 else m))
    (fun _ _ ⟨_, h, _⟩ => h.ne_nil) fun r v r' => by
      rw [c03_s33_exact_partial]
      constructor
      · rintro ⟨enc, tail, m, h1, h2, h3, h4⟩
        exact ⟨enc, tail, h1, ⟨m, h2, h3⟩, h4⟩
      · rintro ⟨enc, tail, h1, ⟨m, h2, h3⟩, h4⟩
        exact ⟨enc, tail, m, h1, h2, h3, h4⟩

/-- Two related values followed by equal continuations. -/
theorem Twin.bindE {m : R α} {m' : R α} {g : α → R γ} {g' : α → R δ}
    {T : γ → δ → Prop} (h1 : Twin m m' Eq) (h2 : ∀ a, Twin (g a) (g' a) T) :
    Twin (m >>= g) (m' >>= g') T := h1.bind fun a b h => h ▸ h2 a

theorem Twin1.bindE {m : R α} {m' : R α} {g : α → R γ} {g' : α → R δ}
    {T : γ → δ → Prop} (h1 : Twin1 m m' Eq) (h2 : ∀ a, Twin (g a) (g' a) T) :
    Twin1 (m >>= g) (m' >>= g') T := h1.bind fun a b h => h ▸ h2 a

theorem Twin.fmapE {m : R α} {m' : R α} {g : α → γ} {g' : α → δ}
    {T : γ → δ → Prop} (h1 : Twin m m' Eq) (h2 : ∀ a, T (g a) (g' a)) :
    Twin (g <$> m) (g' <$> m') T := h1.fmap fun a b h => h ▸ h2 a

theorem Twin.many {m : R α} {m' : R β} {S : α → β → Prop} (h : Twin m m' S) : ∀ n,
    Twin (readMany m n) (readMany m' n) (fun as bs => List.Forall₂ S as bs)
  | 0 => .pure .nil
  | n + 1 => h.bind fun a b hab => (h.many n).bind fun as bs hs => .pure (.cons hab hs)

theorem Twin.manyE {m : R α} (h : Twin m m Eq) (n : Nat) :
    Twin (readMany m n) (readMany m n) Eq :=
  (h.many n).mono fun _ _ h => by rwa [List.forall₂_eq_eq_eq] at h

theorem Twin.readSize (l : Nat) (d : String) : Twin (readSize l d) (readSize l d) Eq :=
  .pos fun _ _ => Twin1.u32.toTwin.bindE fun _ => .ite (fun _ => .fail) fun _ => .pure rfl

theorem Twin.iterE {m : R α} (h : Twin m m Eq) (l : Nat) (d : String) :
    Twin (readIter m l d) (readIter m l d) Eq := (Twin.readSize l d).bindE fun n => h.manyE n

theorem Twin1.readSize (l : Nat) (d : String) : Twin1 (readSize l d) (readSize l d) Eq :=
  .pos fun _ _ => Twin1.u32.bindE fun _ => .ite (fun _ => .fail) fun _ => .pure rfl

theorem Twin.u32le : Twin readU32 readU32 Eq :=
  (Twin.readBytes 4).bind fun _ _ ⟨h, _⟩ => h ▸ .pure rfl
theorem Twin.u64le : Twin readU64 readU64 Eq :=
  (Twin.readBytes 8).bind fun _ _ ⟨h, _⟩ => h ▸ .pure rfl

theorem rest_eq_buffer {b : List UInt8} {o : Nat} : (⟨b, 0, o⟩ : Reader).rest = b := rfl

/-- `skip` returns a reader over the bytes consumed, at its start; reading them again yields
the same. -/
theorem Twin.skip {m m' : R Unit} (h : Twin m m' (fun _ _ => True)) :
    Twin (skip m) (skip m') (fun s s' => s.rest = s'.rest ∧ s.position = 0 ∧
      DecP m' s.rest (fun _ => True)) := by
  intro r s r' e
  unfold Reader.skip at e
  cases hm : m r with
  | error x => rw [hm] at e; cases e
  | ok x =>
    obtain ⟨⟨⟩, r1⟩ := x
    rw [hm] at e
    obtain ⟨bytes, p, q, d⟩ := h _ _ _ hm
    have hb : ((r1.buffer.drop r.position).take (r1.position - r.position)) = bytes := by
      rw [q]
      simp only [Reader.buffer_advance, Reader.position_advance]
      rw [show r.buffer.drop r.position = bytes ++ r1.rest from p]
      simp
    simp only [hb] at e
    cases e
    refine ⟨bytes, p, q, fun z tail hz => ?_⟩
    obtain ⟨⟨⟩, e', -⟩ := d z tail hz
    refine ⟨⟨bytes, 0, z.originalPosition⟩, ?_, ?_, rfl, ?_⟩
    · unfold Reader.skip
      rw [e']
      have : z.buffer.drop z.position = bytes ++ tail := hz
      simp [this]
    · rw [rest_eq_buffer, rest_eq_buffer]
    · exact d.mono fun _ _ => trivial

end Verif.Reader

namespace Verif.Types
open Verif.Reader Verif.Leb

theorem twin_absHeap : Twin1 readAbsHeap readAbsHeap Eq :=
  Twin1.readU8.bindE fun b => by
    cases absHeapOfByte b with
    | some t => exact .pure rfl
    | none => exact .pos fun _ _ => .fail

theorem absHeap_byte {b : UInt8} {t : AbsHeap} (h : absHeapOfByte b = some t) :
    64 ≤ b.toNat ∧ b.toNat < 128 := by
  have : ∀ x : BitVec 8, absHeapOfByte (UInt8.ofBitVec x) ≠ none → 64 ≤ x.toNat ∧ x.toNat < 128 := by
    decide +kernel
  exact this b.toBitVec (by rw [show UInt8.ofBitVec b.toBitVec = b from rfl, h]; nofun)

theorem twin_limitFail {α β : Type} {m' : R β} {S : α → β → Prop} : Twin (limitFail : R α) m' S := by
  intro r a r' e; cases e

/-- The part of `readHeapType` for negative numbers. -/
def heapNeg : R HeapType := do
  let b ← peekR
  if b = 0x65 then
    let _ ← readU8
    let ty ← readAbsHeap
    pure (.abstract true ty)
  else if b = 0x62 then
    let _ ← readU8
    let idx ← readVarU32
    pure (.exact (.module idx))
  else
    let ty ← mapErr (reclassify "invalid heap type") readAbsHeap
    pure (.abstract false ty)

theorem twin_heapNeg : Twin1 heapNeg heapNeg Eq := by
  refine .peek fun b => .ite (fun _ => ?_) fun _ => .ite (fun _ => ?_) fun _ => ?_
  · exact Twin1.readU8.bindE fun _ => twin_absHeap.toTwin.bindE fun _ => .pure rfl
  · exact Twin1.readU8.bindE fun _ => Twin1.u32.toTwin.bindE fun _ => .pure rfl
  · exact twin_absHeap.mapErr.bindE fun _ => .pure rfl

theorem heapNeg_byte {r r' : Reader} {h : HeapType} {b : UInt8} {bs : List UInt8}
    (e : heapNeg r = .ok (h, r')) (hr : r.rest = b :: bs) : 64 ≤ b.toNat ∧ b.toNat < 128 := by
  unfold heapNeg at e
  rw [bind_apply, peekR_cons hr] at e
  dsimp only at e
  split at e
  · subst b; decide
  split at e
  · subst b; decide
  obtain ⟨t, r1, e1, -⟩ := bind_ok.mp e
  unfold mapErr at e1
  split at e1
  · rename_i x hx
    cases e1
    obtain ⟨b', r2, e2, e3⟩ := bind_ok.mp hx
    obtain ⟨-, h2⟩ := readU8_ok e2
    rw [hr] at h2
    obtain ⟨rfl, -⟩ := List.cons.inj h2
    cases ha : absHeapOfByte b with
    | some t => exact absHeap_byte ha
    | none => rw [ha] at e3; cases e3
  · cases e1

/-- The part of `readHeapType` for indices. -/
def heapIdx (s33 : BitVec 64) : R HeapType :=
  match PackedIndex.fromModuleIndex (s33.setWidth 32) with
    | none => limitFail
    | some idx => match idx.unpack with
      | some u => pure (.concrete u)
      | none => R.fail "panic: unreachable" 0

theorem heapIdx_ok {v : BitVec 64} {q q' : Reader} {a : HeapType} (h : heapIdx v q = .ok (a, q')) :
    q' = q ∧ ∀ z, heapIdx v z = .ok (a, z) := by
  cases hp : PackedIndex.fromModuleIndex (v.setWidth 32) with
  | none => simp only [heapIdx, hp] at h; cases h
  | some idx =>
    cases hu : idx.unpack with
    | none => simp only [heapIdx, hp, hu] at h; cases h
    | some u =>
      simp only [heapIdx, hp, hu] at h ⊢
      cases h
      exact ⟨rfl, fun _ => rfl⟩

theorem twin_heapType : Twin1 readHeapType readHeapType Eq := by
  intro r a r' e
  unfold readHeapType at e
  split at e
  · cases e
  · rename_i s33 clone hs
    split at e
    · rename_i h0
      obtain ⟨rfl, hz⟩ := heapIdx_ok (v := s33) e
      obtain ⟨b, bs, p, q, d⟩ := Twin1.s33 r s33 r' hs
      refine ⟨b, bs, p, q, fun z tail hz' => ?_⟩
      obtain ⟨v, e2, rfl⟩ := d z tail hz'
      refine ⟨a, ?_, rfl⟩
      unfold readHeapType
      rw [e2]
      simp only
      rw [if_pos h0]
      exact hz _
    · obtain ⟨b, bs, p, q, d⟩ := twin_heapNeg r a r' e
      obtain ⟨h1, h2⟩ := heapNeg_byte e p
      refine ⟨b, bs, p, q, fun z tail hz => ?_⟩
      obtain ⟨a', e2, rfl⟩ := d z tail hz
      exact ⟨a, by rw [readHeapType_neg hz h1 h2]; exact e2, rfl⟩

end Verif.Types
