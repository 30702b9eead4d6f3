import Verif.Custom.Spec
import Verif.Custom.Exact
import Verif.Names.Codec
/-! The readers of core dumps accept the grammars; the encoders write them. -/
namespace Verif.Custom
open Verif.Reader Verif.Leb Verif.Items Verif.Framing

theorem exact_name : Exact readUnlimitedString Name := by
  unfold readUnlimitedString internalReadString
  refine (Exact.u32.bind fun n => (Exact.readBytes _).bind fun a =>
    Exact.ite (.pure _) (Exact.readPos fun _ => .fail _ _)).congr fun s b => ?_
  constructor
  · rintro ⟨n, b1, b2, rfl, h1, a, b3, b4, rfl, ⟨rfl, h2⟩, ⟨h3, rfl, rfl⟩ | ⟨-, h⟩⟩
    · exact ⟨h3, b1, h2 ▸ h1, by simp⟩
    · exact h.elim
  · rintro ⟨h1, n, h2, rfl⟩
    have hl : s.length < 2 ^ 32 := h2.lt
    refine ⟨BitVec.ofNat 32 s.length, n, s, rfl, ?_, s, s, [], by simp, ⟨rfl, ?_⟩, .inl ⟨h1, rfl, rfl⟩⟩
    · rwa [toNat_ofNat32 hl]
    · rw [toNat_ofNat32 hl]

theorem exact_vec {f : R α} {G : Grammar α} (h : Exact f G) : Exact (readVec f) (Vec G) := by
  unfold readVec
  refine (Exact.u32.bind fun n => h.many _).congr fun xs b => ?_
  constructor
  · rintro ⟨n, b1, b2, rfl, h1, h2, bs, rfl, h3⟩
    exact ⟨b1, bs, rfl, h2 ▸ h1, h3⟩
  · rintro ⟨n, bs, rfl, h1, h2⟩
    have hl := h1.lt
    refine ⟨BitVec.ofNat 32 xs.length, n, _, rfl, ?_, ?_, bs, rfl, h2⟩
    · rwa [toNat_ofNat32 hl]
    · rw [toNat_ofNat32 hl]

theorem exact_start (pos : Nat) (m : String) : Exact (readStart pos m) fun _ b => b = [0] := by
  unfold readStart
  refine (Exact.readU8.bind fun b => Exact.ite (.fail _ _) (.pure _)).congr fun u b => ?_
  constructor
  · rintro ⟨x, b1, b2, rfl, rfl, ⟨-, h⟩ | ⟨h, -, rfl⟩⟩
    · exact h.elim
    · simpa using h
  · rintro rfl
    exact ⟨0, [0], [], rfl, rfl, .inr ⟨by simp, rfl, rfl⟩⟩

theorem readEnd_iff {r r' : Reader} {u : Unit} :
    readEnd r = .ok (u, r') ↔ r.rest = [] ∧ r' = r := by
  unfold readEnd
  have : r.eof = true ↔ r.rest = [] := by
    simp only [Reader.eof, Reader.rest, Reader.maxPosition, List.drop_eq_nil_iff]
    simp
  cases h : r.eof with
  | true => simp [this.1 h, eq_comm]
  | false =>
    have : r.rest ≠ [] := fun e => by rw [this.2 e] at h; cases h
    simp [this]

/-- A reader that accepts only if the grammar is all that is left. -/
def Fills (f : R α) (G : α → List UInt8 → Prop) : Prop :=
  ∀ r a, whole f r = .ok a ↔ G a r.rest

theorem whole_ok {f : R α} {r : Reader} {a : α} : whole f r = .ok a ↔ ∃ r', f r = .ok (a, r') := by
  unfold whole
  cases h : f r with
  | error e => simp [Except.map]
  | ok p =>
    obtain ⟨x, r'⟩ := p
    simp [Except.map]

theorem Fills.end (x : α) : Fills (do readEnd; pure x) fun a b => a = x ∧ b = [] := by
  intro r a
  rw [whole_ok]
  constructor
  · rintro ⟨r', h⟩
    obtain ⟨u, r1, h1, h2⟩ := bind_ok.mp h
    cases h2
    exact ⟨rfl, (readEnd_iff.1 h1).1⟩
  · rintro ⟨rfl, h⟩
    exact ⟨r, bind_ok.2 ⟨(), r, readEnd_iff.2 ⟨h, rfl⟩, rfl⟩⟩

theorem Fills.bind {f : R α} {g : α → R β} {F : α → List UInt8 → Prop}
    {G : α → β → List UInt8 → Prop} (hf : Exact f F) (hg : ∀ a, Fills (g a) (G a)) :
    Fills (f >>= g) fun c b => ∃ a b1 b2, b = b1 ++ b2 ∧ F a b1 ∧ G a c b2 := by
  intro r c
  rw [whole_ok]
  constructor
  · rintro ⟨r', h⟩
    obtain ⟨a, r1, h1, h2⟩ := bind_ok.mp h
    obtain ⟨b1, t1, e1, g1, rfl⟩ := (hf _ _ _).1 h1
    have h3 := (hg a _ _).1 (whole_ok.2 ⟨_, h2⟩)
    rw [Reader.rest_advance, e1, List.drop_left] at h3
    exact ⟨a, b1, t1, e1, g1, h3⟩
  · rintro ⟨a, b1, b2, e, g1, g2⟩
    have h1 := (hf r a _).2 ⟨b1, b2, e, g1, rfl⟩
    obtain ⟨r', h2⟩ := whole_ok.1 ((hg a (r.advance b1.length) c).2
      (by rwa [Reader.rest_advance, e, List.drop_left]))
    exact ⟨r', bind_ok.2 ⟨_, _, h1, h2⟩⟩

theorem Fills.readPos {g : Nat → R β} {G : β → List UInt8 → Prop} (h : ∀ n, Fills (g n) G) :
    Fills (readPos >>= g) G := fun r c => h _ r c

theorem Fills.congr {f : R α} {F G : α → List UInt8 → Prop} (h : Fills f F)
    (e : ∀ a b, F a b ↔ G a b) : Fills f G := by
  have : F = G := by funext a b; exact propext (e a b)
  exact this ▸ h

theorem exact_module (pos : Nat) : Exact (readModule pos) IsModule := by
  unfold readModule
  refine ((exact_start _ _).bind fun _ => exact_name).congr fun s b => ?_
  constructor
  · rintro ⟨-, b1, b2, rfl, rfl, h⟩; exact .mk h
  · rintro ⟨h⟩; exact ⟨(), [0], _, rfl, rfl, h⟩

theorem little_eq : ∀ b, little b = leValue b
  | [] => rfl
  | b :: bs => by rw [little, leValue, little_eq bs]

theorem leValue_lt : ∀ b : List UInt8, leValue b < 256 ^ b.length
  | [] => by simp [leValue]
  | b :: bs => by
    have h := leValue_lt bs
    have := b.toNat_lt
    rw [leValue, List.length_cons, Nat.pow_succ]
    omega

theorem exact_u32le : Exact readU32 fun (v : BitVec 32) b => b.length = 4 ∧ little b = v.toNat := by
  unfold readU32
  refine ((Exact.readBytes 4).bind fun a => .pure _).congr fun v b => ?_
  constructor
  · rintro ⟨a, b1, b2, rfl, ⟨rfl, h⟩, rfl, rfl⟩
    refine ⟨by simpa using h, ?_⟩
    have := leValue_lt b1
    rw [h] at this
    rw [List.append_nil, BitVec.toNat_ofNat, little_eq, Nat.mod_eq_of_lt (by simpa using this)]
  · rintro ⟨h1, h2⟩
    refine ⟨b, b, [], by simp, ⟨rfl, h1⟩, ?_, rfl⟩
    rw [← little_eq, h2]; simp

theorem exact_u64le : Exact readU64 fun (v : BitVec 64) b => b.length = 8 ∧ little b = v.toNat := by
  unfold readU64
  refine ((Exact.readBytes 8).bind fun a => .pure _).congr fun v b => ?_
  constructor
  · rintro ⟨a, b1, b2, rfl, ⟨rfl, h⟩, rfl, rfl⟩
    refine ⟨by simpa using h, ?_⟩
    have := leValue_lt b1
    rw [h] at this
    rw [List.append_nil, BitVec.toNat_ofNat, little_eq, Nat.mod_eq_of_lt (by simpa using this)]
  · rintro ⟨h1, h2⟩
    refine ⟨b, b, [], by simp, ⟨rfl, h1⟩, ?_, rfl⟩
    rw [← little_eq, h2]; simp

theorem exact_value : Exact readValue IsValue := by
  unfold readValue readValueOf
  refine Exact.readPos fun _ => ?_
  refine (Exact.readU8.bind fun x => Exact.ite (.pure _)
    (.ite (Exact.i32.bind fun v => .pure _) (.ite (Exact.i64.bind fun v => .pure _)
    (.ite (exact_u32le.bind fun v => .pure _) (.ite (exact_u64le.bind fun v => .pure _)
    (.fail _ _)))))).congr fun v b => ?_
  constructor
  · rintro ⟨x, b1, b2, rfl, rfl, ⟨rfl, rfl, rfl⟩ | ⟨-, ⟨rfl, v, b3, b4, rfl, h, rfl, rfl⟩ |
      ⟨-, ⟨rfl, v, b3, b4, rfl, h, rfl, rfl⟩ | ⟨-, ⟨rfl, v, b3, b4, rfl, h, rfl, rfl⟩ |
      ⟨-, ⟨rfl, v, b3, b4, rfl, h, rfl, rfl⟩ | ⟨-, h⟩⟩⟩⟩⟩⟩
    · exact .missing
    · rw [List.append_nil]; exact .i32 h
    · rw [List.append_nil]; exact .i64 h
    · rw [List.append_nil]; exact .f32 h.1 h.2
    · rw [List.append_nil]; exact .f64 h.1 h.2
    · exact h.elim
  · intro h
    cases h with
    | missing => exact ⟨1, [1], [], rfl, rfl, .inl ⟨rfl, rfl, rfl⟩⟩
    | @i32 v b h => exact ⟨0x7F, _, b, rfl, rfl, .inr ⟨by decide, .inl ⟨rfl, v, b, [], by simp, h, rfl, rfl⟩⟩⟩
    | @i64 v b h => exact ⟨0x7E, _, b, rfl, rfl, .inr ⟨by decide, .inr ⟨by decide, .inl
        ⟨rfl, v, b, [], by simp, h, rfl, rfl⟩⟩⟩⟩
    | @f32 v b h h' => exact ⟨0x7D, _, b, rfl, rfl, .inr ⟨by decide, .inr ⟨by decide, .inr ⟨by decide,
        .inl ⟨rfl, v, b, [], by simp, ⟨h, h'⟩, rfl, rfl⟩⟩⟩⟩⟩
    | @f64 v b h h' => exact ⟨0x7C, _, b, rfl, rfl, .inr ⟨by decide, .inr ⟨by decide, .inr ⟨by decide,
        .inr ⟨by decide, .inl ⟨rfl, v, b, [], by simp, ⟨h, h'⟩, rfl, rfl⟩⟩⟩⟩⟩⟩

theorem exact_instance : Exact readInstance IsInstance := by
  unfold readInstance
  refine Exact.readPos fun _ => ?_
  refine ((exact_start _ _).bind fun _ => Exact.u32.bind fun m =>
    (exact_vec Exact.u32).bind fun ms => (exact_vec Exact.u32).bind fun gs => .pure _).congr
    fun i b => ?_
  constructor
  · rintro ⟨-, b0, b1, rfl, rfl, m, b2, b3, rfl, h1, ms, b4, b5, rfl, h2, gs, b6, b7, rfl, h3, rfl, rfl⟩
    have := IsInstance.mk (i := ⟨m, ms, gs⟩) h1 h2 h3
    simpa using this
  · rintro ⟨h1, h2, h3⟩
    rename_i b1 b2 b3
    exact ⟨(), [0], b1 ++ b2 ++ b3, by simp, rfl, i.moduleIndex, b1, b2 ++ b3, by simp, h1, i.memories,
      b2, b3, by simp, h2, i.globals, b3, [], by simp, h3, rfl, rfl⟩

theorem exact_frame : Exact readFrame IsFrame := by
  unfold readFrame
  refine Exact.readPos fun _ => ?_
  refine ((exact_start _ _).bind fun _ => Exact.u32.bind fun _ =>
    Exact.u32.bind fun _ => Exact.u32.bind fun _ =>
    (exact_vec exact_value).bind fun _ => (exact_vec exact_value).bind fun _ => .pure _).congr
    fun f b => ?_
  constructor
  · rintro ⟨-, b0, b1, rfl, rfl, m, b2, b3, rfl, h1, ms, b4, b5, rfl, h2, gs, b6, b7, rfl, h3,
      l, b8, b9, rfl, h4, s, b10, b11, rfl, h5, rfl, rfl⟩
    have := IsFrame.mk (f := ⟨m, ms, gs, l, s⟩) h1 h2 h3 h4 h5
    simpa using this
  · rintro ⟨h1, h2, h3, h4, h5⟩
    rename_i b1 b2 b3 b4 b5
    exact ⟨(), [0], b1 ++ b2 ++ b3 ++ b4 ++ b5, by simp, rfl, _, b1, b2 ++ b3 ++ b4 ++ b5, by simp, h1,
      _, b2, b3 ++ b4 ++ b5, by simp, h2, _, b3, b4 ++ b5, by simp, h3, _, b4, b5, by simp, h4,
      _, b5, [], by simp, h5, rfl, rfl⟩

theorem fills_core : Fills (do
    let pos ← readPos
    readStart pos "invalid start byte for core dump name"
    let name ← readUnlimitedString
    readEnd
    pure name) IsModule := by
  refine Fills.readPos fun _ => ?_
  refine (Fills.bind (exact_start _ _) fun _ => .bind exact_name fun _ => .end _).congr fun s b => ?_
  constructor
  · rintro ⟨-, b0, b1, rfl, rfl, m, b2, b3, rfl, h1, rfl, rfl⟩
    rw [List.append_nil]
    exact .mk h1
  · rintro ⟨h1⟩
    rename_i b
    exact ⟨(), [0], b, rfl, rfl, s, b, [], by simp, h1, rfl, rfl⟩

theorem fills_vec {f : R α} {G : Grammar α} (h : Exact f G) :
    Fills (do let xs ← readVec f; readEnd; pure xs) (Vec G) := by
  refine (Fills.bind (exact_vec h) fun _ => .end _).congr fun s b => ?_
  constructor
  · rintro ⟨m, b2, b3, rfl, h1, rfl, rfl⟩
    rwa [List.append_nil]
  · rintro h1
    exact ⟨_, _, [], by simp, h1, rfl, rfl⟩

theorem fills_stack : Fills (do
    let pos ← readPos
    readStart pos "invalid start byte for core dump stack name"
    let name ← readUnlimitedString
    let frames ← readVec readFrame
    readEnd
    pure (⟨name, frames⟩ : Stack)) IsStack := by
  refine Fills.readPos fun _ => ?_
  refine (Fills.bind (exact_start _ _) fun _ => .bind exact_name fun _ =>
    .bind (exact_vec exact_frame) fun _ => .end _).congr fun s b => ?_
  constructor
  · rintro ⟨-, b0, b1, rfl, rfl, m, b2, b3, rfl, h1, ms, b4, b5, rfl, h2, rfl, rfl⟩
    have := IsStack.mk (s := ⟨m, ms⟩) h1 h2
    simpa using this
  · rintro ⟨h1, h2⟩
    rename_i b1 b2
    exact ⟨(), [0], b1 ++ b2, by simp, rfl, _, b1, b2, by simp, h1, _, b2, [], by simp, h2, rfl, rfl⟩

end Verif.Custom
