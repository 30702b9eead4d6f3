import Verif.Custom.Lemmas
import Verif.Instr.Lemmas
/-! The encoders write the grammars. -/
namespace Verif.Custom
open Verif.Reader Verif.Leb Verif.Items Verif.Framing

/-- An encoder does not panic and writes something of a grammar. -/
def Writes (o : Option (List UInt8)) (P : List UInt8 → Prop) : Prop := ∃ b, o = some b ∧ P b

theorem u32_enc (v : BitVec 32) : U32 v (encodeU32 v) := encodeU_spec _ 32 v.isLt

theorem leb_enc {n : Nat} (h : n < 2 ^ 32) : ULeb 32 (encodeU32 (BitVec.ofNat 32 n)) n := by
  have := u32_enc (BitVec.ofNat 32 n)
  unfold U32 at this
  rwa [toNat_ofNat32 h] at this

theorem writes_name {s : List UInt8} (h : Str s) : Writes (encodeSlice s) (Name s) :=
  ⟨_, encodeSlice_eq h.2, h.1, _, leb_enc h.2, rfl⟩

theorem writes_all {enc : α → Option (List UInt8)} {G : Grammar α} : ∀ {xs : List α},
    (∀ x ∈ xs, Writes (enc x) (G x)) →
    ∃ bs : List (List UInt8), Enc.encodeAll enc xs = some bs.flatten ∧ List.Forall₂ G xs bs
  | [], _ => ⟨[], rfl, .nil⟩
  | x :: xs, h => by
    obtain ⟨b, h1, h2⟩ := h x (List.mem_cons_self ..)
    obtain ⟨bs, h3, h4⟩ := writes_all fun y hy => h y (List.mem_cons_of_mem _ hy)
    refine ⟨b :: bs, ?_, .cons h2 h4⟩
    unfold Enc.encodeAll
    rw [h1, h3]; rfl

theorem usize_eq {n : Nat} (h : n < 2 ^ 32) :
    encodeUsize n = some (encodeU32 (BitVec.ofNat 32 n)) := by
  unfold encodeUsize
  rw [if_pos (by omega)]

theorem writes_vec {enc : α → Option (List UInt8)} {G : Grammar α} {xs : List α}
    (hl : xs.length < 2 ^ 32) (h : ∀ x ∈ xs, Writes (enc x) (G x)) :
    Writes (encodeVec enc xs) (Vec G xs) := by
  obtain ⟨bs, h1, h2⟩ := writes_all h
  refine ⟨_, ?_, _, bs, rfl, leb_enc hl, h2⟩
  unfold encodeVec
  rw [usize_eq hl, h1]; rfl

theorem calls_vec {enc : α → Option (List UInt8)} {add : Enc.Builder → α → Option Enc.Builder}
    (ha : ∀ b x, add b x = (enc x).bind fun c => some (b.add c)) {G : Grammar α} {xs : List α}
    (hl : xs.length < 2 ^ 32) (h : ∀ x ∈ xs, Writes (enc x) (G x)) :
    ∃ b, calls add xs = some b ∧ Vec G xs (encodeU32 b.numAdded ++ b.bytes) := by
  obtain ⟨bs, h1, h2⟩ := writes_all h
  have e : calls add xs = Enc.buildFrom enc {} xs := by
    unfold calls Enc.buildFrom
    congr 1
    funext b x
    exact ha b x
  refine ⟨_, by rw [e, buildFrom_eq h1], _, bs, rfl, ?_, h2⟩
  have : (({} : Enc.Builder).numAdded + BitVec.ofNat 32 xs.length) = BitVec.ofNat 32 xs.length := by
    show (0 : BitVec 32) + _ = _
    simp
  rw [this]
  exact leb_enc hl

theorem writes_u32s {xs : List (BitVec 32)} (hl : xs.length < 2 ^ 32) :
    Writes (encodeVec (fun x => some (encodeU32 x)) xs) (Vec U32 xs) :=
  writes_vec hl fun x _ => ⟨_, rfl, u32_enc x⟩

theorem length_leBytes : ∀ n v, (Instr.Enc.leBytes n v).length = n
  | 0, _ => rfl
  | n + 1, v => by rw [Instr.Enc.leBytes, List.length_cons, length_leBytes n]

theorem little_leBytes : ∀ n v, v < 256 ^ n → little (Instr.Enc.leBytes n v) = v
  | 0, v, h => by simp at h; simp [h, Instr.Enc.leBytes, little]
  | n + 1, v, h => by
    rw [Instr.Enc.leBytes, little, little_leBytes n _ (by rw [Nat.pow_succ] at h; omega)]
    have : (UInt8.ofNat (v % 256)).toNat = v % 256 := by simp
    omega

theorem value_enc (v : Value) : IsValue v v.encode := by
  cases v with
  | missing => exact .missing
  | i32 v => exact .i32 (encodeS_spec _ _ rfl 32 (by decide) (bv_range v).1 (bv_range v).2)
  | i64 v => exact .i64 (encodeS_spec _ _ rfl 64 (by decide) (bv_range v).1 (bv_range v).2)
  | f32 v => exact .f32 (length_leBytes ..) (little_leBytes _ _ (by have := v.isLt; omega))
  | f64 v => exact .f64 (length_leBytes ..) (little_leBytes _ _ (by have := v.isLt; omega))

theorem writes_values {xs : List Value} (hl : xs.length < 2 ^ 32) :
    Writes (encodeVec (fun x => some x.encode) xs) (Vec IsValue xs) :=
  writes_vec hl fun x _ => ⟨_, rfl, value_enc x⟩

/-- What `module` appends. -/
def encModule (name : List UInt8) : Option (List UInt8) := do
  pure ([0x00] ++ (← encodeSlice name))

theorem addModule_eq (b : Enc.Builder) (x : List UInt8) :
    addModule b x = (encModule x).bind fun c => some (b.add c) := by
  unfold addModule encModule
  cases encodeSlice x <;> rfl

theorem writes_module {s : List UInt8} (h : Str s) : Writes (encModule s) (IsModule s) := by
  obtain ⟨b, h1, h2⟩ := writes_name h
  exact ⟨0 :: b, by unfold encModule; rw [h1]; rfl, .mk h2⟩

/-- What `instance` appends. -/
def encInstance (i : Instance) : Option (List UInt8) := do
  pure ([0x00] ++ encodeU32 i.moduleIndex ++
    (← encodeVec (fun x => some (encodeU32 x)) i.memories) ++
    (← encodeVec (fun x => some (encodeU32 x)) i.globals))

theorem addInstance_eq (b : Enc.Builder) (x : Instance) :
    addInstance b x = (encInstance x).bind fun c => some (b.add c) := by
  unfold addInstance encInstance
  cases encodeVec (fun x => some (encodeU32 x)) x.memories <;>
    cases encodeVec (fun x => some (encodeU32 x)) x.globals <;> rfl

theorem writes_instance {i : Instance} (h : i.Fits) : Writes (encInstance i) (IsInstance i) := by
  obtain ⟨b1, h1, h2⟩ := writes_u32s h.1
  obtain ⟨b2, h3, h4⟩ := writes_u32s h.2
  exact ⟨_, by unfold encInstance; rw [h1, h3]; rfl, .mk (u32_enc _) h2 h4⟩

/-- What `frame` appends. -/
def encFrame (f : Frame) : Option (List UInt8) := do
  pure ([0x00] ++ encodeU32 f.instanceidx ++ encodeU32 f.funcidx ++
    encodeU32 f.codeoffset ++ (← encodeVec (fun x => some x.encode) f.locals) ++
    (← encodeVec (fun x => some x.encode) f.stack))

theorem addFrame_eq (b : Enc.Builder) (x : Frame) :
    addFrame b x = (encFrame x).bind fun c => some (b.add c) := by
  unfold addFrame encFrame
  cases encodeVec (fun x : Value => some x.encode) x.locals <;>
    cases encodeVec (fun x : Value => some x.encode) x.stack <;> rfl

theorem writes_frame {f : Frame} (h : f.Fits) : Writes (encFrame f) (IsFrame f) := by
  obtain ⟨b1, h1, h2⟩ := writes_values h.1
  obtain ⟨b2, h3, h4⟩ := writes_values h.2
  exact ⟨_, by unfold encFrame; rw [h1, h3]; rfl, .mk (u32_enc _) (u32_enc _) (u32_enc _) h2 h4⟩

/-! What the grammars imply about sizes. -/

theorem name_fits {s b : List UInt8} (h : Name s b) : Str s := by
  obtain ⟨h1, n, h2, -⟩ := h
  exact ⟨h1, h2.lt⟩

theorem vec_length {G : Grammar α} {xs : List α} {b : List UInt8} (h : Vec G xs b) :
    xs.length < 2 ^ 32 := by
  obtain ⟨n, bs, -, h, -⟩ := h
  exact h.lt

theorem forall₂_mem {G : α → β → Prop} {xs : List α} {ys : List β} (h : List.Forall₂ G xs ys) :
    ∀ x ∈ xs, ∃ y, G x y := by
  induction h with
  | nil => simp
  | cons h _ ih =>
    intro x hx
    rcases List.mem_cons.1 hx with rfl | hx
    · exact ⟨_, h⟩
    · exact ih x hx

theorem vec_mem {G : Grammar α} {xs : List α} {b : List UInt8} (h : Vec G xs b) :
    ∀ x ∈ xs, ∃ c, G x c := by
  obtain ⟨n, bs, -, -, h⟩ := h
  exact forall₂_mem h

end Verif.Custom
