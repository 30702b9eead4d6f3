import Verif.Reenc.Spec
import Verif.Reenc.Ops
/-! Lemmas on the renaming of instructions. -/
namespace Verif.Reenc
open Verif.Reader Verif.Leb Verif.Instr Verif.Instr.Spec Spec

variable (m : Maps)

theorem field_idx (o : Idx) : mapField m (idxField o) = into m (idxSpace o) := by cases o <;> rfl
theorem field_idx2a (o : Idx2) : mapField m (idx2Fields o).1 = into m (idx2Space o).1 := by
  cases o <;> rfl
theorem field_idx2b (o : Idx2) : mapField m (idx2Fields o).2 = into m (idx2Space o).2 := by
  cases o <;> rfl
theorem field_atomic (o : Atomic) : mapField m (atomicField o) = into m (atomicSpace o) := by
  cases o <;> rfl

theorem re_block {t : Enc.BlockType} {t' : BlockType} (h : BlockCorr t t') :
    blockType m t' = some (renameBlock m t) := by
  cases t <;> cases t' <;> first | (exact h.elim) | skip
  · rfl
  · simp only [blockType, Types.re_val m.type (show Types.ValType.Is _ _ from h)]; rfl
  · obtain rfl := h; rfl

theorem re_ref {e : Types.Enc.RefType} {t : Types.RefType} (h : RefCorr e t) :
    Types.Reenc.refType m.type t = some (renameRef m e) := by
  have := Types.re_val m.type (v := .ref t) (e := .ref e) h
  simp only [Types.Reenc.valType] at this
  cases hr : Types.Reenc.refType m.type t with
  | none => rw [hr] at this; cases this
  | some x => rw [hr] at this; cases this; rfl

theorem re_heap (e : Types.Enc.HeapType) :
    Types.Reenc.heapType m.type e.denote = some (e.rename m.type) := by
  cases e <;> rfl

theorem re_mem {bits : Nat} {a : Enc.MemArg} {a' : MemArg} (h : MemCorr bits a a') :
    memArg m a' = renameMem m a := by
  obtain ⟨h1, h2, h3, -⟩ := h
  obtain ⟨o, al, i⟩ := a
  simp only at h1 h2 h3
  simp only [memArg, renameMem, h2, h3]
  congr 1
  apply BitVec.eq_of_toNat_eq
  have hl : a'.align.toBitVec.toNat = al.toNat := h1
  rw [BitVec.toNat_setWidth, hl]
  exact Nat.mod_eq_of_lt al.isLt

theorem re_catch {cs : List Enc.Catch} {cs' : List Catch} (h : List.Forall₂ CatchCorr cs cs') :
    cs'.map (catch_ m) = cs.map (renameCatch m) := by
  induction h with
  | nil => rfl
  | @cons a b _ _ h _ ih =>
    rw [List.map_cons, List.map_cons, ih]
    congr 1
    cases a <;> cases b <;> first | (exact h.elim) | skip
    · obtain ⟨rfl, rfl⟩ := h; rfl
    · obtain ⟨rfl, rfl⟩ := h; rfl
    · obtain rfl := h; rfl
    · obtain rfl := h; rfl

theorem re_handle {hs : List Enc.Handle} {hs' : List Handle} (h : List.Forall₂ HandleCorr hs hs') :
    hs'.map (handle m) = hs.map (renameHandle m) := by
  induction h with
  | nil => rfl
  | @cons a b _ _ h _ ih =>
    rw [List.map_cons, List.map_cons, ih]
    congr 1
    cases a <;> cases b <;> first | (exact h.elim) | skip
    · obtain ⟨rfl, rfl⟩ := h; rfl
    · obtain rfl := h; rfl

theorem re_order {x : Enc.Ordering} {o : Instr.Ordering} (h : OrderCorr x o) : ordering o = x := by
  cases x <;> cases o <;> first | (exact h.elim) | rfl

/-- The instruction made from an operator is the renamed one. -/
theorem instruction_corr {i : Enc.Instr} {op : Operator} (h : Corr i op) :
    instruction m op = some (rename m i) := by
  cases i <;> cases op <;> first | (exact h.elim) | skip
  case plain => obtain rfl := h; rfl
  case else_ => rfl
  case end_ => rfl
  case catchAll => rfl
  case atomicFence => rfl
  case block =>
    obtain ⟨rfl, h⟩ := h
    simp only [instruction, re_block m h]; rfl
  case tryTable =>
    obtain ⟨h1, h2⟩ := h
    simp only [instruction, re_block m h1, re_catch m h2]; rfl
  case idx => obtain ⟨rfl, rfl⟩ := h; simp only [instruction, field_idx]; rfl
  case catch_ => obtain rfl := h; rfl
  case delegate => obtain rfl := h; rfl
  case memorySize => obtain rfl := h; rfl
  case memoryGrow => obtain rfl := h; rfl
  case idx2 =>
    obtain ⟨rfl, rfl, rfl⟩ := h
    simp only [instruction, field_idx2a, field_idx2b]; rfl
  case callIndirect => obtain ⟨rfl, rfl⟩ := h; rfl
  case returnCallIndirect => obtain ⟨rfl, rfl⟩ := h; rfl
  case memoryInit => obtain ⟨rfl, rfl⟩ := h; rfl
  case tableInit => obtain ⟨rfl, rfl⟩ := h; rfl
  case brTable =>
    obtain ⟨h1, rfl, -⟩ := h
    simp only [instruction, targets, h1]; rfl
  case mem => obtain ⟨rfl, h⟩ := h; simp only [instruction, re_mem m h]; rfl
  case memLane => obtain ⟨rfl, h, rfl⟩ := h; simp only [instruction, re_mem m h]; rfl
  case lane => obtain ⟨rfl, rfl⟩ := h; rfl
  case i8x16Shuffle => obtain rfl := h; rfl
  case heap => obtain ⟨rfl, rfl⟩ := h; simp only [instruction, re_heap]; rfl
  case cast =>
    obtain ⟨rfl, rfl, h1, h2⟩ := h
    simp only [instruction, re_ref m h1, re_ref m h2]; rfl
  case atomic =>
    obtain ⟨rfl, h, rfl⟩ := h
    simp only [instruction, re_order h, field_atomic]; rfl
  case atomic2 =>
    obtain ⟨rfl, h, rfl, rfl⟩ := h
    simp only [instruction, re_order h]; rfl
  case i32Const => obtain rfl := h; rfl
  case i64Const => obtain rfl := h; rfl
  case f32Const => obtain rfl := h; rfl
  case f64Const => obtain rfl := h; rfl
  case v128Const =>
    obtain ⟨-, h⟩ := h
    simp only [instruction, v128, h]
    rw [BitVec.ofNat_toNat, BitVec.setWidth_eq]; rfl
  case typedSelect => simp only [instruction, Types.re_val m.type h]; rfl
  case typedSelectMulti =>
    simp only [instruction, Types.mapM_forall₂ (P := Types.ValType.Is) (fun a b => Types.re_val m.type) h]
    rfl
  case resume => obtain ⟨rfl, h⟩ := h; simp only [instruction, re_handle m h]; rfl
  case resumeThrow => obtain ⟨rfl, rfl, h⟩ := h; simp only [instruction, re_handle m h]; rfl
  case resumeThrowRef => obtain ⟨rfl, h⟩ := h; simp only [instruction, re_handle m h]; rfl

/-! ### Renamings -/

theorem into_id (s : Space) : into Maps.id s = id := by cases s <;> rfl

theorem rename_id_ref (t : Types.Enc.RefType) : renameRef Maps.id t = t := by
  obtain ⟨n, h⟩ := t
  cases h <;> rfl

theorem rename_id_heap (h : Types.Enc.HeapType) : h.rename Maps.id.type = h := by cases h <;> rfl

theorem rename_id_block (t : Enc.BlockType) : renameBlock Maps.id t = t := by
  cases t with
  | result t => exact congrArg _ (Types.rename_id_val t)
  | _ => rfl

theorem rename_id_catch (cs : List Enc.Catch) : cs.map (renameCatch Maps.id) = cs := by
  conv => rhs; rw [← List.map_id cs]
  apply List.map_congr_left
  intro c _
  cases c <;> rfl

theorem rename_id_handle (cs : List Enc.Handle) : cs.map (renameHandle Maps.id) = cs := by
  conv => rhs; rw [← List.map_id cs]
  apply List.map_congr_left
  intro c _
  cases c <;> rfl

theorem rename_id_vals (ts : List Types.Enc.ValType) : ts.map (·.rename Maps.id.type) = ts := by
  conv => rhs; rw [← List.map_id ts]
  apply List.map_congr_left
  intro c _
  exact Types.rename_id_val c

theorem rename_id (i : Enc.Instr) : rename Maps.id i = i := by
  cases i <;> first
    | rfl
    | (simp only [rename, rename_id_block, rename_id_catch, rename_id_handle, into_id, id,
        rename_id_heap, rename_id_ref, rename_id_vals]; done)
    | (simp only [rename, rename_id_block, rename_id_catch, rename_id_handle, into_id, id,
        rename_id_heap, rename_id_ref, rename_id_vals]; rfl)
    | exact congrArg _ (Types.rename_id_val _)

theorem corr_right {i j : Enc.Instr} {op : Operator} (h : Corr i op) (h' : Corr j op) : i = j := by
  have e1 := instruction_corr Maps.id h
  rw [instruction_corr Maps.id h'] at e1
  rw [rename_id, rename_id] at e1
  exact (Option.some.inj e1).symm

theorem into_then (m m' : Maps) (s : Space) (i : BitVec 32) :
    into (then_ m m') s i = into m' s (into m s i) := by cases s <;> rfl

theorem rename_then_heap (f g : BitVec 32 → BitVec 32) (h : Types.Enc.HeapType) :
    h.rename (g ∘ f) = (h.rename f).rename g := by cases h <;> rfl

theorem rename_then_val (f g : BitVec 32 → BitVec 32) (t : Types.Enc.ValType) :
    t.rename (g ∘ f) = (t.rename f).rename g := by
  cases t with
  | ref r => simp only [Types.Enc.ValType.rename, rename_then_heap]
  | _ => rfl

theorem rename_then (m m' : Maps) (i : Enc.Instr) :
    rename (then_ m m') i = rename m' (rename m i) := by
  have hb : ∀ t, renameBlock (then_ m m') t = renameBlock m' (renameBlock m t) := by
    intro t
    cases t with
    | result t => exact congrArg Enc.BlockType.result (rename_then_val m.type m'.type t)
    | _ => rfl
  have hc : ∀ cs : List Enc.Catch, cs.map (renameCatch (then_ m m')) =
      (cs.map (renameCatch m)).map (renameCatch m') := by
    intro cs
    rw [List.map_map]
    apply List.map_congr_left
    intro c _
    cases c <;> rfl
  have hh : ∀ cs : List Enc.Handle, cs.map (renameHandle (then_ m m')) =
      (cs.map (renameHandle m)).map (renameHandle m') := by
    intro cs
    rw [List.map_map]
    apply List.map_congr_left
    intro c _
    cases c <;> rfl
  have hv : ∀ cs : List Types.Enc.ValType, cs.map (·.rename (then_ m m').type) =
      (cs.map (·.rename m.type)).map (·.rename m'.type) := by
    intro cs
    rw [List.map_map]
    apply List.map_congr_left
    intro c _
    exact rename_then_val m.type m'.type c
  have hr : ∀ t, renameRef (then_ m m') t = renameRef m' (renameRef m t) := by
    rintro ⟨n, t⟩
    exact congrArg (Types.Enc.RefType.mk n) (rename_then_heap m.type m'.type t)
  cases i <;> first
    | rfl
    | (simp only [rename, hb, hc, hh, hr, into_then]; done)
    | (simp only [rename, hb, hc, hh, hr, into_then]; rfl)
    | exact congrArg Enc.Instr.typedSelect (rename_then_val m.type m'.type _)
    | exact congrArg (Enc.Instr.heap _) (rename_then_heap m.type m'.type _)
    | exact congrArg Enc.Instr.typedSelectMulti (hv _)

/-! ### Limits -/

theorem tok_rename (i : Enc.Instr) : tok (rename m i) = tok i := by
  cases i <;> first
    | rfl
    | (rename_i o _; cases o <;> rfl)

theorem fits_ref {f : Instr.Features} {m : Maps} (hm : MapsFit m f) {t : Types.Enc.RefType}
    (h : t.heapType.denote.Fits) : (renameRef m t).heapType.denote.Fits := by
  obtain ⟨n, t⟩ := t
  cases t with
  | abstract => exact h
  | concrete i => exact hm.type _ h
  | exact i => exact hm.type _ h

theorem fits_val {f : Instr.Features} {m : Maps} (hm : MapsFit m f) {t : Types.Enc.ValType}
    (h : t.Fits) : (t.rename m.type).Fits := by
  cases t with
  | ref r => exact fits_ref hm (t := r) h
  | _ => exact True.intro

theorem fits_block {f : Instr.Features} {m : Maps} (hm : MapsFit m f) {t : Enc.BlockType}
    (h : BlockFits t) : BlockFits (renameBlock m t) := by
  cases t with
  | result t => exact fits_val hm h
  | _ => exact True.intro

theorem fits_mem {f : Instr.Features} {m : Maps} (hm : MapsFit m f) {a : Enc.MemArg}
    (h : MemFits f a) : MemFits f (renameMem m a) := by
  obtain ⟨h1, h2, h3⟩ := h
  refine ⟨h1, ?_, h3⟩
  rcases h2 with h2 | h2
  · exact .inl h2
  · rcases hm.memory with h4 | h4
    · exact .inl h4
    · exact .inr (by simp only [renameMem, h2, h4])

theorem fits_rename {f : Instr.Features} {m : Maps} (hm : MapsFit m f) {i : Enc.Instr}
    (h : Fits f i) : Fits f (rename m i) := by
  cases i <;> first | exact h | skip
  case block => exact ⟨fits_block hm h.1, h.2⟩
  case tryTable => exact ⟨fits_block hm h.1, by rw [List.length_map]; exact h.2⟩
  case memorySize =>
    rcases (show _ ∨ _ from h) with h | rfl
    · exact Or.inl h
    · exact hm.memory
  case memoryGrow =>
    rcases (show _ ∨ _ from h) with h | rfl
    · exact Or.inl h
    · exact hm.memory
  case callIndirect =>
    rcases (show _ ∨ _ from h) with h | rfl
    · exact Or.inl h
    · exact hm.table
  case mem => exact fits_mem hm h
  case memLane => exact fits_mem hm h
  case heap o t =>
    cases t with
    | concrete i => exact hm.type _ h
    | _ => exact True.intro
  case cast => exact ⟨fits_ref hm h.1, fits_ref hm h.2⟩
  case typedSelect => exact fits_val hm h
  case typedSelectMulti =>
    obtain ⟨h1, h2, h3⟩ := h
    refine ⟨by rw [List.length_map]; exact h1, by rw [List.length_map]; exact h2, ?_⟩
    intro e he
    obtain ⟨t, ht, rfl⟩ := List.mem_map.1 he
    exact fits_val hm (h3 t ht)
  case resume => exact Nat.le_trans (Nat.le_of_eq (List.length_map (renameHandle m))) h
  case resumeThrow => exact Nat.le_trans (Nat.le_of_eq (List.length_map (renameHandle m))) h
  case resumeThrowRef => exact Nat.le_trans (Nat.le_of_eq (List.length_map (renameHandle m))) h

theorem encodeVec_some {enc : α → List UInt8} {xs : List α} {n : Nat} (h : xs.length ≤ n)
    (hn : n < 2 ^ 32) : ∃ b, Enc.encodeVec enc xs = some b := by
  unfold Enc.encodeVec Framing.encodeUsize
  rw [if_pos (by omega)]
  exact ⟨_, rfl⟩

/-- Instructions within the limits have an encoding. -/
theorem fits_encode {f : Instr.Features} {i : Enc.Instr} (h : Fits f i) :
    ∃ b, i.encode = some b := by
  cases i <;> first | exact ⟨_, rfl⟩ | skip
  case tryTable =>
    obtain ⟨b, e⟩ := encodeVec_some (enc := Enc.Catch.encode) h.2 (by decide)
    exact ⟨_, by simp only [Enc.Instr.encode, e]; rfl⟩
  case brTable ls l =>
    obtain ⟨b, e⟩ := encodeVec_some (enc := encodeU32) (show ls.length ≤ 7654321 from h) (by decide)
    exact ⟨_, by simp only [Enc.Instr.encode, e]; rfl⟩
  case typedSelectMulti =>
    obtain ⟨b, e⟩ := encodeVec_some (enc := Types.Enc.ValType.encode) h.1 (by decide)
    exact ⟨_, by simp only [Enc.Instr.encode, e]; rfl⟩
  case resume t hs =>
    obtain ⟨b, e⟩ := encodeVec_some (enc := Enc.Handle.encode) (show hs.length ≤ 10000 from h) (by decide)
    exact ⟨_, by simp only [Enc.Instr.encode, e]; rfl⟩
  case resumeThrow _ _ hs =>
    obtain ⟨b, e⟩ := encodeVec_some (enc := Enc.Handle.encode) (show hs.length ≤ 10000 from h) (by decide)
    exact ⟨_, by simp only [Enc.Instr.encode, e]; rfl⟩
  case resumeThrowRef _ hs =>
    obtain ⟨b, e⟩ := encodeVec_some (enc := Enc.Handle.encode) (show hs.length ≤ 10000 from h) (by decide)
    exact ⟨_, by simp only [Enc.Instr.encode, e]; rfl⟩

end Verif.Reenc
