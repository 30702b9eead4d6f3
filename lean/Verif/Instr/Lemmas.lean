import Verif.Instr.Dispatch
import Verif.Framing.Lemmas
/-! The readers of immediates decode what the encoder writes. -/
namespace Verif.Instr
open Verif.Reader Verif.Leb Verif.Framing Verif.Types Spec

/-! ### Bit facts -/

theorem byte_block_iff (b : UInt8) :
    (b &&& 0x80 = 0 ∧ b &&& 0x40 ≠ 0) ↔ 64 ≤ b.toNat ∧ b.toNat < 128 := by
  have : ∀ x : BitVec 8, (UInt8.ofBitVec x &&& 0x80 = 0 ∧ UInt8.ofBitVec x &&& 0x40 ≠ 0) ↔
      64 ≤ x.toNat ∧ x.toNat < 128 := by decide +kernel
  exact this b.toBitVec

theorem and64_small {v : BitVec 32} (h : v.toNat < 64) : v &&& (1#32 <<< 6) = 0 := by
  apply BitVec.eq_of_getLsbD_eq
  intro i hi
  rw [show (1#32 <<< 6) = BitVec.twoPow 32 6 by decide, BitVec.getLsbD_and, BitVec.getLsbD_twoPow]
  by_cases h6 : i = 6
  · subst h6
    have : v.getLsbD 6 = false := Nat.testBit_lt_two_pow h
    rw [this]; rfl
  · simp [Ne.symm h6]

theorem or64_small {v : BitVec 32} (h : v.toNat < 64) : (v ||| 1#32 <<< 6) &&& (1#32 <<< 6) ≠ 0 ∧
    (v ||| 1#32 <<< 6) ^^^ (1#32 <<< 6) = v := by
  have h0 := and64_small h
  constructor
  · intro hc
    have := congrArg (BitVec.getLsbD · 6) hc
    simp [show (1#32 <<< 6) = BitVec.twoPow 32 6 by decide] at this
  · apply BitVec.eq_of_getLsbD_eq
    intro i hi
    have := congrArg (BitVec.getLsbD · i) h0
    rw [show (1#32 <<< 6) = BitVec.twoPow 32 6 by decide] at this ⊢
    simp only [BitVec.getLsbD_and, BitVec.getLsbD_twoPow, BitVec.getLsbD_or, BitVec.getLsbD_xor] at this ⊢
    cases hv : v.getLsbD i <;> cases hd : decide (6 = i) <;> simp_all

/-! ### Sizes, bytes -/

theorem dec_size {n limit : Nat} {desc : String} (h : n ≤ limit) (hl : limit < 2 ^ 32) :
    Dec (readSize limit desc) (encodeU32 (BitVec.ofNat 32 n)) n := by
  refine Dec.readPos fun pos => (Dec.u32 _).bind_nil ?_
  have hn : (BitVec.ofNat 32 n).toNat = n := by
    rw [BitVec.toNat_ofNat, Nat.mod_eq_of_lt (by omega)]
  rw [hn]
  exact .ite_neg (by omega) (.pure _)

theorem encodeVec_eq {α : Type} (enc : α → List UInt8) {xs : List α} (h : xs.length < 2 ^ 32) :
    Enc.encodeVec enc xs = some (encodeU32 (BitVec.ofNat 32 xs.length) ++ xs.flatMap enc) := by
  simp [Enc.encodeVec, encodeUsize_eq h]

theorem encodeVec_some {α : Type} {enc : α → List UInt8} {xs : List α} {b : List UInt8}
    (h : Enc.encodeVec enc xs = some b) : xs.length < 2 ^ 32 ∧
      b = encodeU32 (BitVec.ofNat 32 xs.length) ++ xs.flatMap enc := by
  unfold Enc.encodeVec at h
  cases he : encodeUsize xs.length with
  | none => simp [he] at h
  | some e =>
    obtain ⟨h1, rfl⟩ := encodeUsize_some he
    simp only [he, Option.bind_eq_bind, Option.bind_some, Option.pure_def,
      Option.some.injEq] at h
    refine ⟨by omega, ?_⟩
    unfold encodeU32
    rw [BitVec.toNat_ofNat, Nat.mod_eq_of_lt (by omega)]
    exact h.symm

theorem leBytes_length (n v : Nat) : (Enc.leBytes n v).length = n := by
  induction n generalizing v with
  | zero => rfl
  | succ n ih => simp [Enc.leBytes, ih]

theorem leValue_leBytes (n v : Nat) (h : v < 256 ^ n) : leValue (Enc.leBytes n v) = v := by
  induction n generalizing v with
  | zero => simp only [Nat.pow_zero] at h; simp only [Enc.leBytes, leValue]; omega
  | succ n ih =>
    simp only [Enc.leBytes, leValue]
    rw [ih _ (by rw [Nat.div_lt_iff_lt_mul (by decide)]; rwa [Nat.pow_succ] at h)]
    have : (UInt8.ofNat (v % 256)).toNat = v % 256 := by
      simp
    omega

theorem dec_leBytes (n v : Nat) : Dec (readBytes n) (Enc.leBytes n v) (Enc.leBytes n v) := by
  have := Dec.readBytes (Enc.leBytes n v)
  rwa [leBytes_length] at this

theorem dec_f32 (v : BitVec 32) : Dec readU32 (Enc.leBytes 4 v.toNat) v := by
  refine (dec_leBytes 4 v.toNat).bind_nil ?_
  rw [leValue_leBytes _ _ (by have := v.isLt; omega), BitVec.ofNat_toNat, BitVec.setWidth_eq]
  exact .pure _

theorem dec_f64 (v : BitVec 64) : Dec readU64 (Enc.leBytes 8 v.toNat) v := by
  refine (dec_leBytes 8 v.toNat).bind_nil ?_
  rw [leValue_leBytes _ _ (by have := v.isLt; omega), BitVec.ofNat_toNat, BitVec.setWidth_eq]
  exact .pure _

/-! ### Immediates -/

theorem dec_s33_index (i : BitVec 32) : Dec readVarS33 (encodeI64 (i.setWidth 64)) (i.setWidth 64) :=
  Dec.s33 _ (by rw [u32_toInt]; have := i.isLt; omega)

/-- An index written as `s33` does not start with a byte in `0x40 ..= 0x7F`. -/
theorem index_head (i : BitVec 32) : ∃ b bs, encodeI64 (i.setWidth 64) = b :: bs ∧
    ¬ (64 ≤ b.toNat ∧ b.toNat < 128) := by
  have hd := dec_s33_index i
  cases he : encodeI64 (i.setWidth 64) with
  | nil =>
    rw [he] at hd
    have := hd (Reader.new [] 0) [] rfl
    exact absurd this (by simp [readVarS33, readU8, Reader.new, ensureHasByte, Reader.maxPosition])
  | cons b bs =>
    refine ⟨b, bs, rfl, fun ⟨h1, h2⟩ => ?_⟩
    rw [he] at hd
    have e1 := hd (Reader.new (b :: bs) 0) [] (by simp [Reader.new, Reader.rest])
    obtain ⟨v, r', e2, hv⟩ := s33_neg (r := Reader.new (b :: bs) 0) (b := b) (bs := bs) rfl h1 h2
    rw [e1] at e2
    injection e2 with e2
    rw [← (Prod.mk.inj e2).1, u32_toInt] at hv
    omega

theorem valType_byte (e : Types.Enc.ValType) : ∃ b bs, e.encode = b :: bs ∧ 0x63 ≤ b.toNat ∧
    b.toNat < 128 := by
  cases e with
  | ref rt =>
    obtain ⟨b, bs, h1, h2, h3⟩ := refType_head rt
    exact ⟨b, bs, h1, h2, by omega⟩
  | _ => exact ⟨_, _, rfl, by decide, by decide⟩

theorem decP_blockType (e : Enc.BlockType) (hf : BlockFits e) :
    DecP readBlockType e.encode (BlockCorr e ·) := by
  cases e with
  | empty =>
    refine DecP.peek (DecP.congr (f := do let _ ← readU8; pure BlockType.empty) ?_ (by rfl))
    exact ((Dec.readU8 0x40).map (g := fun _ => BlockType.empty)).toP trivial
  | result t =>
    obtain ⟨b, bs, h1, h2, h3⟩ := valType_byte t
    have hd := decP_valType t hf
    simp only [Enc.BlockType.encode]
    rw [h1] at hd ⊢
    refine DecP.peek ?_
    rw [if_pos ((byte_block_iff b).2 (by omega)), if_neg (by rintro rfl; revert h2; decide)]
    exact hd.fmap fun a ha => ha
  | functionType i =>
    obtain ⟨b, bs, h1, h2⟩ := index_head i
    have hd := dec_s33_index i
    simp only [Enc.BlockType.encode]
    rw [h1] at hd ⊢
    refine DecP.peek ?_
    rw [if_neg (mt (byte_block_iff b).1 h2)]
    refine (hd.toP (P := (· = _)) rfl).bind_nil ?_
    rintro _ rfl
    rw [if_pos (by rw [u32_toInt]; have := i.isLt; omega), u32_setWidth]
    exact .pure rfl

theorem ofBitVec_setWidth_toNat {v : BitVec 32} (h : v.toNat < 256) :
    (UInt8.ofBitVec (v.setWidth 8)).toNat = v.toNat := by
  simp only [UInt8.toNat_ofBitVec, BitVec.toNat_setWidth]
  exact Nat.mod_eq_of_lt h

theorem dec_offset (f : Features) (v : BitVec 64) (h : f.memory64 = true ∨ v.toNat < 2 ^ 32) :
    Dec (if f.memory64 then readVarU64 else (·.setWidth 64) <$> readVarU32 : R (BitVec 64))
      (encodeU64 v) v := by
  by_cases hm : f.memory64
  · rw [if_pos hm]; exact .u64 v
  · rw [if_neg hm]
    have hv := h.resolve_left hm
    have he : encodeU64 v = encodeU32 (v.setWidth 32) := by
      unfold encodeU64 encodeU32
      rw [BitVec.toNat_setWidth, Nat.mod_eq_of_lt hv]
    rw [he]
    have := (Dec.u32 (v.setWidth 32)).fmap (g := (·.setWidth 64 : BitVec 32 → BitVec 64))
    have e : (v.setWidth 32).setWidth 64 = v := by
      apply BitVec.eq_of_toNat_eq
      simp only [BitVec.toNat_setWidth]
      omega
    rwa [e] at this

theorem shl_toNat : (1#32 <<< 6).toNat = 64 ∧ (1#32 <<< 5).toNat = 32 := by decide

theorem decP_memarg (f : Features) (a : UInt8) (m : Enc.MemArg) (hf : MemFits f m) (bits : Nat)
    (hb : 8 * 2 ^ a.toNat = bits) : DecP (readMemarg f a) m.encode (MemCorr bits m ·) := by
  obtain ⟨h1, h2, h3⟩ := hf
  have hoff := dec_offset f m.offset h3
  have hal : m.align.toNat < 64 := by split at h1 <;> omega
  have hlt : ¬ m.align ≥ 1#32 <<< (if f.multiMemory then 6 else 5) := by
    intro hc
    have hc : (1#32 <<< (if f.multiMemory then 6 else 5)).toNat ≤ m.align.toNat := hc
    cases hmm : f.multiMemory <;> simp only [hmm] at hc h1 <;>
      simp only [Bool.false_eq_true, if_false, if_true] at hc h1 <;> have := shl_toNat <;> omega
  have hite : ∀ g : BitVec 64 → R MemArg, (if f.memory64 = true then readVarU64 >>= g
      else ((·.setWidth 64) <$> readVarU32) >>= g) =
      (if f.memory64 then readVarU64 else (·.setWidth 64) <$> readVarU32) >>= g := by
    intro g; split <;> rfl
  have hcorr : ∀ mem, mem = m.memoryIndex → MemCorr bits m
      ⟨UInt8.ofBitVec (m.align.setWidth 8), a, m.offset, mem⟩ := fun mem hm =>
    ⟨ofBitVec_setWidth_toNat (by omega), rfl, hm, hb⟩
  unfold readMemarg Enc.MemArg.encode
  refine DecP.readPos fun pos => ?_
  by_cases hm : m.memoryIndex = 0
  · rw [if_pos hm]
    refine (Dec.u32 _).bindP ?_
    have e : (f.multiMemory && m.align &&& 1#32 <<< 6 != 0) = false := by
      rw [and64_small hal]; simp
    simp only [e, Bool.false_eq_true, if_false]
    refine Dec.bindP (b1 := []) (Dec.pure 0#32) ?_
    rw [if_neg hlt]
    refine DecP.congr ?_ (hite _)
    refine (hoff.toP (P := (· = _)) rfl).bind_nil ?_
    rintro _ rfl
    exact .pure (hcorr _ hm.symm)
  · rw [if_neg hm, List.append_assoc]
    have hmm : f.multiMemory = true := h2.resolve_right hm
    refine (Dec.u32 _).bindP ?_
    obtain ⟨ho1, ho2⟩ := or64_small hal
    have e : (f.multiMemory && (m.align ||| 1#32 <<< 6) &&& 1#32 <<< 6 != 0) = true := by
      simpa [hmm] using ho1
    simp only [e, if_true, ho2]
    refine (Dec.u32 _).bindP ?_
    rw [if_neg hlt]
    refine DecP.congr ?_ (hite _)
    refine (hoff.toP (P := (· = _)) rfl).bind_nil ?_
    rintro _ rfl
    exact .pure (hcorr _ rfl)

theorem decP_ordering (o : Enc.Ordering) : DecP readOrdering o.encode (OrderCorr o ·) := by
  cases o with
  | seqCst =>
    have : Dec readVarU32 [0] 0 := (encodeU32_small (v := 0) (by decide)) ▸ Dec.u32 0#32
    exact (this.bind_nil (c := Ordering.seqCst) (.ite_pos rfl (.pure _))).toP trivial
  | acqRel =>
    have : Dec readVarU32 [1] 1 := (encodeU32_small (v := 1) (by decide)) ▸ Dec.u32 1#32
    exact (this.bind_nil (c := Ordering.acqRel)
      (.ite_neg (by decide) (.ite_pos rfl (.pure _)))).toP trivial

theorem targetsFrom_eq (ls : List (BitVec 32)) : ∀ r : Reader, r.rest = ls.flatMap encodeU32 →
    targetsFrom r ls.length = .ok ls := by
  induction ls with
  | nil =>
    intro r hr
    have : r.eof = true := by
      have h := congrArg List.length hr
      simp only [Reader.rest, List.flatMap_nil, List.length_nil, List.length_drop] at h
      simp [Reader.eof, Reader.maxPosition]; omega
    simp [targetsFrom, this]
  | cons l ls ih =>
    intro r hr
    rw [List.flatMap_cons] at hr
    have h1 := Dec.u32 l r _ hr
    simp only [List.length_cons, targetsFrom, h1]
    rw [ih _ (by simp [hr])]
    rfl

theorem decP_brTable (ls : List (BitVec 32)) (l : BitVec 32) (h : ls.length ≤ 7654321) :
    DecP readBrTable ((encodeU32 (BitVec.ofNat 32 ls.length) ++ ls.flatMap encodeU32) ++ encodeU32 l)
      (fun t => t.targets = .ok ls ∧ t.default = l ∧ t.cnt = ls.length) := by
  rw [List.append_assoc]
  refine (dec_size h (by decide)).bindP ?_
  have hm : Dec (do let _ ← readMany readVarU32 ls.length : R Unit) (ls.flatMap encodeU32) () :=
    (Dec.many fun x _ => Dec.u32 x).map (g := fun _ => ())
  have hs : DecP (skip (do let _ ← readMany readVarU32 ls.length)) (ls.flatMap encodeU32)
      (fun r => r.rest = ls.flatMap encodeU32) := by
    intro r tail hr
    exact ⟨_, hm.skip r tail hr, rfl⟩
  refine hs.bind fun rd hrd => ?_
  refine ((Dec.u32 l).toP (P := (· = l)) rfl).bind_nil ?_
  rintro _ rfl
  exact .pure ⟨targetsFrom_eq ls rd hrd, rfl, rfl⟩

theorem dec_memoryIndex (f : Features) (i : BitVec 32) (h : f.multiMemory = true ∨ i = 0) :
    Dec (readMemoryIndexOrZero f) (encodeU32 i) i := by
  unfold readMemoryIndexOrZero
  by_cases hm : f.multiMemory
  · rw [if_pos hm]; exact .u32 i
  · rw [if_neg hm, h.resolve_left hm, show encodeU32 0 = [0] from encodeU32_small (v := 0) (by decide)]
    refine (Dec.readU8 0).bind_nil ?_
    exact .ite_pos rfl (.pure _)

theorem dec_callIndirectTable (f : Features) (i : BitVec 32)
    (h : f.callIndirectOverlong = true ∨ i = 0) :
    Dec (readCallIndirectTable f) (encodeU32 i) i := by
  unfold readCallIndirectTable
  by_cases hm : f.callIndirectOverlong
  · rw [if_pos hm]; exact .u32 i
  · rw [if_neg hm, h.resolve_left hm, show encodeU32 0 = [0] from encodeU32_small (v := 0) (by decide)]
    refine (Dec.readU8 0).bind_nil ?_
    exact .ite_pos rfl (.pure _)

theorem dec_read2 (g : BitVec 32 → BitVec 32 → Operator) (i j : BitVec 32) :
    Dec (read2 g) (encodeU32 i ++ encodeU32 j) (g i j) :=
  (Dec.u32 i).bind (Dec.u32 j).map

theorem castFlags_encode (a b : Types.Enc.RefType) :
    castFlags (Enc.castFlags a b) = some (a.nullable, b.nullable) := by
  have : ∀ x y : Bool, castFlags ((if x then (1 : UInt8) else 0) |||
      ((if y then (1 : UInt8) else 0) <<< 1)) = some (x, y) := by decide
  exact this _ _

theorem decP_cast (g : BitVec 32 → RefType → RefType → Operator) (d : BitVec 32)
    (a b : Types.Enc.RefType) (ha : a.heapType.denote.Fits) (hb : b.heapType.denote.Fits) :
    DecP (readCast g) (Enc.encodeCast d a b)
      (fun op => ∃ a' b', RefCorr a a' ∧ RefCorr b b' ∧ op = g d a' b') := by
  obtain ⟨ra, hra, -⟩ := (new_spec a.nullable a.heapType.denote).1 ha
  obtain ⟨rb, hrb, -⟩ := (new_spec b.nullable b.heapType.denote).1 hb
  unfold readCast Enc.encodeCast
  rw [List.append_assoc, List.append_assoc]
  refine DecP.readPos fun pos => (Dec.readU8 _).bindP ((Dec.u32 d).bindP ?_)
  rw [castFlags_encode]
  dsimp only
  refine (dec_heapType _ (denote_fits_concrete ha)).bindP ?_
  rw [hra]
  refine ((dec_heapType _ (denote_fits_concrete hb)).toP (P := (· = _)) rfl).bind_nil ?_
  rintro _ rfl
  rw [hrb]
  exact .pure ⟨ra, rb, hra, hrb, rfl⟩

theorem decP_atomic (g : Ordering → BitVec 32 → Operator) (o : Enc.Ordering) (i : BitVec 32) :
    DecP (readAtomic g) (o.encode ++ encodeU32 i) (fun op => ∃ o', OrderCorr o o' ∧ op = g o' i) :=
  (decP_ordering o).bind fun o' ho => ((Dec.u32 i).map (g := g o')).toP ⟨o', ho, rfl⟩

theorem decP_atomic2 (g : Ordering → BitVec 32 → BitVec 32 → Operator) (o : Enc.Ordering)
    (i j : BitVec 32) : DecP (readAtomic2 g) (o.encode ++ encodeU32 i ++ encodeU32 j)
      (fun op => ∃ o', OrderCorr o o' ∧ op = g o' i j) := by
  rw [List.append_assoc]
  exact (decP_ordering o).bind fun o' ho =>
    ((Dec.u32 i).bind (Dec.u32 j).map).toP ⟨o', ho, rfl⟩

theorem decP_catch (c : Enc.Catch) : DecP readCatch c.encode (CatchCorr c ·) := by
  cases c with
  | one t l =>
    exact Dec.bindP (b1 := [0]) (Dec.readU8 0) (DecP.congr
      (((Dec.u32 t).bind ((Dec.u32 l).map (g := Catch.one t))).toP (a := Catch.one t l)
        (P := fun x => CatchCorr (.one t l) x) ⟨rfl, rfl⟩) (by rfl))
  | oneRef t l =>
    exact Dec.bindP (b1 := [1]) (Dec.readU8 1) (DecP.congr
      (((Dec.u32 t).bind ((Dec.u32 l).map (g := Catch.oneRef t))).toP (a := Catch.oneRef t l)
        (P := fun x => CatchCorr (.oneRef t l) x) ⟨rfl, rfl⟩) (by rfl))
  | all l =>
    exact Dec.bindP (b1 := [2]) (Dec.readU8 2) (DecP.congr
      (((Dec.u32 l).fmap (g := Catch.all)).toP (P := fun x => CatchCorr (.all l) x) rfl) (by rfl))
  | allRef l =>
    exact Dec.bindP (b1 := [3]) (Dec.readU8 3) (DecP.congr
      (((Dec.u32 l).fmap (g := Catch.allRef)).toP (P := fun x => CatchCorr (.allRef l) x) rfl) (by rfl))

theorem decP_handle (c : Enc.Handle) : DecP readHandle c.encode (HandleCorr c ·) := by
  cases c with
  | onLabel t l =>
    exact Dec.bindP (b1 := [0]) (Dec.readU8 0) (DecP.congr
      (((Dec.u32 t).bind ((Dec.u32 l).map (g := Handle.onLabel t))).toP (a := Handle.onLabel t l)
        (P := fun x => HandleCorr (.onLabel t l) x) ⟨rfl, rfl⟩) (by rfl))
  | onSwitch t =>
    exact Dec.bindP (b1 := [1]) (Dec.readU8 1) (DecP.congr
      (((Dec.u32 t).fmap (g := Handle.onSwitch)).toP (P := fun x => HandleCorr (.onSwitch t) x) rfl) (by rfl))

theorem forall₂_flip {α β : Type} {P : α → β → Prop} {xs : List α} {ys : List β}
    (h : List.Forall₂ (fun a b => P b a) ys xs) : List.Forall₂ P xs ys := by
  induction h with
  | nil => exact .nil
  | cons h _ ih => exact .cons h ih

theorem decP_resumeTable (hs : List Enc.Handle) (h : hs.length ≤ 10000) :
    DecP readResumeTable (encodeU32 (BitVec.ofNat 32 hs.length) ++ hs.flatMap Enc.Handle.encode)
      (List.Forall₂ HandleCorr hs ·) :=
  (DecP.iter (P := fun a b => HandleCorr b a) h (by decide) fun x _ => decP_handle x).mono
    fun _ h => forall₂_flip h

theorem decP_tryTable (t : Enc.BlockType) (cs : List Enc.Catch) (ht : BlockFits t)
    (h : cs.length ≤ 10000) : DecP readTryTable
      (t.encode ++ (encodeU32 (BitVec.ofNat 32 cs.length) ++ cs.flatMap Enc.Catch.encode))
      (Corr (.tryTable t cs) ·) := by
  refine (decP_blockType t ht).bind fun t' ht' => ?_
  refine (DecP.iter (P := fun a b => CatchCorr b a) h (by decide) fun x _ =>
    decP_catch x).bind_nil fun cs' hcs => ?_
  exact .pure ⟨ht', forall₂_flip hcs⟩

theorem decP_typedSelect (t : Types.Enc.ValType) (h : t.Fits) :
    DecP readTypedSelect (encodeU32 (BitVec.ofNat 32 1) ++ t.encode) (Corr (.typedSelect t) ·) := by
  refine (dec_size (by decide) (by decide)).bindP ?_
  rw [if_pos rfl]
  exact (decP_valType t h).fmap fun _ ha => ha

theorem decP_typedSelectMulti (ts : List Types.Enc.ValType) (h1 : ts.length ≤ 10)
    (h2 : ts.length ≠ 1) (h : ∀ t ∈ ts, t.Fits) :
    DecP readTypedSelect (encodeU32 (BitVec.ofNat 32 ts.length) ++ ts.flatMap (·.encode))
      (Corr (.typedSelectMulti ts) ·) := by
  refine (dec_size h1 (by decide)).bindP ?_
  rw [if_neg h2]
  exact (DecP.many (P := ValType.Is) fun x hx => decP_valType x (h x hx)).fmap fun _ ha => ha

theorem decP_expectCatch {k : FrameKind} (found : String) (hk : k = .legacyTry ∨ k = .legacyCatch) :
    Dec (expectCatchFrame k found) [] () := by
  intro r tail _
  rcases hk with rfl | rfl <;> rfl

end Verif.Instr
