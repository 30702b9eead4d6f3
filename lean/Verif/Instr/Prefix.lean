import Verif.Instr.Roundtrip
/-! No encoding is a proper prefix of another one. -/
namespace Verif.Instr
open Verif.Reader Verif.Leb Verif.Framing Verif.Types Spec Enc

/-- Whatever follows, the value can be told from the bytes. -/
def PF {α : Type} (ok : α → Prop) (enc : α → List UInt8) : Prop :=
  ∀ a b s t, ok a → ok b → enc a ++ s = enc b ++ t → a = b ∧ s = t

theorem PF.of_dec {α : Type} {ok : α → Prop} {enc : α → List UInt8} {f : R α}
    (h : ∀ a, ok a → Dec f (enc a) a) : PF ok enc := fun a b _ _ ha hb he =>
  let ⟨_, h1, h2⟩ := (h a ha).unique (h b hb) he
  ⟨h1, h2⟩

theorem pf_u32 : PF (fun _ => True) encodeU32 := .of_dec fun a _ => Dec.u32 a
theorem pf_u64 : PF (fun _ => True) encodeU64 := .of_dec fun a _ => Dec.u64 a
theorem pf_i32 : PF (fun _ => True) encodeI32 := .of_dec fun a _ => Dec.i32 a
theorem pf_i64 : PF (fun _ => True) encodeI64 := .of_dec fun a _ => Dec.i64 a
theorem pf_f32 : PF (fun _ => True) (fun v : BitVec 32 => leBytes 4 v.toNat) :=
  .of_dec fun a _ => dec_f32 a
theorem pf_f64 : PF (fun _ => True) (fun v : BitVec 64 => leBytes 8 v.toNat) :=
  .of_dec fun a _ => dec_f64 a

theorem pf_v128 : PF (fun _ => True) (fun v : BitVec 128 => leBytes 16 v.toNat) := by
  intro a b s t _ _ he
  obtain ⟨h1, h2⟩ := List.append_inj he (by simp [leBytes_length])
  refine ⟨BitVec.eq_of_toNat_eq ?_, h2⟩
  have := congrArg leValue h1
  rwa [leValue_leBytes _ _ (by have := a.isLt; omega), leValue_leBytes _ _ (by have := b.isLt; omega)]
    at this

theorem pf_many {α : Type} {ok : α → Prop} {enc : α → List UInt8} (h : PF ok enc) :
    ∀ (xs ys : List α) s t, (∀ x ∈ xs, ok x) → (∀ x ∈ ys, ok x) → xs.length = ys.length →
      xs.flatMap enc ++ s = ys.flatMap enc ++ t → xs = ys ∧ s = t
  | [], [], _, _, _, _, _, he => ⟨rfl, by simpa using he⟩
  | x :: xs, y :: ys, s, t, hx, hy, hl, he => by
    simp only [List.flatMap_cons, List.append_assoc] at he
    obtain ⟨rfl, he1⟩ := h x y _ _ (hx x (List.mem_cons_self ..)) (hy y (List.mem_cons_self ..)) he
    obtain ⟨rfl, he2⟩ := pf_many h xs ys s t (fun z hz => hx z (List.mem_cons_of_mem _ hz))
      (fun z hz => hy z (List.mem_cons_of_mem _ hz)) (by simpa using hl) he1
    exact ⟨rfl, he2⟩
  | [], _ :: _, _, _, _, _, hl, _ => by simp at hl
  | _ :: _, [], _, _, _, _, hl, _ => by simp at hl

theorem pf_vec {α : Type} {ok : α → Prop} {enc : α → List UInt8} (h : PF ok enc)
    {xs ys : List α} {b c s t : List UInt8} (hx : ∀ x ∈ xs, ok x) (hy : ∀ x ∈ ys, ok x)
    (hb : encodeVec enc xs = some b) (hc : encodeVec enc ys = some c) (he : b ++ s = c ++ t) :
    xs = ys ∧ s = t := by
  obtain ⟨l1, rfl⟩ := encodeVec_some hb
  obtain ⟨l2, rfl⟩ := encodeVec_some hc
  rw [List.append_assoc, List.append_assoc] at he
  obtain ⟨h1, h2⟩ := pf_u32 _ _ _ _ trivial trivial he
  have := congrArg BitVec.toNat h1
  simp only [BitVec.toNat_ofNat, Nat.mod_eq_of_lt l1, Nat.mod_eq_of_lt l2] at this
  exact pf_many h xs ys s t hx hy this h2

/-! ### Types -/

theorem pf_index : PF (fun _ => True) (fun i : BitVec 32 => encodeI64 (i.setWidth 64)) := by
  intro a b s t _ _ he
  obtain ⟨-, h1, h2⟩ := (dec_s33_index a).unique (dec_s33_index b) he
  refine ⟨?_, h2⟩
  rw [← u32_setWidth a, h1, u32_setWidth]

/-- The heap types other than concrete ones start with a byte of `0x62 ..= 0x75`. -/
theorem heap_head (h : Types.Enc.HeapType) (hc : ∀ i, h ≠ .concrete i) :
    ∃ b bs, h.encode = b :: bs ∧ 0x62 ≤ b.toNat ∧ b.toNat ≤ 0x75 := by
  cases h with
  | abstract s t =>
    obtain ⟨b, h1, -, h3, h4⟩ := absHeapOfByte_encode t
    cases s
    · exact ⟨b, [], by simp [Types.Enc.HeapType.encode, h1], by omega, h4⟩
    · exact ⟨0x65, [b], by simp [Types.Enc.HeapType.encode, h1], by decide, by decide⟩
  | concrete i => exact absurd rfl (hc i)
  | exact i => exact ⟨0x62, _, rfl, by decide, by decide⟩

theorem concrete_vs {i : BitVec 32} {h : Types.Enc.HeapType} {s t : List UInt8}
    (hc : ∀ i, h ≠ .concrete i) (he : encodeI64 (i.setWidth 64) ++ s = h.encode ++ t) : False := by
  obtain ⟨b, bs, h1, h2⟩ := index_head i
  obtain ⟨c, cs, h3, h4⟩ := heap_head h hc
  rw [h1, h3] at he
  have := (List.cons.inj he).1
  subst this
  omega

theorem pf_heap : PF (fun _ => True) Types.Enc.HeapType.encode := by
  intro a b s t _ _ he
  by_cases ha : ∃ i, a = .concrete i
  · obtain ⟨i, rfl⟩ := ha
    by_cases hb : ∃ j, b = .concrete j
    · obtain ⟨j, rfl⟩ := hb
      obtain ⟨h1, h2⟩ := pf_index i j s t trivial trivial he
      exact ⟨by rw [h1], h2⟩
    · exact (concrete_vs (fun i hi => hb ⟨i, hi⟩) he).elim
  · by_cases hb : ∃ j, b = .concrete j
    · obtain ⟨j, rfl⟩ := hb
      exact (concrete_vs (fun i hi => ha ⟨i, hi⟩) he.symm).elim
    · have fit : ∀ h : Types.Enc.HeapType, (¬ ∃ i, h = .concrete i) → h.ConcreteFits := by
        intro h hn
        cases h with
        | concrete i => exact absurd ⟨i, rfl⟩ hn
        | _ => trivial
      obtain ⟨-, h1, h2⟩ := (dec_heapType a (fit a ha)).unique (dec_heapType b (fit b hb)) he
      refine ⟨?_, h2⟩
      cases a <;> cases b <;> simp_all [Types.Enc.HeapType.denote]

/-- The short form is used for nullable abstract types only. -/
theorem refType_cases (r : Types.Enc.RefType) :
    (r.nullable = true ∧ (∃ s t, r.heapType = .abstract s t) ∧ r.encode = r.heapType.encode) ∨
    (¬ (r.nullable = true ∧ ∃ s t, r.heapType = .abstract s t)) ∧
      r.encode = (if r.nullable then 0x63 else 0x64) :: r.heapType.encode := by
  obtain ⟨n, h⟩ := r
  cases n <;> cases h <;> simp [Types.Enc.RefType.encode]

theorem abs_head (s : Bool) (t : AbsHeap) : ∃ b bs,
    Types.Enc.HeapType.encode (.abstract s t) = b :: bs ∧ 0x65 ≤ b.toNat := by
  obtain ⟨b, h1, -, h3, h4⟩ := absHeapOfByte_encode t
  cases s
  · exact ⟨b, [], by simp [Types.Enc.HeapType.encode, h1], by omega⟩
  · exact ⟨0x65, [b], by simp [Types.Enc.HeapType.encode, h1], by decide⟩

theorem refType_short_long {a b : Types.Enc.RefType} {s t : List UInt8} {x : UInt8}
    (hx : x.toNat ≤ 0x64) (ha : ∃ s t, a.heapType = .abstract s t)
    (he : a.heapType.encode ++ s = (x :: b.heapType.encode) ++ t) : False := by
  obtain ⟨s', t', h⟩ := ha
  obtain ⟨c, cs, h1, h2⟩ := abs_head s' t'
  rw [h, h1] at he
  have := (List.cons.inj he).1
  subst this
  omega

theorem pf_refType : PF (fun _ => True) Types.Enc.RefType.encode := by
  intro a b s t _ _ he
  have hx : ∀ n : Bool, ((if n then 0x63 else 0x64 : UInt8)).toNat ≤ 0x64 := by decide
  rcases refType_cases a with ⟨na, ha, ea⟩ | ⟨na, ea⟩ <;>
    rcases refType_cases b with ⟨nb, hb, eb⟩ | ⟨nb, eb⟩ <;> rw [ea, eb] at he
  · obtain ⟨h1, h2⟩ := pf_heap _ _ _ _ trivial trivial he
    refine ⟨?_, h2⟩
    cases a; cases b; simp_all
  · exact (refType_short_long (b := b) (hx _) ha he).elim
  · exact (refType_short_long (b := a) (hx _) hb he.symm).elim
  · obtain ⟨h0, he1⟩ := List.cons.inj he
    obtain ⟨h1, h2⟩ := pf_heap _ _ _ _ trivial trivial he1
    refine ⟨?_, h2⟩
    have hn : a.nullable = b.nullable := by
      have : ∀ x y : Bool, (if x then 0x63 else 0x64 : UInt8) = (if y then 0x63 else 0x64) → x = y := by
        decide
      exact this _ _ h0
    cases a; cases b; simp_all

theorem pf_valType : PF (fun _ => True) Types.Enc.ValType.encode := by
  intro a b s t _ _ he
  have hr : ∀ (r : Types.Enc.RefType) (c : UInt8) (s t : List UInt8), 0x75 < c.toNat →
      r.encode ++ s = c :: t → False := by
    intro r c s t hc he
    obtain ⟨b, bs, h1, -, h3⟩ := refType_head r
    rw [h1] at he
    have := (List.cons.inj he).1
    subst this
    omega
  cases a <;> cases b <;> simp only [Types.Enc.ValType.encode] at he <;>
    first
    | exact ⟨rfl, (List.cons.inj he).2⟩
    | (exfalso; have := (List.cons.inj he).1; revert this; decide)
    | exact (hr _ _ _ _ (by decide) he).elim
    | exact (hr _ _ _ _ (by decide) he.symm).elim
    | (obtain ⟨h1, h2⟩ := pf_refType _ _ _ _ trivial trivial he; exact ⟨by rw [h1], h2⟩)

/-! ### Immediates -/

theorem pf_blockType : PF (fun _ => True) Enc.BlockType.encode := by
  intro a b s t _ _ he
  have key : ∀ (i : BitVec 32) (c : UInt8) (s t : List UInt8), 64 ≤ c.toNat → c.toNat < 128 →
      encodeI64 (i.setWidth 64) ++ s = c :: t → False := by
    intro i c s t h1 h2 he
    obtain ⟨b, bs, h3, h4⟩ := index_head i
    rw [h3] at he
    have := (List.cons.inj he).1
    subst this
    omega
  have kv : ∀ (v : Types.Enc.ValType) (s t : List UInt8), v.encode ++ s = 0x40 :: t → False := by
    intro v s t he
    obtain ⟨b, bs, h3, h4, -⟩ := valType_byte v
    rw [h3] at he
    have := (List.cons.inj he).1
    subst this
    revert h4; decide
  have kiv : ∀ (i : BitVec 32) (v : Types.Enc.ValType) (s t : List UInt8),
      encodeI64 (i.setWidth 64) ++ s = v.encode ++ t → False := by
    intro i v s t he
    obtain ⟨b, bs, h3, h4, h5⟩ := valType_byte v
    rw [h3] at he
    exact key i b _ _ (by omega) h5 he
  cases a <;> cases b <;> simp only [Enc.BlockType.encode] at he
  · exact ⟨rfl, (List.cons.inj he).2⟩
  · exact (kv _ _ _ he.symm).elim
  · exact (key _ _ _ _ (by decide) (by decide) he.symm).elim
  · exact (kv _ _ _ he).elim
  · obtain ⟨h1, h2⟩ := pf_valType _ _ _ _ trivial trivial he; exact ⟨by rw [h1], h2⟩
  · exact (kiv _ _ _ _ he.symm).elim
  · exact (key _ _ _ _ (by decide) (by decide) he).elim
  · exact (kiv _ _ _ _ he).elim
  · obtain ⟨h1, h2⟩ := pf_index _ _ _ _ trivial trivial he; exact ⟨by rw [h1], h2⟩

theorem or_bit6 {v w : BitVec 32} (hv : v.getLsbD 6 = false) :
    (v ||| 1#32 <<< 6) ≠ w ∨ w.getLsbD 6 = true := by
  by_cases h : (v ||| 1#32 <<< 6) = w
  · right
    rw [← h, show (1#32 <<< 6) = BitVec.twoPow 32 6 by decide]
    simp
  · exact .inl h

theorem or_bit6_inj {v w : BitVec 32} (hv : v.getLsbD 6 = false) (hw : w.getLsbD 6 = false)
    (h : (v ||| 1#32 <<< 6) = (w ||| 1#32 <<< 6)) : v = w := by
  apply BitVec.eq_of_getLsbD_eq
  intro i hi
  by_cases h6 : i = 6
  · subst h6; rw [hv, hw]
  · have := congrArg (BitVec.getLsbD · i) h
    rw [show (1#32 <<< 6) = BitVec.twoPow 32 6 by decide] at this
    simpa [BitVec.getLsbD_or, BitVec.getLsbD_twoPow, Ne.symm h6, hi, h6] using this

theorem pf_memArg : PF (fun m : Enc.MemArg => m.align.getLsbD 6 = false) Enc.MemArg.encode := by
  intro a b s t ha hb he
  obtain ⟨oa, aa, ma⟩ := a
  obtain ⟨ob, ab, mb⟩ := b
  simp only [Enc.MemArg.encode] at he ha hb
  split at he <;> split at he
  · next h1 h2 =>
    subst h1 h2
    simp only [List.append_assoc] at he
    obtain ⟨rfl, he1⟩ := pf_u32 _ _ _ _ trivial trivial he
    obtain ⟨rfl, he2⟩ := pf_u64 _ _ _ _ trivial trivial he1
    exact ⟨rfl, he2⟩
  · simp only [List.append_assoc] at he
    obtain ⟨h3, he1⟩ := pf_u32 _ _ _ _ trivial trivial he
    rcases or_bit6 (w := aa) hb with h | h
    · exact absurd h3.symm h
    · rw [ha] at h; cases h
  · simp only [List.append_assoc] at he
    obtain ⟨h3, he1⟩ := pf_u32 _ _ _ _ trivial trivial he
    rcases or_bit6 (w := ab) ha with h | h
    · exact absurd h3 h
    · rw [hb] at h; cases h
  · simp only [List.append_assoc] at he
    obtain ⟨h3, he1⟩ := pf_u32 _ _ _ _ trivial trivial he
    obtain ⟨rfl, he2⟩ := pf_u32 _ _ _ _ trivial trivial he1
    obtain ⟨rfl, he3⟩ := pf_u64 _ _ _ _ trivial trivial he2
    obtain rfl := or_bit6_inj ha hb h3
    exact ⟨rfl, he3⟩

theorem pf_ordering : PF (fun _ => True) Enc.Ordering.encode := by
  intro a b s t _ _ he
  cases a <;> cases b <;> simp_all [Enc.Ordering.encode]

theorem pf_catch : PF (fun _ => True) Enc.Catch.encode := by
  intro a b s t _ _ he
  cases a <;> cases b <;> simp only [Enc.Catch.encode] at he <;>
    first
    | (exfalso; have := (List.cons.inj he).1; revert this; decide)
    | (have he1 := (List.cons.inj he).2
       simp only [List.append_eq, List.append_assoc] at he1
       obtain ⟨rfl, he2⟩ := pf_u32 _ _ _ _ trivial trivial he1
       first
       | exact ⟨rfl, he2⟩
       | (obtain ⟨rfl, he3⟩ := pf_u32 _ _ _ _ trivial trivial he2; exact ⟨rfl, he3⟩))

theorem pf_handle : PF (fun _ => True) Enc.Handle.encode := by
  intro a b s t _ _ he
  cases a <;> cases b <;> simp only [Enc.Handle.encode] at he <;>
    first
    | (exfalso; have := (List.cons.inj he).1; revert this; decide)
    | (have he1 := (List.cons.inj he).2
       simp only [List.append_eq, List.append_assoc] at he1
       obtain ⟨rfl, he2⟩ := pf_u32 _ _ _ _ trivial trivial he1
       first
       | exact ⟨rfl, he2⟩
       | (obtain ⟨rfl, he3⟩ := pf_u32 _ _ _ _ trivial trivial he2; exact ⟨rfl, he3⟩))

theorem castFlags_inj {a b a' b' : Types.Enc.RefType}
    (h : Enc.castFlags a b = Enc.castFlags a' b') :
    a.nullable = a'.nullable ∧ b.nullable = b'.nullable := by
  have h1 := castFlags_encode a b
  rw [h, castFlags_encode] at h1
  simp only [Option.some.injEq, Prod.mk.injEq] at h1
  exact ⟨h1.1.symm, h1.2.symm⟩

theorem pf_cast : PF (fun _ => True)
    (fun x : BitVec 32 × Types.Enc.RefType × Types.Enc.RefType => encodeCast x.1 x.2.1 x.2.2) := by
  rintro ⟨d, a, b⟩ ⟨d', a', b'⟩ s t _ _ he
  simp only [encodeCast, List.append_assoc, List.singleton_append] at he
  obtain ⟨h0, he1⟩ := List.cons.inj he
  obtain ⟨rfl, he2⟩ := pf_u32 _ _ _ _ trivial trivial he1
  obtain ⟨h1, he3⟩ := pf_heap _ _ _ _ trivial trivial he2
  obtain ⟨h2, he4⟩ := pf_heap _ _ _ _ trivial trivial he3
  obtain ⟨h3, h4⟩ := castFlags_inj h0
  refine ⟨?_, he4⟩
  cases a; cases b; cases a'; cases b'
  simp_all

end Verif.Instr
