import Verif.Framing.Spec
import Verif.Codec.Dec
import Verif.Parser.CountLemmas
/-! Lemmas for the section framing round trip. -/
namespace Verif.Framing
open Verif.Leb Verif.Reader Verif.Parser

/-! ## What the encoder writes -/

def bodyBytes (b : List UInt8) : List UInt8 := encodeU b.length ++ b

/-- The contents of a section. -/
def content : Sect → List UInt8
  | .items _ count bytes => encodeU32 count ++ bytes
  | .code bodies => encodeU32 (BitVec.ofNat 32 bodies.length) ++ bodies.flatMap bodyBytes
  | .start f => encodeU32 f
  | .dataCount c => encodeU32 c
  | .custom name data => encodeU name.length ++ name ++ data
  | .raw _ data => data

def sectBytes (s : Sect) : List UInt8 :=
  s.id :: encodeU (content s).length ++ content s

theorem encodeU_pos (n : Nat) : 0 < (encodeU n).length := by
  rw [encodeU]; split <;> simp

theorem encodeU32_ofNat {n : Nat} (h : n < 2 ^ 32) : encodeU32 (BitVec.ofNat 32 n) = encodeU n := by
  unfold encodeU32
  rw [BitVec.toNat_ofNat, Nat.mod_eq_of_lt h]

theorem encodeUsize_some {n : Nat} {e : List UInt8} (h : encodeUsize n = some e) :
    n < 2 ^ 32 ∧ e = encodeU n := by
  unfold encodeUsize at h
  split at h
  · have hn : n < 2 ^ 32 := by omega
    cases h
    exact ⟨hn, encodeU32_ofNat hn⟩
  · cases h

theorem encodeSlice_some {b e : List UInt8} (h : encodeSlice b = some e) :
    b.length < 2 ^ 32 ∧ e = bodyBytes b := by
  unfold encodeSlice at h
  obtain ⟨l, h1, h2⟩ := Option.bind_eq_some_iff.mp h
  obtain ⟨h3, rfl⟩ := encodeUsize_some h1
  cases h2
  exact ⟨h3, rfl⟩

theorem encodeSection_some {c : BitVec 32} {b e : List UInt8} (h : encodeSection c b = some e) :
    (encodeU32 c ++ b).length < 2 ^ 32 ∧
      e = encodeU (encodeU32 c ++ b).length ++ (encodeU32 c ++ b) := by
  unfold encodeSection at h
  obtain ⟨l, h1, h2⟩ := Option.bind_eq_some_iff.mp h
  obtain ⟨h3, rfl⟩ := encodeUsize_some h1
  cases h2
  rw [List.length_append]
  exact ⟨h3, by simp [encodingSize]⟩

theorem fold_code {bodies : List (List UInt8)} {c c' : CodeSection}
    (h : bodies.foldlM CodeSection.raw c = some c') :
    c'.bytes = c.bytes ++ bodies.flatMap bodyBytes ∧
    c'.numAdded = c.numAdded + BitVec.ofNat 32 bodies.length ∧
    (∀ b ∈ bodies, b.length < 2 ^ 32) := by
  induction bodies generalizing c with
  | nil => simp at h; subst h; simp
  | cons b bodies ih =>
    rw [List.foldlM_cons] at h
    obtain ⟨c1, h1, h2⟩ := Option.bind_eq_some_iff.mp h
    unfold CodeSection.raw at h1
    obtain ⟨d, h3, h4⟩ := Option.bind_eq_some_iff.mp h1
    obtain ⟨h5, rfl⟩ := encodeSlice_some h3
    cases h4
    obtain ⟨i1, i2, i3⟩ := ih h2
    refine ⟨by simp [i1], ?_, ?_⟩
    · rw [i2, BitVec.add_assoc]
      congr 1
      apply BitVec.eq_of_toNat_eq
      simp [Nat.add_comm]
    · simp only [List.mem_cons]
      rintro x (rfl | hx)
      · exact h5
      · exact i3 x hx

theorem flatMap_bodyBytes_length (bodies : List (List UInt8)) :
    (bodies.flatMap bodyBytes).length = bodiesLen bodies := by
  induction bodies with
  | nil => rfl
  | cons b bs ih =>
    simp only [List.flatMap_cons, List.length_append, ih, bodiesLen, List.map_cons, List.sum_cons,
      bodyBytes]

theorem length_le_bodiesLen (bodies : List (List UInt8)) : bodies.length ≤ bodiesLen bodies := by
  induction bodies with
  | nil => simp [bodiesLen]
  | cons b bs ih =>
    have := encodeU_pos b.length
    simp only [bodiesLen, List.map_cons, List.sum_cons, List.length_cons] at ih ⊢
    omega

/-- What a section is encoded to. -/
theorem encode_some {s : Sect} {e : List UInt8} (h : s.encode = some e) :
    (content s).length < 2 ^ 32 ∧ e = encodeU (content s).length ++ content s ∧
    (∀ bodies, s = .code bodies → bodies.length < 2 ^ 32 ∧ ∀ b ∈ bodies, b.length < 2 ^ 32) := by
  cases s with
  | items id c b =>
    obtain ⟨h1, h2⟩ := encodeSection_some h
    exact ⟨h1, h2, by intro _ h; cases h⟩
  | code bodies =>
    obtain ⟨c, h1, h2⟩ := Option.bind_eq_some_iff.mp h
    obtain ⟨f1, f2, f3⟩ := fold_code h1
    simp only [List.nil_append, BitVec.zero_add] at f1 f2
    have e0 : (0 : BitVec 32) + BitVec.ofNat 32 bodies.length = BitVec.ofNat 32 bodies.length :=
      BitVec.zero_add _
    rw [e0] at f2
    rw [f1, f2] at h2
    obtain ⟨h3, h4⟩ := encodeSection_some h2
    refine ⟨h3, h4, ?_⟩
    rintro b2 ⟨⟩
    refine ⟨?_, f3⟩
    have := length_le_bodiesLen bodies
    rw [List.length_append, flatMap_bodyBytes_length] at h3
    omega
  | start f =>
    obtain ⟨l, h1, h2⟩ := Option.bind_eq_some_iff.mp h
    obtain ⟨h3, rfl⟩ := encodeUsize_some h1
    cases h2
    exact ⟨h3, rfl, by intro _ h; cases h⟩
  | dataCount f =>
    obtain ⟨l, h1, h2⟩ := Option.bind_eq_some_iff.mp h
    obtain ⟨h3, rfl⟩ := encodeUsize_some h1
    cases h2
    exact ⟨h3, rfl, by intro _ h; cases h⟩
  | custom name data =>
    simp only [Sect.encode] at h
    split at h
    case isFalse => cases h
    obtain ⟨l, h1, h2⟩ := Option.bind_eq_some_iff.mp h
    obtain ⟨n, h3, h4⟩ := Option.bind_eq_some_iff.mp h2
    obtain ⟨h5, rfl⟩ := encodeUsize_some h1
    obtain ⟨h6, rfl⟩ := encodeSlice_some h3
    cases h4
    have : encodingSize (BitVec.ofNat 32 name.length) = (encodeU name.length).length := by
      unfold encodingSize; rw [encodeU32_ofNat h6]
    rw [this] at h5 ⊢
    refine ⟨?_, ?_, by intro _ h; cases h⟩
    · simp only [content, List.length_append]; omega
    · simp [content, bodyBytes, Nat.add_assoc]
  | raw id data =>
    obtain ⟨h1, rfl⟩ := encodeSlice_some h
    exact ⟨h1, rfl, by intro _ h; cases h⟩

theorem encodeUsize_of {n : Nat} (h : n < 2 ^ 32) : encodeUsize n = some (encodeU n) := by
  unfold encodeUsize
  rw [if_pos (by omega), encodeU32_ofNat h]

theorem encodeSlice_of {b : List UInt8} (h : b.length < 2 ^ 32) :
    encodeSlice b = some (bodyBytes b) := by
  unfold encodeSlice; rw [encodeUsize_of h]; rfl

theorem fold_code_of {bodies : List (List UInt8)} (h : ∀ b ∈ bodies, b.length < 2 ^ 32)
    (c : CodeSection) : ∃ c', bodies.foldlM CodeSection.raw c = some c' := by
  induction bodies generalizing c with
  | nil => exact ⟨c, rfl⟩
  | cons b bs ih =>
    obtain ⟨c', h1⟩ := ih (fun x hx => h x (List.mem_cons_of_mem _ hx))
      { bytes := c.bytes ++ bodyBytes b, numAdded := c.numAdded + 1 }
    refine ⟨c', ?_⟩
    rw [List.foldlM_cons]
    unfold CodeSection.raw at h1 ⊢
    rw [encodeSlice_of (h b (List.mem_cons_self ..))]
    exact h1

theorem encodeSection_of {c : BitVec 32} {b : List UInt8} (h : (encodeU32 c ++ b).length < 2 ^ 32) :
    ∃ e, encodeSection c b = some e := by
  unfold encodeSection
  rw [encodeUsize_of (by simpa [encodingSize] using h)]
  exact ⟨_, rfl⟩

theorem mem_bodiesLen {bodies : List (List UInt8)} {b : List UInt8} (h : b ∈ bodies) :
    b.length ≤ bodiesLen bodies := by
  induction bodies with
  | nil => cases h
  | cons x xs ih =>
    simp only [bodiesLen, List.map_cons, List.sum_cons] at ih ⊢
    rcases List.mem_cons.mp h with rfl | h
    · omega
    · have := ih h; omega

theorem encode_total {s : Sect} (h : (content s).length < 2 ^ 32) : ∃ e, s.encode = some e := by
  cases s with
  | items id c b => exact encodeSection_of h
  | code bodies =>
    have hl : bodiesLen bodies < 2 ^ 32 := by
      simp only [content, List.length_append, flatMap_bodyBytes_length] at h
      omega
    obtain ⟨c, hc⟩ := fold_code_of (bodies := bodies)
      (fun b hb => Nat.lt_of_le_of_lt (mem_bodiesLen hb) hl) {}
    obtain ⟨f1, f2, f3⟩ := fold_code hc
    have e0 : (0 : BitVec 32) + BitVec.ofNat 32 bodies.length = BitVec.ofNat 32 bodies.length :=
      BitVec.zero_add _
    simp only [List.nil_append] at f1 f2
    rw [e0] at f2
    obtain ⟨e, he⟩ := encodeSection_of (c := c.numAdded) (b := c.bytes) (by
      rw [f1, f2]; exact h)
    exact ⟨e, by simp only [Sect.encode, hc]; exact he⟩
  | start f =>
    simp only [Sect.encode, encodingSize, encodeUsize_of (show (encodeU32 f).length < 2 ^ 32 from h)]
    exact ⟨_, rfl⟩
  | dataCount f =>
    simp only [Sect.encode, encodingSize, encodeUsize_of (show (encodeU32 f).length < 2 ^ 32 from h)]
    exact ⟨_, rfl⟩
  | custom name data =>
    simp only [content, List.length_append] at h
    have hn : name.length < 2 ^ 32 := by omega
    simp only [Sect.encode]
    rw [if_pos (by omega), encodeSlice_of hn, encodeUsize_of (by
      unfold encodingSize; rw [encodeU32_ofNat hn]; exact h)]
    exact ⟨_, rfl⟩
  | raw id data => exact ⟨_, encodeSlice_of h⟩

/-- Everything the encoder has checked about a section. -/
structure Enc (s : Sect) : Prop where
  len : (content s).length < 2 ^ 32
  code : ∀ bodies, s = .code bodies → bodies.length < 2 ^ 32 ∧ ∀ b ∈ bodies, b.length < 2 ^ 32

theorem encodeModule_fold {ss : List Sect} {b0 b : List UInt8}
    (h : ss.foldlM addSection b0 = some b) :
    b = b0 ++ ss.flatMap sectBytes ∧ ∀ s ∈ ss, Enc s := by
  induction ss generalizing b0 with
  | nil => simp at h; subst h; simp
  | cons s ss ih =>
    rw [List.foldlM_cons] at h
    obtain ⟨b1, h1, h2⟩ := Option.bind_eq_some_iff.mp h
    unfold addSection at h1
    obtain ⟨e, h3, h4⟩ := Option.bind_eq_some_iff.mp h1
    cases h4
    obtain ⟨f1, rfl, f3⟩ := encode_some h3
    obtain ⟨i1, i2⟩ := ih h2
    refine ⟨?_, ?_⟩
    · rw [i1]; simp [sectBytes]
    · simp only [List.mem_cons]
      rintro x (rfl | hx)
      · exact ⟨f1, f3⟩
      · exact i2 x hx

/-! ## Reading a section -/

/-- The header of a section is read back. -/
theorem readSectionHeader_enc {id : UInt8} {L : Nat} {tail : List UInt8} {r : Reader}
    (hid : id < 128) (hL : L < 2 ^ 32)
    (hr : r.rest = id :: encodeU L ++ tail)
    (hs : r.originalPosition + headerLen L + L ≤ u64Max) :
    readSectionHeader none r = .ok
      ({ id := id, lenPos := r.originalPosition + 1, len := BitVec.ofNat 32 L,
         start := r.originalPosition + headerLen L,
         stop := r.originalPosition + headerLen L + L }, r.advance (headerLen L)) := by
  have h80 : id &&& 0x80 = 0 := (and80_eq_zero_iff id).mpr hid
  have e1 : readU8 r = .ok (id, r.advance 1) := readU8_cons hr
  have e2 : readVarU32 (r.advance 1) = .ok (BitVec.ofNat 32 L,
      r.advance (1 + (encodeU L).length)) := by
    have := Dec.u32 (BitVec.ofNat 32 L) (r.advance 1) tail
      (by rw [encodeU32_ofNat hL]; simp [hr])
    rw [encodeU32_ofNat hL, Reader.advance_advance] at this
    exact this
  have e3 : (BitVec.ofNat 32 L).toNat = L := by
    rw [BitVec.toNat_ofNat, Nat.mod_eq_of_lt hL]
  have hp : r.originalPosition + (1 + (encodeU L).length) = r.originalPosition + headerLen L := rfl
  unfold readSectionHeader
  simp only [bind_apply, readPos, e1, h80, ne_eq, not_true_eq_false, if_false, e2, e3,
    Reader.originalPosition_advance, hp, Option.getD_none, and_self, if_pos hs, pure_apply]
  rfl

/-- The first four bytes are not another magic number. -/
theorem not_magic {s : Sect} (he : Enc s) (hok : s.Ok) (tail : List UInt8) (off : Nat) :
    peekBytes (Reader.new (sectBytes s ++ tail) off) 4 ≠ .ok wasmMagic := by
  intro h
  unfold peekBytes at h
  rw [ensureHasBytes_eq] at h
  split at h
  · rename_i e h1
    split at h1
    · cases h1
      have hd : (sectBytes s ++ tail).take 4 = wasmMagic := by
        simpa [Reader.new] using h
      have h0 : s.id = 0 := by
        have := congrArg List.head? hd
        simpa [sectBytes, wasmMagic] using this
      have hc : ∃ name data, s = .custom name data := by
        cases s with
        | custom name data => exact ⟨_, _, rfl⟩
        | items id c b =>
          simp only [Sect.id] at h0
          subst h0
          simp [Sect.Ok] at hok
        | raw id b =>
          simp only [Sect.id] at h0
          subst h0
          simp [Sect.Ok] at hok
        | _ => cases h0
      obtain ⟨name, data, rfl⟩ := hc
      have hd' : (encodeU (content (.custom name data)).length ++ (content (.custom name data) ++ tail)).take 3
          = [0x61, 0x73, 0x6d] := by
        have := congrArg List.tail hd
        simpa [sectBytes, wasmMagic, List.take_succ_cons] using this
      have first : ∀ (n : Nat) (b : UInt8) (bs t : List UInt8), b.toNat < 128 →
          encodeU n ++ t = b :: bs → n = b.toNat ∧ t = bs := by
        intro n b bs t hb hh
        rw [encodeU] at hh
        split at hh
        · simp only [List.singleton_append, List.cons.injEq] at hh
          obtain ⟨h1, h2⟩ := hh
          refine ⟨?_, h2⟩
          rw [← h1, UInt8.toNat_ofNat']; omega
        · simp only [List.cons_append, List.cons.injEq] at hh
          exfalso
          rw [← hh.1, UInt8.toNat_ofNat'] at hb
          omega
      -- first byte of the length, then first byte of the name length
      generalize hC : content (.custom name data) = C at hd'
      obtain ⟨x, hx⟩ : ∃ x, encodeU C.length ++ (C ++ tail) = 0x61 :: 0x73 :: 0x6d :: x := by
        refine ⟨(encodeU C.length ++ (C ++ tail)).drop 3, ?_⟩
        have := List.take_append_drop 3 (encodeU C.length ++ (C ++ tail))
        rw [hd'] at this
        exact this.symm
      obtain ⟨hl, ht⟩ := first _ _ _ _ (by decide) hx
      have hC' : C = encodeU name.length ++ (name ++ data) := by
        rw [← hC]; simp [content]
      rw [hC', List.append_assoc] at ht
      obtain ⟨hn, _⟩ := first _ _ _ _ (by decide) ht
      have e1 : C.length = 97 := hl
      have e2 : name.length = 115 := hn
      rw [hC'] at e1
      simp only [List.length_append] at e1
      omega
    · cases h1
  · cases h

theorem sectionOf_enc {ctor : Reader → Except Err α} {c tail : List UInt8} {r : Reader} {a : α}
    (hr : r.rest = c ++ tail) (hc : ctor ⟨c, 0, r.originalPosition⟩ = .ok a) :
    sectionOf c.length ctor r = .ok (a, r.advance c.length) := by
  unfold sectionOf
  rw [bind_apply, skipBytes_eq, if_pos (by rw [hr]; simp)]
  have : r.rest.take c.length = c := by rw [hr]; simp
  simp only [this, noHint, hc]

theorem singleItem_enc {item : R α} {c tail : List UInt8} {r : Reader} {a : α} {stop : Nat}
    {desc : String} (hc : Dec item c a) (hl : c.length < 2 ^ 32)
    (hr : r.rest = c ++ tail) (hs : stop = r.originalPosition + c.length) :
    singleItem stop item desc r =
      .ok ((a, (r.originalPosition, stop)), r.advance c.length) := by
  unfold singleItem
  have e : (stop - r.originalPosition) % 2 ^ 32 = c.length := by
    rw [hs, Nat.add_sub_cancel_left]; exact Nat.mod_eq_of_lt hl
  have e2 : r.rest.take c.length = c := by rw [hr]; simp
  have e3 : item ⟨c, 0, r.originalPosition⟩ =
      .ok (a, (⟨c, 0, r.originalPosition⟩ : Reader).advance c.length) :=
    hc _ [] (by simp [Reader.rest])
  rw [bind_apply]
  simp only [readPos]
  rw [bind_apply, e, skipBytes_eq, if_pos (by rw [hr]; simp)]
  simp only [e2]
  rw [bind_apply]
  simp only [noHint, e3]
  have e4 : ((⟨c, 0, r.originalPosition⟩ : Reader).advance c.length).eof = true := by
    simp [Reader.eof, Reader.advance, Reader.maxPosition]
  simp only [e4, Bool.not_true, Bool.false_eq_true, if_false, pure_apply]

theorem delimited_enc {f : R α} {c tail : List UInt8} {r : Reader} {a : α} {len : Nat}
    (hc : Dec f c a) (hl : c.length ≤ len) (hr : r.rest = c ++ tail) :
    delimited len f r = .ok ((a, len - c.length), r.advance c.length) := by
  unfold delimited
  simp only [bind_apply, readPos, hc r tail hr, Reader.originalPosition_advance,
    Nat.add_sub_cancel_left, if_pos hl, pure_apply]

theorem dec_readReader {b tail : List UInt8} {r : Reader} (hb : b.length < 2 ^ 32)
    (hr : r.rest = bodyBytes b ++ tail) :
    readReader r = .ok (⟨b, 0, r.originalPosition + (encodeU b.length).length⟩,
      r.advance (bodyBytes b).length) := by
  unfold readReader
  have h1 := Dec.u32 (BitVec.ofNat 32 b.length) r (b ++ tail)
    (by rw [hr, encodeU32_ofNat hb]; simp [bodyBytes])
  rw [encodeU32_ofNat hb] at h1
  have e3 : (BitVec.ofNat 32 b.length).toNat = b.length := by
    rw [BitVec.toNat_ofNat, Nat.mod_eq_of_lt hb]
  rw [bind_apply, h1]
  have hrest : (r.advance (encodeU b.length).length).rest = b ++ tail := by
    simp [hr, bodyBytes]
  simp only [e3]
  rw [skipBytes_eq, if_pos (by rw [hrest]; simp)]
  simp [hrest, bodyBytes]

end Verif.Framing
