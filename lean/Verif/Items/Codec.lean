import Verif.Items.Spec
import Verif.Instr.Frames
import Verif.Types.Props
/-! The item readers decode what the section builders write. -/
namespace Verif.Items
open Verif.Reader Verif.Leb Verif.Framing Verif.Types Spec

/-! ### Sequences of items -/

theorem collectFrom_ok {item : R α} : ∀ {n : Nat} {r : Reader} {xs : List α},
    collectFrom item n r = .ok xs ↔ ∃ r', readMany item n r = .ok (xs, r') ∧ r'.eof = true
  | 0, r, xs => by
    unfold collectFrom readMany
    constructor
    · intro h
      split at h
      · next he => cases h; exact ⟨r, rfl, he⟩
      · cases h
    · rintro ⟨r', h, he⟩
      cases h
      rw [if_pos he]
  | n + 1, r, xs => by
    unfold collectFrom readMany
    rw [bind_apply]
    cases hi : item r with
    | error e => simp
    | ok x =>
      obtain ⟨a, r1⟩ := x
      simp only
      rw [bind_apply]
      have ih := @collectFrom_ok _ item n r1
      constructor
      · intro h
        cases hc : collectFrom item n r1 with
        | error e => rw [hc] at h; cases h
        | ok ys =>
          rw [hc] at h
          cases h
          obtain ⟨r', h1, h2⟩ := ih.1 hc
          rw [h1]
          exact ⟨r', rfl, h2⟩
      · rintro ⟨r', h, he⟩
        cases hm : readMany item n r1 with
        | error e => rw [hm] at h; cases h
        | ok y =>
          obtain ⟨ys, r2⟩ := y
          rw [hm] at h
          cases h
          rw [ih.2 ⟨r', hm, he⟩]

theorem eof_advance {r : Reader} {b : List UInt8} (h : r.rest = b) :
    (r.advance b.length).eof = true := by
  have := congrArg List.length h
  rw [Reader.length_rest] at this
  simp only [Reader.eof, Reader.maxPosition, Reader.buffer_advance, Reader.position_advance]
  simp; omega

theorem decP_collect {item : R α} {n : Nat} {b : List UInt8} {P : List α → Prop}
    (h : DecP (readMany item n) b P) {r : Reader} (hr : r.rest = b) :
    ∃ xs, collectFrom item n r = .ok xs ∧ P xs := by
  obtain ⟨xs, h1, h2⟩ := h r [] (by rw [hr, List.append_nil])
  exact ⟨xs, collectFrom_ok.2 ⟨_, h1, eof_advance hr⟩, h2⟩

theorem toNat_ofNat32 {n : Nat} (h : n < 2 ^ 32) : (BitVec.ofNat 32 n).toNat = n := by
  rw [BitVec.toNat_ofNat, Nat.mod_eq_of_lt h]

theorem limited_new {r : Reader} {n : BitVec 32} {b : List UInt8} (hr : r.rest = encodeU32 n ++ b) :
    SectionLimited.new r = .ok ⟨r.advance (encodeU32 n).length, n⟩ := by
  unfold SectionLimited.new
  rw [Dec.u32 n r b hr]

/-- A nested sequence of items: what is skipped and then read. -/
theorem decP_limited {item : R α} {n : Nat} {b : List UInt8} {P : List α → Prop} (hn : n < 2 ^ 32)
    (h : DecP (readMany item n) b P) {r : Reader}
    (hr : r.rest = encodeU32 (BitVec.ofNat 32 n) ++ b) :
    ∃ s, SectionLimited.new r = .ok s ∧ s.count = BitVec.ofNat 32 n ∧
      ∃ xs, s.collect item = .ok xs ∧ P xs := by
  refine ⟨_, limited_new hr, rfl, ?_⟩
  unfold SectionLimited.collect
  simp only [toNat_ofNat32 hn]
  exact decP_collect h (by simp [hr])

theorem decP_bind_limited {item : R α} {n : Nat} {b b2 : List UInt8} {P : List α → Prop}
    {g : SectionLimited → R β} {Q : β → Prop} (hn : n < 2 ^ 32)
    (h : DecP (readMany item n) b P) {r : Reader}
    (hr : r.rest = encodeU32 (BitVec.ofNat 32 n) ++ b)
    (hg : ∀ s xs, s.collect item = .ok xs → P xs → DecP (g s) b2 Q) :
    DecP (limited r >>= g) b2 Q := by
  obtain ⟨s, h1, -, xs, h2, h3⟩ := decP_limited hn h hr
  intro q tail hq
  rw [bind_apply]
  unfold limited
  rw [h1]
  exact hg s xs h2 h3 q tail hq

theorem decP_bind_skip {f : R Unit} {g : Reader → R β} {b b2 : List UInt8} {Q : β → Prop}
    (h : Dec f b ()) (hg : ∀ r, r.rest = b → DecP (g r) b2 Q) :
    DecP (skip f >>= g) (b ++ b2) Q := by
  intro r tail hr
  rw [bind_apply, h.skip r (b2 ++ tail) (by rw [hr, List.append_assoc])]
  obtain ⟨c, h1, h2⟩ := hg ⟨b, 0, r.originalPosition⟩ rfl (r.advance b.length) tail
    (by simp [hr])
  refine ⟨c, ?_, h2⟩
  simp only [h1, Reader.advance_advance, List.length_append]

theorem DecP.unit {f : R Unit} {b : List UInt8} {P : Unit → Prop} (h : DecP f b P) : Dec f b () := by
  intro r tail hr
  obtain ⟨⟨⟩, h1, -⟩ := h r tail hr
  exact h1

theorem dec_skipItems {item : R Unit} {n : Nat} {b : List UInt8} {P : List Unit → Prop}
    (hn : n < 2 ^ 32) (h : DecP (readMany item n) b P) :
    Dec (skipItems item) (encodeU32 (BitVec.ofNat 32 n) ++ b) () := by
  refine DecP.unit (P := fun _ => True) ?_
  refine (Dec.u32 _).bindP ?_
  rw [toNat_ofNat32 hn]
  exact h.bind_nil fun _ _ => .pure trivial

/-- Items written one after another. -/
theorem decP_all {item : R α} {enc : β → Option (List UInt8)} {P : α → β → Prop} :
    ∀ {es : List β}, (∀ e ∈ es, ∃ b, enc e = some b ∧ DecP item b (P · e)) →
    ∃ b, Enc.encodeAll enc es = some b ∧ DecP (readMany item es.length) b (List.Forall₂ P · es)
  | [], _ => ⟨[], rfl, .pure .nil⟩
  | e :: es, h => by
    obtain ⟨b1, h1, h2⟩ := h e (List.mem_cons_self ..)
    obtain ⟨b2, h3, h4⟩ := decP_all fun x hx => h x (List.mem_cons_of_mem _ hx)
    refine ⟨b1 ++ b2, ?_, ?_⟩
    · unfold Enc.encodeAll; rw [h1, h3]; rfl
    · exact h2.bind fun a ha => h4.bind_nil fun as has => .pure (.cons ha has)

/-- Two item readers that decode the same bytes of each item. -/
theorem decP_all2 {item : R α} {item' : R Unit} {enc : β → Option (List UInt8)} {P : α → β → Prop} :
    ∀ {es : List β}, (∀ e ∈ es, ∃ b, enc e = some b ∧ DecP item b (P · e) ∧ Dec item' b ()) →
    ∃ b, Enc.encodeAll enc es = some b ∧ DecP (readMany item es.length) b (List.Forall₂ P · es) ∧
      DecP (readMany item' es.length) b (fun _ => True)
  | [], _ => ⟨[], rfl, .pure .nil, .pure trivial⟩
  | e :: es, h => by
    obtain ⟨b1, h1, h2, h2'⟩ := h e (List.mem_cons_self ..)
    obtain ⟨b2, h3, h4, h4'⟩ := decP_all2 fun x hx => h x (List.mem_cons_of_mem _ hx)
    refine ⟨b1 ++ b2, ?_, ?_, ?_⟩
    · unfold Enc.encodeAll; rw [h1, h3]; rfl
    · exact h2.bind fun a ha => h4.bind_nil fun as has => .pure (.cons ha has)
    · exact h2'.bindP (h4'.bind_nil fun as has => .pure trivial)

theorem encodeAll_some (enc : α → List UInt8) : ∀ xs : List α,
    Enc.encodeAll (fun x => some (enc x)) xs = some (xs.flatMap enc)
  | [] => rfl
  | x :: xs => by unfold Enc.encodeAll; rw [encodeAll_some enc xs]; rfl

theorem buildFrom_eq {enc : α → Option (List UInt8)} : ∀ {xs : List α} {b : Enc.Builder}
    {bs : List UInt8}, Enc.encodeAll enc xs = some bs →
    Enc.buildFrom enc b xs = some ⟨b.bytes ++ bs, b.numAdded + BitVec.ofNat 32 xs.length⟩
  | [], b, bs, h => by
    cases h
    simp [Enc.buildFrom]
  | x :: xs, b, bs, h => by
    unfold Enc.encodeAll at h
    cases hx : enc x with
    | none => rw [hx] at h; cases h
    | some bx =>
      cases hxs : Enc.encodeAll enc xs with
      | none => rw [hx, hxs] at h; cases h
      | some bxs =>
        rw [hx, hxs] at h
        cases h
        have := buildFrom_eq (b := b.add bx) hxs
        unfold Enc.buildFrom at this ⊢
        rw [List.foldlM_cons, hx]
        simp only [Option.pure_def, Option.bind_eq_bind, Option.bind_some] at this ⊢
        rw [this]
        simp only [Enc.Builder.add, List.append_assoc, List.length_cons, Option.some.injEq,
          Enc.Builder.mk.injEq, true_and]
        apply BitVec.eq_of_toNat_eq
        have h1 : (1 : BitVec 32).toNat = 1 := rfl
        simp only [BitVec.toNat_add, BitVec.toNat_ofNat, h1]
        omega

/-! ### Strings -/

theorem encodeSlice_eq {s : List UInt8} (h : s.length < 2 ^ 32) :
    encodeSlice s = some (encodeU32 (BitVec.ofNat 32 s.length) ++ s) := by
  unfold encodeSlice
  rw [encodeUsize_eq h]
  rfl

theorem dec_string {s : List UInt8} (h : StrFits s) :
    Dec readString (encodeU32 (BitVec.ofNat 32 s.length) ++ s) s := by
  refine (Dec.u32 _).bind ?_
  have := h.1
  rw [toNat_ofNat32 (by omega), if_neg (by simp only [maxWasmStringSize]; omega)]
  refine (Dec.readBytes s).bind_nil ?_
  rw [if_pos h.2]
  exact .pure _

theorem dec_skipString {s : List UInt8} (h : StrFits s) :
    Dec skipString (encodeU32 (BitVec.ofNat 32 s.length) ++ s) () := by
  refine (Dec.u32 _).bind ?_
  have := h.1
  rw [toNat_ofNat32 (by omega), if_neg (by simp only [maxWasmStringSize]; omega)]
  intro r tail hr
  unfold advanceBy
  rw [ensureHasBytes_eq, if_pos (by rw [hr]; simp)]
  rfl

/-! ### Constant expressions -/

theorem encodeSeq_end {is : List Instr.Enc.Instr} : ∀ {b : List UInt8},
    Instr.Enc.encodeSeq is = some b → Instr.Enc.encodeSeq (is ++ [.end_]) = some (b ++ [0x0B]) := by
  induction is with
  | nil => intro b h; cases h; rfl
  | cons i is ih =>
    intro b h
    obtain ⟨bi, bs, hi, hbs, rfl⟩ := Instr.encodeSeq_cons h
    rw [List.cons_append]
    unfold Instr.Enc.encodeSeq
    rw [hi, ih hbs]
    simp

theorem skip_step {f : Instr.Features} {n : Nat} {s s' : Instr.OperatorsReader} {op : Instr.Operator}
    (h : s.read f = .ok (op, s')) (ho : op ≠ .end_) :
    skipConstExprFrom f (n + 1) s = skipConstExprFrom f n s' := by
  rw [skipConstExprFrom, h]
  cases op <;> first | rfl | exact absurd rfl ho

theorem skip_end {f : Instr.Features} {n : Nat} {s s' : Instr.OperatorsReader}
    (h : s.read f = .ok (.end_, s')) (ht : s'.stack.top = none) :
    skipConstExprFrom f (n + 1) s = .ok s' := by
  rw [skipConstExprFrom, h]
  simp [ht]

open Instr Instr.Spec in
theorem skip_seq (f : Instr.Features) : ∀ (is : List Instr.Enc.Instr) (b tail : List UInt8) (n : Nat)
    (s : OperatorsReader) (ks : List FrameKind), Instr.Enc.encodeSeq is = some b →
    (∀ i ∈ is, Instr.Spec.Fits f i) → Instr.Enc.Instr.end_ ∉ is →
    s.reader.rest = b ++ 0x0B :: tail → b.length + 1 ≤ n → IsStack s.stack ks →
    (∀ ops : List Operator, ops.map tokOp = is.map tok ++ [.end_] → Run ks ops []) →
    ∃ s', skipConstExprFrom f n s = .ok s' ∧ s'.reader = s.reader.advance (b.length + 1)
  | [], b, tail, n, s, ks, he, _, _, hr, hn, hs, hrun => by
    obtain rfl := Option.some.inj he
    obtain ⟨⟨k, rest, rfl, hk⟩, h2⟩ := hrun [.end_] rfl
    have htop : s.stack.top = some k := by
      obtain ⟨r0, st⟩ := s
      dsimp only at hs
      cases hs; rfl
    obtain ⟨op, ho1, ho2⟩ := decP_instr f k .end_ [0x0B] rfl trivial hk s.reader tail hr
    have hop : op = .end_ := by
      cases op <;> first | rfl | exact ho2.elim
    subst hop
    have hread : s.read f = .ok (.end_, ⟨s.reader.advance 1, s.stack.visit .end_⟩) := by
      unfold OperatorsReader.read
      rw [htop, ho1]; rfl
    have hst := visit_stack hs .end_
    have hnil : rest = [] := h2
    subst hnil
    cases n with
    | zero => simp at hn
    | succ n =>
      refine ⟨_, skip_end hread ?_, rfl⟩
      have : stepStack .end_ [k] = [] := rfl
      rw [this] at hst
      generalize s.stack.visit .end_ = st at hst
      cases hst; rfl
  | i :: is, b, tail, n, s, ks, he, hfit, hend, hr, hn, hs, hrun => by
    obtain ⟨bi, bs, hi, hbs, rfl⟩ := encodeSeq_cons he
    cases n with
    | zero => simp at hn
    | succ n =>
      have hk : ∃ k rest, ks = k :: rest ∧ FrameOk k (tok i) := by
        obtain ⟨op0, h0⟩ := exists_tok (tok i)
        obtain ⟨ops0, h1⟩ := exists_toks (is.map tok ++ [.end_])
        obtain ⟨⟨k, rest, h2, h3⟩, -⟩ := hrun (op0 :: ops0) (by simp [h0, h1])
        exact ⟨k, rest, h2, h0 ▸ h3⟩
      obtain ⟨k, rest, rfl, hk⟩ := hk
      obtain ⟨op, ho1, ho2⟩ := decP_instr f k i bi hi (hfit i (List.mem_cons_self ..)) hk
        s.reader (bs ++ 0x0B :: tail) (by rw [hr, List.append_assoc])
      have htop : s.stack.top = some k := by
        obtain ⟨r0, st⟩ := s
        dsimp only at hs
        cases hs; rfl
      have hread : s.read f = .ok (op, ⟨s.reader.advance bi.length, s.stack.visit op⟩) := by
        unfold OperatorsReader.read
        rw [htop, ho1]
      have hop := corr_tok ho2
      have hne : op ≠ .end_ := by
        rintro rfl
        have : i = .end_ := by
          cases i <;> first | rfl | exact ho2.elim
        exact hend (this ▸ List.mem_cons_self ..)
      obtain ⟨s', h1, h2⟩ := skip_seq f is bs tail n
        ⟨s.reader.advance bi.length, s.stack.visit op⟩ (stepStack op (k :: rest)) hbs
        (fun x hx => hfit x (List.mem_cons_of_mem _ hx))
        (fun h => hend (List.mem_cons_of_mem _ h)) (by simp [hr])
        (by
          have hl : bi.length ≠ 0 := fun h => encode_ne_nil hi (List.length_eq_zero_iff.1 h)
          simp only [List.length_append] at hn; omega)
        (visit_stack hs op)
        (fun ops hops => (hrun (op :: ops) (by simp [hop, hops])).2)
      refine ⟨s', by rw [skip_step hread hne]; exact h1, ?_⟩
      rw [h2]
      simp only [Reader.advance_advance, List.length_append]
      congr 1

theorem dec_skipConst {f : Instr.Features} {e : Enc.ConstExpr} (h : ConstFits f e) :
    Dec (skipConstExpr f) e.encode () := by
  obtain ⟨is, h1, h2, h3, h4⟩ := h
  intro r tail hr
  simp only [Enc.ConstExpr.encode, List.append_assoc, List.singleton_append] at hr
  obtain ⟨s', h5, h6⟩ := skip_seq f is e.bytes tail (r.bytesRemaining + 1)
    (Instr.OperatorsReader.new r) [.block] h1 h2 h4 hr
    (by rw [Reader.bytesRemaining_eq, hr]; simp) (.cons _ _)
    (fun ops hops => Instr.expr_run ⟨_, h3, hops⟩ _)
  unfold skipConstExpr
  rw [h5]
  simp only [h6]
  simp [Enc.ConstExpr.encode, Instr.OperatorsReader.new]

theorem const_is {f : Instr.Features} {e : Enc.ConstExpr} (h : ConstFits f e) {r : Reader}
    (hr : r.rest = e.encode) : ConstIs f ⟨r⟩ e := by
  obtain ⟨is, h1, h2, h3, h4⟩ := h
  obtain ⟨ops, s', h5, h6, h7⟩ := Instr.collect_encoded (f := f) r (encodeSeq_end h1)
    (by
      intro i hi
      rcases List.mem_append.1 hi with hi | hi
      · exact h2 i hi
      · obtain rfl := List.mem_singleton.1 hi
        exact True.intro)
    ⟨_, h3, by rw [List.map_append]; rfl⟩ hr
  exact ⟨hr, is, ops, s', h1, h5, h7, h6⟩

theorem decP_const {f : Instr.Features} {e : Enc.ConstExpr} (h : ConstFits f e) :
    DecP (readConstExpr f) e.encode (ConstIs f · e) := by
  have := decP_bind_skip (g := fun r => (pure ⟨r⟩ : R ConstExpr)) (b2 := [])
    (Q := (ConstIs f · e)) (dec_skipConst h) fun r hr => .pure (const_is h hr)
  rwa [List.append_nil] at this

end Verif.Items
