import Verif.Remod.Sections
import Verif.Remod.ModuleSpec
import Verif.Reenc.Twin
import Verif.Parser.CountLemmas
/-! The run of the parser over a core module, section by section. -/
namespace Verif.Remod
open Verif.Reader Verif.Items Verif.Parser Verif.Framing

/-- Payloads of single sections other than code. -/
def Plain : Payload → Prop
  | .limited id _ _ => id ∈ ([1, 2, 3, 4, 5, 6, 7, 9, 11, 13] : List UInt8)
  | .custom name _ => name.length ≤ 100000 ∧ validUtf8 name = true
  | .start _ _ | .dataCount _ _ => True
  | .unknown id _ _ => 14 ≤ id ∧ id < 128
  | _ => False

theorem id_low {id : UInt8} (h : ¬ id &&& 0x80 ≠ 0) : id < 128 := by
  have : ∀ n < 256, UInt8.ofNat n &&& 0x80 = 0 → UInt8.ofNat n < 128 := by decide +kernel
  have h1 := this id.toNat id.toNat_lt
  rw [UInt8.ofNat_toNat] at h1
  exact h1 (by simpa using h)

theorem id_high {id : UInt8} (h0 : id ≠ 0) (h : orderOf id = none) : 14 ≤ id := by
  have : ∀ n < 14, UInt8.ofNat n ≠ 0 → orderOf (UInt8.ofNat n) ≠ none := by decide +kernel
  apply Decidable.byContradiction
  intro hn
  have hl : id.toNat < 14 := by
    rw [UInt8.le_iff_toNat_le] at hn
    simpa using hn
  have h1 := this id.toNat hl
  rw [UInt8.ofNat_toNat] at h1
  exact h1 h0 h

theorem id_items {id : UInt8} {o : Order} (h : orderOf id = some o) (h8 : id ≠ 8) (h10 : id ≠ 10)
    (h12 : id ≠ 12) : id ∈ ([1, 2, 3, 4, 5, 6, 7, 9, 11, 13] : List UInt8) := by
  unfold orderOf at h
  repeat' split at h
  all_goals first | (subst_vars; simp at *; done) | cases h

theorem readString_ok {r r' : Reader} {s : List UInt8} (h : readString r = .ok (s, r')) :
    s.length ≤ 100000 ∧ validUtf8 s = true := by
  unfold readString at h
  obtain ⟨n, r1, h1, h⟩ := bind_ok.mp h
  split at h
  · obtain ⟨_, _, _, h⟩ := bind_ok.mp h
    cases h
  · rename_i hn
    unfold internalReadString at h
    obtain ⟨b, r2, h2, h⟩ := bind_ok.mp h
    rw [readBytes_eq] at h2
    split at h2
    · cases h2
      split at h
      · rename_i hv
        cases h
        refine ⟨?_, hv⟩
        unfold maxWasmStringSize at hn
        simp only [List.length_take]
        omega
      · obtain ⟨_, _, _, h⟩ := bind_ok.mp h
        cases h
    · cases h2

/-- The start of a code section. -/
def CodeStep (off : Nat) (buf : List UInt8) (n : Nat) (pl : Payload) (p' : Parser) : Prop :=
  ∃ count size hdr cb tail, pl = .codeStart count (off + List.length hdr,
      off + List.length hdr + List.length cb + size) size ∧ buf = hdr ++ cb ++ tail ∧
    n = hdr.length + cb.length ∧ (∃ b c, cb = b :: c) ∧ DecP readVarU32 cb (count = ·) ∧
    p'.state = .functionBody count.toNat size

theorem header_low {mo : Option Nat} {r r' : Reader} {h : Header}
    (hh : readSectionHeader mo r = .ok (h, r')) : h.id < 128 := by
  unfold readSectionHeader at hh
  obtain ⟨i, r1, h1, hh⟩ := bind_ok.mp hh
  cases h1
  obtain ⟨id, r2, h2, hh⟩ := bind_ok.mp hh
  split at hh
  · cases hh
  · rename_i hl
    obtain ⟨_, _, h3, hh⟩ := bind_ok.mp hh
    obtain ⟨len, r4, h4, hh⟩ := bind_ok.mp hh
    obtain ⟨_, _, h5, hh⟩ := bind_ok.mp hh
    split at hh
    · cases hh; exact id_low hl
    · cases hh

theorem sectionStart_step {p p' : Parser} {buf : List UInt8} {off : Nat} {e r' pl}
    (hm : p.encoding = .module) (hs : p.state = .sectionStart)
    (hh : parseSectionStart p (Reader.new buf off) e = (.ok (pl, r'), p')) :
    (∃ o, pl = .endOf o) ∨ (Plain pl ∧ p'.state = .sectionStart) ∨
      CodeStep off buf r'.position pl p' := by
  unfold parseSectionStart at hh
  split at hh
  · split at hh
    · cases hh
    · split at hh
      · cases hh
      · cases hh; exact .inl ⟨_, rfl⟩
  split at hh
  · cases hh
  split at hh
  · cases hh
  rename_i h r1 h1
  obtain ⟨f1, f2, f3, f4, f5⟩ := header_facts h1
  have b := (WellBehaved.readSectionHeader p.maxOffset (Reader.new buf off)
    (Nat.zero_le _)).bounds _ _ h1
  have hlow := header_low h1
  obtain ⟨bf, ps, oo⟩ := r1
  simp only [Reader.new] at b f5
  obtain ⟨rfl, rfl, b3, b4⟩ := b
  unfold parseSection at hh
  split at hh
  · obtain ⟨a, h2, h3⟩ := runBody_ok hh
    cases h3
    obtain ⟨-, -, h4⟩ := sectionOf_ok h2
    exact .inr (.inl ⟨readString_ok h4, hs⟩)
  rename_i hid0
  rw [hm] at hh
  dsimp only at hh
  split at hh
  · rename_i o ho
    split at hh
    · cases hh
    rename_i p1 hu
    have e1 := updateOrder_ok hu
    subst e1
    unfold moduleBody at hh
    split at hh
    · obtain ⟨a, h2, h3⟩ := runBody_ok hh
      cases h3
      rename_i hi
      exact .inr (.inl ⟨by simp [Plain, hi], hs⟩)
    split at hh
    · obtain ⟨a, h2, h3⟩ := runBody_ok hh
      cases h3
      exact .inr (.inl ⟨trivial, hs⟩)
    split at hh
    · obtain ⟨⟨count, len⟩, h2, h3⟩ := runBody_ok hh
      dsimp only at h3
      split at h3
      · cases h3
      cases h3
      unfold delimited at h2
      obtain ⟨_, _, h0, h2⟩ := bind_ok.mp h2
      cases h0
      obtain ⟨c, r2, h4, h2⟩ := bind_ok.mp h2
      obtain ⟨_, _, h0, h2⟩ := bind_ok.mp h2
      cases h0
      split at h2
      case isFalse => cases h2
      rename_i hle
      cases h2
      obtain ⟨b, cb, g1, rfl, g3⟩ := Twin1.u32 _ _ _ h4
      have g1' : bf.drop ps = b :: cb ++ (bf.drop ps).drop (cb.length + 1) := by
        simpa [Reader.rest] using g1
      have hps : (bf.take ps).length = ps := by simp; omega
      simp only [Reader.originalPosition, Reader.advance] at f1 hle
      refine .inr (.inr ⟨count, _, bf.take ps, b :: cb, (bf.drop ps).drop (cb.length + 1), ?_, ?_,
        ?_, ⟨_, _, rfl⟩, g3, rfl⟩)
      · simp only [Reader.originalPosition, Reader.advance, Payload.codeStart.injEq,
          Prod.mk.injEq, true_and, and_true, hps, List.length_cons]
        refine ⟨f1, ?_⟩
        rw [f2, f1]
        omega
      · rw [List.append_assoc, ← g1', List.take_append_drop]
      · simp [hps, Reader.advance]
    split at hh
    · obtain ⟨a, h2, h3⟩ := runBody_ok hh
      dsimp only at h3
      split at h3
      · cases h3
      cases h3
      rename_i hi _ _
      exact .inr (.inl ⟨by simp [Plain, hi], hs⟩)
    split at hh
    · obtain ⟨a, h2, h3⟩ := runBody_ok hh
      cases h3
      exact .inr (.inl ⟨trivial, hs⟩)
    · rename_i h3' h8 h10 h11 h12
      obtain ⟨a, h2, h3⟩ := runBody_ok hh
      cases h3
      exact .inr (.inl ⟨id_items ho h8 h10 h12, hs⟩)
  · rename_i ho
    unfold unknownBody at hh
    obtain ⟨a, h2, h3⟩ := runBody_ok hh
    cases h3
    exact .inr (.inl ⟨⟨id_high hid0 ho, hlow⟩, hs⟩)

/-! ### Function bodies -/

theorem readReader_frame {r r' : Reader} {body : Reader} (h : readReader r = .ok (body, r')) :
    ∃ b c, r.rest = b ++ c ++ r'.rest ∧ r' = r.advance (List.length b + List.length c) ∧
      ∀ q tail, q.rest = b ++ c ++ tail → q.originalPosition = r.originalPosition →
        readReader q = .ok (body, q.advance (b.length + c.length)) := by
  unfold readReader at h
  obtain ⟨size, r1, h1, h2⟩ := bind_ok.mp h
  obtain ⟨b0, b, g1, rfl, g3⟩ := Twin1.u32 _ _ _ h1
  rw [skipBytes_eq] at h2
  split at h2
  case isFalse => cases h2
  rename_i hl
  cases h2
  have hr : (r.advance (b.length + 1)).rest = r.rest.drop (b.length + 1) := Reader.rest_advance ..
  have hc : ((r.advance (b.length + 1)).rest.take size.toNat).length = size.toNat := by
    simp only [List.length_take]; omega
  refine ⟨b0 :: b, (r.advance (b.length + 1)).rest.take size.toNat, ?_, ?_, ?_⟩
  · rw [Reader.rest_advance (r.advance _), List.append_assoc, List.take_append_drop]
    exact g1
  · rw [hc, Reader.advance_advance]; rfl
  · intro q tail hq ho
    obtain ⟨v, e1, rfl⟩ := g3 q (((r.advance (b.length + 1)).rest.take size.toNat) ++ tail)
      (by rw [hq, List.append_assoc])
    unfold readReader
    rw [bind_apply, e1]
    dsimp only
    have hq2 : (q.advance (b0 :: b).length).rest =
        (r.advance (b.length + 1)).rest.take size.toNat ++ tail := by
      rw [Reader.rest_advance, hq, List.append_assoc, List.drop_left]
    rw [skipBytes_eq, if_pos (by rw [hq2, List.length_append, hc]; omega), hq2]
    rw [List.take_left' hc, hc, Reader.advance_advance]
    simp only [Reader.originalPosition, Reader.advance, List.length_cons] at ho ⊢
    have e3 : q.originalOffset + (q.position + (b.length + 1)) =
        r.originalOffset + (r.position + (b.length + 1)) := by omega
    rw [e3]

/-- One successful step of the parser over all the remaining input. -/
theorem parse_step {p p' : Parser} {buf : List UInt8} {n pl} (hx : p.maxOffset = none)
    (hl : p.offset + buf.length ≤ u64Max) (h : parse p buf true = (.ok (.parsed n pl), p')) :
    ∃ r' q, parseReader p (Reader.new buf p.offset) true = (.ok (pl, r'), q) ∧ n = r'.position ∧
      p' = { q with offset := q.offset + n } ∧ Fits pl p.offset (buf.take n) := by
  obtain ⟨d, e', r', q, hd, hs, hp, he, rfl, hnd, _, _, rfl, hl', _⟩ := parse_eff h
  obtain ⟨rfl, rfl⟩ := hs (by simp only [Parser.maxLen, hx, Option.getD_none]; omega)
  exact ⟨r', q, hp, rfl, rfl, parseReader_fits hp⟩

theorem start_reset {p : Parser} {r : Reader} {e : Bool} {x}
    (hs : p.state = .functionBody 0 0) (h : parseReader p r e = x) :
    parseReader { p with state := .sectionStart } r e = x := by
  rw [← h]
  simp [parseReader, hs]

theorem drive_reset {p : Parser} {buf : List UInt8} {tr : List Event} {len : Nat}
    (hs : p.state = .functionBody 0 len) (hx : p.maxOffset = none)
    (hl : p.offset + buf.length ≤ u64Max) (h : Drive p [] buf [] tr none) :
    len = 0 ∧ Drive { p with state := .sectionStart } [] buf [] tr none := by
  have key : ∀ n pl p', parse p buf true = (.ok (.parsed n pl), p') → len = 0 ∧
      parse { p with state := .sectionStart } buf true = (.ok (.parsed n pl), p') := by
    intro n pl p' h
    obtain ⟨r', q, h1, rfl, rfl, -⟩ := parse_step hx hl h
    by_cases h0 : len = 0
    · subst h0
      refine ⟨rfl, ?_⟩
      rw [← h]
      have hb : buf.length ≤ p.maxLen := by
        simp only [Parser.maxLen, hx, Option.getD_none]; omega
      rw [parse_short hb, parse_short (p := { p with state := .sectionStart }) hb,
        start_reset hs rfl]
    · unfold parseReader at h1
      simp [hs, h0] at h1
  cases h with
  | step h1 h2 h3 => exact ⟨(key _ _ _ h1).1, .step (key _ _ _ h1).2 h2 h3⟩
  | done h1 h2 => exact ⟨(key _ _ _ h1).1, .done (key _ _ _ h1).2 h2⟩

theorem body_step {p p' : Parser} {buf : List UInt8} {k len n : Nat} {pl : Payload}
    (hs : p.state = .functionBody (k + 1) len) (hx : p.maxOffset = none)
    (hl : p.offset + buf.length ≤ u64Max) (h : parse p buf true = (.ok (.parsed n pl), p')) :
    ∃ body b buf', pl = .codeEntry body ∧ buf = b ++ buf' ∧ List.length b = n ∧ n ≤ len ∧
      p' = { p with state := .functionBody k (len - n), offset := p.offset + n } ∧
      ∀ q tail, q.rest = b ++ tail → q.originalPosition = p.offset →
        readReader q = .ok (body, q.advance n) := by
  obtain ⟨r', q, h1, rfl, rfl, -⟩ := parse_step hx hl h
  unfold parseReader at h1
  simp only [hs] at h1
  rw [if_neg (by omega)] at h1
  unfold parseFunctionBody at h1
  obtain ⟨⟨body, len'⟩, h2, h3⟩ := runBody_ok h1
  cases h3
  unfold delimited at h2
  obtain ⟨_, _, h0, h2⟩ := bind_ok.mp h2
  cases h0
  obtain ⟨c, r2, h4, h2⟩ := bind_ok.mp h2
  obtain ⟨_, _, h0, h2⟩ := bind_ok.mp h2
  cases h0
  split at h2
  case isFalse => cases h2
  rename_i hle
  cases h2
  obtain ⟨b, c, g1, rfl, g3⟩ := readReader_frame h4
  have e1 : (Reader.new buf p.offset).rest = buf := rfl
  rw [e1] at g1
  simp only [Reader.originalPosition, Reader.advance, Reader.new, Nat.zero_add, Nat.add_zero] at *
  refine ⟨body, b ++ c, _, rfl, g1, by simp, by omega, ?_, fun q tail hq ho => g3 q tail hq (by omega)⟩
  congr 2
  omega

theorem bodies_run : ∀ (k : Nat) {len : Nat} {p : Parser} {buf : List UInt8} {tr : List Event},
    Drive p [] buf [] tr none → p.encoding = .module → p.maxOffset = none →
    p.offset + buf.length ≤ u64Max → p.state = .functionBody k len →
    ∃ (bodies : List Reader) (evs tr' : List Event) (bs buf' : List UInt8) (p1 : Parser),
      tr = evs ++ tr' ∧ evs.map Event.payload = bodies.map Payload.codeEntry ∧ bs.length = len ∧
      buf = bs ++ buf' ∧
      (∀ q tail, q.rest = bs ++ tail → q.originalPosition = p.offset →
        readMany readReader k q = .ok (bodies, q.advance len)) ∧
      p1.state = .sectionStart ∧ p1.encoding = .module ∧ p1.maxOffset = none ∧
      p1.offset = p.offset + len ∧ Drive p1 [] buf' [] tr' none := by
  intro k
  induction k with
  | zero =>
    intro len p buf tr h hm hx hl hs
    obtain ⟨rfl, h'⟩ := drive_reset hs hx hl h
    exact ⟨[], [], tr, [], buf, { p with state := .sectionStart }, rfl, rfl, rfl, rfl, fun q _ _ _ => rfl, rfl, hm, hx, rfl, h'⟩
  | succ k ih =>
    intro len p buf tr h hm hx hl hs
    cases h with
    | done h1 h2 =>
      obtain ⟨body, b, buf', rfl, -⟩ := body_step hs hx hl h1
      cases h2
    | @step _ p' _ _ _ n pl q st' tr' _ h1 h2 h3 =>
      obtain ⟨body, b, buf', rfl, rfl, rfl, hn, rfl, hr⟩ := body_step hs hx hl h1
      cases h2
      rw [List.drop_left] at h3
      rw [List.length_append] at hl
      obtain ⟨bodies, evs, tr1, bs, buf1, p1, rfl, g2, g3, rfl, g5, g6, g7, g8, g9, g10⟩ :=
        ih h3 hm hx (by dsimp only; omega) rfl
      refine ⟨body :: bodies, ⟨_, _⟩ :: evs, tr1, b ++ bs, buf1, p1, rfl, by simp [g2], ?_, by simp,
        ?_, g6, g7, g8, by rw [g9]; dsimp only; omega, g10⟩
      · rw [List.length_append, g3]; omega
      · intro q tail hq ho
        unfold readMany
        rw [bind_apply, hr q (bs ++ tail) (by rw [hq, List.append_assoc]) ho]
        dsimp only
        rw [bind_apply, g5 (q.advance b.length) tail
          (by rw [Reader.rest_advance, hq, List.append_assoc, List.drop_left])
          (by simp only [Reader.originalPosition, Reader.advance] at ho ⊢; omega)]
        dsimp only
        rw [Reader.advance_advance, Nat.add_sub_cancel' hn]
        rfl

/-! ### The whole module -/

/-- Where a payload lies in the input. -/
def Placed (off : Nat) (data : List UInt8) : Payload → Prop
  | .unknown _ contents rg => originalSection off data rg = some contents
  | .custom _ rd => rd.rest.length ≤ data.length
  | _ => True

/-- The events after the header, section by section. -/
inductive Groups (off : Nat) (data : List UInt8) : List Event → Prop
  | fin {n o} : Groups off data [⟨n, .endOf o⟩]
  | plain {n pl tr} : Plain pl → Placed off data pl → Groups off data tr →
    Groups off data (⟨n, pl⟩ :: tr)
  | code {n count rg size sec s} {bodies : List Reader} {evs tr : List Event} :
    originalSection off data rg = some sec →
    SectionLimited.new (Reader.new sec rg.1) = .ok s → s.count = count →
    s.collect readReader = .ok bodies →
    evs.map Event.payload = bodies.map Payload.codeEntry → Groups off data tr →
    Groups off data (⟨n, .codeStart count rg size⟩ :: (evs ++ tr))

theorem original_mid (off : Nat) (a b c : List UInt8) :
    originalSection off (a ++ b ++ c) (off + a.length, off + a.length + b.length) = some b := by
  unfold originalSection
  dsimp only
  rw [if_pos (by simp; omega)]
  have h1 : off + a.length + b.length - off = (a ++ b).length := by simp; omega
  have h2 : off + a.length - off = a.length := by omega
  rw [h1, h2, List.take_left, List.drop_left]

theorem placed {off : Nat} {pre buf : List UInt8} {n : Nat} {pl : Payload} (hn : n ≤ buf.length)
    (h : Fits pl (off + pre.length) (buf.take n)) : Placed off (pre ++ buf) pl := by
  cases pl with
  | unknown id contents rg =>
    obtain ⟨-, h1, h2, h3, h4⟩ := h
    have hl : (buf.take n).length = n := by simp; omega
    rw [hl] at h3
    obtain ⟨k, hk⟩ : ∃ k, rg.1 = off + pre.length + k := ⟨rg.1 - (off + pre.length), by omega⟩
    have hd : buf = buf.take k ++ contents ++ buf.drop n := by
      have e : rg.1 - (off + pre.length) = k := by omega
      rw [h2, e]
      have : (buf.take n).take k = buf.take k := by
        rw [List.take_take]
        congr 1
        omega
      rw [← this, List.take_append_drop, List.take_append_drop]
    have hkl : (buf.take k).length = k := by simp; omega
    have hr : rg = (off + (pre ++ buf.take k).length,
        off + (pre ++ buf.take k).length + contents.length) := by
      rw [List.length_append, hkl]
      ext <;> dsimp only <;> omega
    show originalSection off (pre ++ buf) rg = some contents
    rw [hr, show pre ++ buf = pre ++ buf.take k ++ contents ++ buf.drop n by
      conv => lhs; rw [hd]
      simp]
    exact original_mid ..
  | custom name rd =>
    obtain ⟨-, h1, h2, h3⟩ := h
    simp only [List.length_take] at h3
    show rd.rest.length ≤ _
    simp only [Reader.rest, List.length_drop, List.length_append]
    omega
  | _ => trivial

theorem drive_groups (off : Nat) (data : List UInt8) (hsize : off + data.length ≤ u64Max) :
    ∀ (N : Nat) {p : Parser} {pre buf : List UInt8} {tr : List Event}, tr.length ≤ N →
    Drive p [] buf [] tr none → p.encoding = .module → p.maxOffset = none →
    p.state = .sectionStart → data = pre ++ buf → p.offset = off + pre.length →
    Groups off data tr := by
  intro N
  induction N with
  | zero =>
    intro p pre buf tr hN h
    cases tr with
    | nil => cases h
    | cons => simp at hN
  | succ N ih =>
    intro p pre buf tr hN h hm hx hs hd ho
    have hl : p.offset + buf.length ≤ u64Max := by
      rw [ho]; rw [hd, List.length_append] at hsize; omega
    cases h with
    | @done _ p' _ _ _ n pl h1 h2 =>
      cases pl <;> first | cases h2; done | exact .fin
    | @step _ p' _ _ _ n pl q st' tr' _ h1 h2 h3 =>
      obtain ⟨r', q0, g1, rfl, rfl, g4⟩ := parse_step hx hl h1
      have hnl : r'.position ≤ buf.length := (parse_progress h1).1
      unfold parseReader at g1
      simp only [hs] at g1
      have hnc : ¬ IsComponent pl := by
        rintro ⟨_, _, rfl⟩
        rcases sectionStart_step hm hs g1 with ⟨o, h⟩ | ⟨h, -⟩ | ⟨_, _, _, _, _, h, -⟩
        · cases h
        · exact h
        · cases h
      obtain ⟨rfl, rfl, m1, m2, m3, -⟩ := module_next hm hx hnc h1 h2
      rcases sectionStart_step hm hs g1 with ⟨o, rfl⟩ | ⟨h4, h5⟩ |
        ⟨count, size, hdr, cb, tail, rfl, hb, hn, hcb, hdec, h5⟩
      · cases h2
      · refine .plain h4 (hd ▸ placed hnl (ho ▸ g4)) (ih (pre := pre ++ buf.take r'.position)
          (by simpa using hN) h3 m1 m2 h5 ?_ ?_)
        · rw [List.append_assoc, List.take_append_drop, hd]
        · rw [m3, ho, List.length_append, List.length_take, Nat.min_eq_left hnl, Nat.add_assoc]
      · have hn' : r'.position = (hdr ++ cb).length := by simpa using hn
        have hdrop : buf.drop r'.position = tail := by rw [hb, hn', List.drop_left]
        rw [hdrop] at h3
        have hbl : buf.length = (hdr ++ cb).length + tail.length := by rw [hb, List.length_append]
        obtain ⟨bodies, evs, tr1, bs, buf1, p1, rfl, k2, k3, rfl, k5, k6, k7, k8, k9, k10⟩ :=
          bodies_run count.toNat h3 m1 m2 (by rw [m3]; omega) h5
        have hlen : evs.length = bodies.length := by
          have := congrArg List.length k2
          simpa using this
        have hcbl : (hdr ++ cb).length = hdr.length + cb.length := List.length_append
        have hdata : data = (pre ++ hdr) ++ (cb ++ bs) ++ buf1 := by
          rw [hd, hb]; simp
        refine .code (s := ⟨(Reader.new (cb ++ bs) (p.offset + hdr.length)).advance cb.length, count⟩)
          (sec := cb ++ bs) (bodies := bodies) ?_ ?_ rfl ?_ k2 ?_
        · rw [hdata]
          have := original_mid off (pre ++ hdr) (cb ++ bs) buf1
          rw [← this]
          congr 1
          simp only [List.length_append, ho, k3, Prod.mk.injEq]
          omega
        · obtain ⟨v, e1, rfl⟩ := hdec (Reader.new (cb ++ bs) (p.offset + hdr.length)) bs rfl
          simp only [SectionLimited.new, e1]
        · have e1 := k5 ((Reader.new (cb ++ bs) (p.offset + hdr.length)).advance cb.length) []
            (by rw [Reader.rest_advance]; simp [Reader.new, Reader.rest])
            (by rw [m3]; simp only [Reader.originalPosition, Reader.advance, Reader.new]; omega)
          refine collectFrom_ok.2 ⟨_, e1, ?_⟩
          simp [Reader.eof, Reader.maxPosition, Reader.advance, Reader.new, k3]
        · refine ih (pre := pre ++ hdr ++ cb ++ bs) ?_ k10 k7 k8 k6 ?_ ?_
          · simp only [List.length_cons, List.length_append] at hN
            omega
          · rw [hd, hb]; simp
          · rw [k9, m3, ho]
            simp only [List.length_append]
            omega

/-- The first event of a run over a module. -/
theorem drive_module {off : Nat} {data : List UInt8} {tr : List Event}
    (hsize : off + data.length ≤ u64Max) (h : DriveAll (Parser.new off) data tr none) :
    ∃ n num enc rg tr', tr = ⟨n, .version num enc rg⟩ :: tr' ∧
      (enc = .module → num = 1 ∧ Groups off data tr') := by
  have key : ∀ n pl p', parse (Parser.new off) data true = (.ok (.parsed n pl), p') →
      ∃ num enc rg, pl = .version num enc rg ∧ p'.state = .sectionStart ∧ p'.encoding = enc ∧
        (enc = .module → num = 1) := by
    intro n pl p' h1
    obtain ⟨r', q0, g1, rfl, rfl, -⟩ := parse_step rfl hsize h1
    unfold parseReader parseHeader at g1
    dsimp only [Parser.new] at g1
    repeat' split at g1
    all_goals cases g1
    · exact ⟨_, _, _, rfl, rfl, rfl, fun _ => (‹_ ∧ _› : _ ∧ _).1⟩
    · exact ⟨_, _, _, rfl, rfl, rfl, nofun⟩
  cases h with
  | done h1 h2 =>
    obtain ⟨num, enc, rg, rfl, -⟩ := key _ _ _ h1
    cases h2
  | @step _ p' _ _ _ n pl q st' tr' _ h1 h2 h3 =>
    obtain ⟨num, enc, rg, rfl, e1, e2, e3⟩ := key _ _ _ h1
    refine ⟨n, num, enc, rg, tr', rfl, fun he => ⟨e3 he, ?_⟩⟩
    subst he
    have hnl : n ≤ data.length := (parse_progress h1).1
    obtain ⟨rfl, rfl, m1, m2, m3, -⟩ := module_next rfl rfl (by rintro ⟨_, _, h⟩; cases h) h1 h2
    refine drive_groups off data hsize tr'.length (pre := data.take n) (Nat.le_refl _) h3 m1 m2 e1
      (List.take_append_drop ..).symm ?_
    rw [m3, List.length_take, Nat.min_eq_left hnl]
    rfl

end Verif.Remod
