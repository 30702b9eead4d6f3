import Verif.Parser.Run
/-! Payloads agree with the input bytes. -/
namespace Verif.Parser
open Verif.Reader

theorem skipBytes_eq (n : Nat) (r : Reader) :
    skip (do let _ ← readBytes n) r = if n ≤ r.rest.length then
      .ok (⟨r.rest.take n, 0, r.originalPosition⟩, r.advance n)
    else .error (.eof r.originalPosition (n - r.rest.length)) := by
  unfold skip
  simp only [bind_apply, readBytes_eq]
  by_cases h : n ≤ r.rest.length
  · simp only [if_pos h, pure_apply]
    simp [Reader.rest]
  · simp only [if_neg h]

theorem readVarUBig_frame (W : Nat) (nm : String) (res : BitVec W) (sh : Nat) (r : Reader)
    {v r'} (hr : r.position ≤ r.buffer.length) (h : readVarUBig W nm res sh r = .ok (v, r')) :
    r'.buffer = r.buffer ∧ r'.originalOffset = r.originalOffset := by
  have := (WBAt.readVarUBig W nm res sh r hr).bounds _ _ h
  exact ⟨this.1, this.2.1⟩

theorem sectionOf_ok {n : Nat} {ctor : Reader → Except Err α} {r r' : Reader} {a : α}
    (h : sectionOf n ctor r = .ok (a, r')) :
    n ≤ r.rest.length ∧ r' = r.advance n ∧
      ctor ⟨r.rest.take n, 0, r.originalPosition⟩ = .ok a := by
  unfold sectionOf at h
  obtain ⟨s, r1, h1, h2⟩ := bind_ok.mp h
  rw [skipBytes_eq] at h1
  split at h1
  · rename_i hl
    cases h1
    unfold noHint at h2
    split at h2
    · cases h2; exact ⟨hl, rfl, by assumption⟩
    · cases h2
  · cases h1

theorem singleItem_ok {stop len : Nat} {item : R α} {desc : String} {r r' : Reader} {x}
    (hs : stop = r.originalPosition + len) (hl : len < 2 ^ 32)
    (h : singleItem stop item desc r = .ok (x, r')) :
    len ≤ r.rest.length ∧ r' = r.advance len ∧ x.2 = (r.originalPosition, stop) ∧
    ∃ c, item ⟨r.rest.take len, 0, r.originalPosition⟩ = .ok (x.1, c) := by
  unfold singleItem at h
  obtain ⟨_, _, h0, h⟩ := bind_ok.mp h
  cases h0
  obtain ⟨s, r1, h1, h2⟩ := bind_ok.mp h
  have : (stop - r.originalPosition) % 2 ^ 32 = len := by
    rw [hs, Nat.add_sub_cancel_left, Nat.mod_eq_of_lt hl]
  rw [this, skipBytes_eq] at h1
  split at h1
  case isFalse => cases h1
  rename_i hle
  cases h1
  obtain ⟨⟨a, c⟩, r2, h3, h4⟩ := bind_ok.mp h2
  unfold noHint at h3
  split at h3
  case h_2 => cases h3
  rename_i hi
  cases h3
  dsimp only at h4
  split at h4
  · cases h4
  · cases h4
    exact ⟨hle, rfl, rfl, c, hi⟩

theorem limitedNew_frame {r r' : Reader} {c} (hr : r.position ≤ r.buffer.length)
    (h : limitedNew r = .ok (c, r')) :
    r'.buffer = r.buffer ∧ r'.originalOffset = r.originalOffset := by
  have := (WellBehaved.readVarU32 r hr).bounds _ _ h
  exact ⟨this.1, this.2.1⟩

theorem customNew_frame {r r' : Reader} {c} (hr : r.position ≤ r.buffer.length)
    (h : customNew r = .ok (c, r')) :
    r'.buffer = r.buffer ∧ r'.originalOffset = r.originalOffset := by
  have := (WellBehaved.readString r hr).bounds _ _ h
  exact ⟨this.1, this.2.1⟩

/-- A reader over the last part of what was consumed. -/
theorem shows {d : List UInt8} {off k n : Nat} {rd : Reader} (hk : 0 < k)
    (hkd : k ≤ d.length)
    (hn : n ≤ (d.drop k).length) (h1 : rd.buffer = (d.drop k).take n)
    (h2 : rd.originalOffset = off + k) : ShowsEnd rd off (d.take (k + n)) := by
  have hl : n ≤ d.length - k := by simpa using hn
  refine ⟨by omega, ?_, ?_⟩
  · rw [h1, h2, show off + k - off = k by omega, List.drop_take]
    congr 1; omega
  · rw [h1, h2]
    simp only [List.length_take, List.length_drop]
    omega

theorem header_id {mo : Option Nat} {r r' : Reader} {h : Header}
    (hh : readSectionHeader mo r = .ok (h, r')) : r.rest.head? = some h.id := by
  unfold readSectionHeader at hh
  obtain ⟨i, r1, h1, hh⟩ := bind_ok.mp hh
  cases h1
  obtain ⟨id, r2, h2, hh⟩ := bind_ok.mp hh
  split at hh
  · cases hh
  · obtain ⟨_, _, h3, hh⟩ := bind_ok.mp hh
    obtain ⟨len, r4, h4, hh⟩ := bind_ok.mp hh
    obtain ⟨_, _, h5, hh⟩ := bind_ok.mp hh
    obtain ⟨_, h6⟩ := readU8_ok h2
    split at hh
    · cases hh; rw [h6]; rfl
    · cases hh

theorem head_take {d : List UInt8} {n : Nat} {x : UInt8} (hn : 0 < n) (h : d.head? = some x) :
    (d.take n).head? = some x := by
  cases d with
  | nil => cases h
  | cons a d => cases n; omega; simpa using h

/-- `parseSection` after the header: payloads fit. -/
theorem parseSection_fits {p p' : Parser} {h : Header} {d : List UInt8} {off k : Nat}
    {r' : Reader} {pl} (hid : d.head? = some h.id) (hk : 0 < k) (hkd : k ≤ d.length)
    (hstart : h.start = off + k) (hstop : h.stop = h.start + h.len.toNat)
    (hh : parseSection p h ⟨d, k, off⟩ = (.ok (pl, r'), p')) :
    Fits pl off (d.take r'.position) := by
  have limited : ∀ {n c rd}, sectionOf n limitedNew ⟨d, k, off⟩ = .ok ((c, rd), r') →
      Fits (.limited h.id c rd) off (d.take r'.position) := by
    intro n c rd hs
    obtain ⟨hl, rfl, hc⟩ := sectionOf_ok hs
    obtain ⟨b1, b2⟩ := limitedNew_frame (Nat.zero_le _) hc
    exact ⟨head_take (by simp; omega) hid, shows hk hkd hl b1 b2⟩
  have unk : ∀ {pl}, unknownBody p h ⟨d, k, off⟩ = (.ok (pl, r'), p') →
      Fits pl off (d.take r'.position) := by
    intro pl hh
    unfold unknownBody at hh
    obtain ⟨⟨o, c⟩, h1, h2⟩ := runBody_ok hh
    cases h2
    obtain ⟨_, _, h3, h4⟩ := bind_ok.mp h1
    cases h3
    obtain ⟨_, _, h5, h6⟩ := bind_ok.mp h4
    rw [readBytes_eq] at h5
    split at h5
    case isFalse => cases h5
    rename_i hle
    cases h5; cases h6
    obtain ⟨s1, s2, s3⟩ := shows (off := off)
      (rd := ⟨(d.drop k).take h.len.toNat, 0, off + k⟩) hk hkd hle rfl rfl
    refine ⟨head_take (by simp; omega) hid, s1, s2, ?_, ?_⟩
    · rw [hstop, hstart]
      simp [Reader.rest] at hle ⊢
      omega
    · rw [hstop, hstart]
      simp [Reader.rest, Reader.originalPosition] at hle ⊢
      omega
  have single : ∀ {α : Type} {item : R α} {desc} {x : α × (Nat × Nat)},
      singleItem h.stop item desc ⟨d, k, off⟩ = .ok (x, r') →
      off < x.2.1 ∧ x.2.1 ≤ x.2.2 ∧ x.2.2 = off + (d.take r'.position).length ∧ 0 < r'.position := by
    intro α item desc x hs
    obtain ⟨hl, rfl, hx, _⟩ := singleItem_ok (len := h.len.toNat)
      (by rw [hstop, hstart]; rfl) h.len.isLt hs
    rw [hx, hstop, hstart]
    simp [Reader.rest] at hl
    simp [Reader.originalPosition]
    omega
  unfold parseSection at hh
  split at hh
  · rename_i h0
    obtain ⟨⟨c, rd⟩, h1, h2⟩ := runBody_ok hh
    cases h2
    obtain ⟨hl, rfl, hc⟩ := sectionOf_ok h1
    obtain ⟨b1, b2⟩ := customNew_frame (Nat.zero_le _) hc
    exact ⟨head_take (by simp; omega) (h0 ▸ hid), shows hk hkd hl b1 b2⟩
  · split at hh
    · split at hh
      · split at hh
        · cases hh
        · unfold moduleBody at hh
          split at hh
          · obtain ⟨⟨c, rd⟩, h1, h2⟩ := runBody_ok hh
            cases h2
            exact limited h1
          split at hh
          · rename_i h8
            obtain ⟨x, h1, h2⟩ := runBody_ok hh
            cases h2
            obtain ⟨s1, s2, s3, s4⟩ := single h1
            exact ⟨head_take s4 (h8 ▸ hid), s1, s2, s3⟩
          split at hh
          · rename_i h10
            obtain ⟨⟨c, n⟩, h1, h2⟩ := runBody_ok hh
            dsimp only at h2
            split at h2
            · cases h2
            · cases h2
              unfold delimited at h1
              obtain ⟨_, _, h3, h4⟩ := bind_ok.mp h1
              cases h3
              obtain ⟨_, r2, h5, h6⟩ := bind_ok.mp h4
              obtain ⟨_, _, h7, h8⟩ := bind_ok.mp h6
              cases h7
              split at h8
              case isFalse => cases h8
              rename_i hle
              cases h8
              have b := (WellBehaved.readVarU32 ⟨d, k, off⟩ hkd).bounds _ _ h5
              simp only at b
              have hpos : 0 < r'.position := by omega
              refine ⟨head_take hpos (h10 ▸ hid), ?_, ?_, ?_⟩
              · rw [hstart]; omega
              · rw [hstart]; simp only [List.length_take]; omega
              · rw [hstop, hstart]
                simp only [Reader.originalPosition, b.2.1] at hle ⊢
                simp only [List.length_take]; omega
          split at hh
          · obtain ⟨⟨c, rd⟩, h1, h2⟩ := runBody_ok hh
            dsimp only at h2
            split at h2
            · cases h2
            · cases h2; exact limited h1
          split at hh
          · rename_i h12
            obtain ⟨x, h1, h2⟩ := runBody_ok hh
            cases h2
            obtain ⟨s1, s2, s3, s4⟩ := single h1
            exact ⟨head_take s4 (h12 ▸ hid), s1, s2, s3⟩
          · obtain ⟨⟨c, rd⟩, h1, h2⟩ := runBody_ok hh
            cases h2
            exact limited h1
      · exact unk hh
    · unfold componentBody at hh
      dsimp only at hh
      split at hh
      · rename_i h14
        split at hh
        · cases hh
        · cases hh
          refine ⟨head_take hk ?_, ?_, ?_, rfl⟩
          · rw [hid]
            rcases h14 with h14 | h14 <;> simp [h14]
          · rw [hstart]; simp only [List.length_take]; omega
          · rw [hstop]; simp only; omega
      split at hh
      · rename_i h9
        split at hh
        · cases hh
        · obtain ⟨x, h1, h2⟩ := runBody_ok hh
          cases h2
          obtain ⟨s1, s2, s3, s4⟩ := single h1
          exact ⟨head_take s4 (h9 ▸ hid), s1, s2, s3⟩
      split at hh
      · obtain ⟨⟨c, rd⟩, h1, h2⟩ := runBody_ok hh
        cases h2
        exact limited h1
      · exact unk hh

theorem sectionStart_fits {p p' : Parser} {d : List UInt8} {off : Nat} {e r' pl}
    (hh : parseSectionStart p (Reader.new d off) e = (.ok (pl, r'), p')) :
    Fits pl off (d.take r'.position) := by
  unfold parseSectionStart at hh
  split at hh
  · split at hh
    · cases hh
    · split at hh
      · cases hh
      · cases hh; simp [Fits, Reader.new]
  · split at hh
    · cases hh
    · split at hh
      · cases hh
      · rename_i h r1 h1
        obtain ⟨f1, f2, f3, f4, f5⟩ := header_facts h1
        have b := (WellBehaved.readSectionHeader p.maxOffset (Reader.new d off)
          (Nat.zero_le _)).bounds _ _ h1
        have hid := header_id h1
        obtain ⟨bf, ps, oo⟩ := r1
        simp only [Reader.new] at b f5
        obtain ⟨rfl, rfl, b3, b4⟩ := b
        exact parseSection_fits (by simpa [Reader.rest, Reader.new] using hid) (by omega) b4 f1 f2 hh

theorem parseReader_fits {p p' : Parser} {d : List UInt8} {off : Nat} {e r' pl}
    (hh : parseReader p (Reader.new d off) e = (.ok (pl, r'), p')) :
    Fits pl off (d.take r'.position) := by
  unfold parseReader at hh
  split at hh
  · unfold parseHeader at hh
    dsimp only at hh
    split at hh
    · cases hh
    · rename_i v r1 h1
      have h8 : 8 ≤ d.length ∧ r1.position = 8 ∧ r1.originalOffset = off := by
        unfold readHeaderVersion at h1
        obtain ⟨m, r2, h2, h3⟩ := bind_ok.mp h1
        rw [readBytes_eq] at h2
        split at h2
        case isFalse => cases h2
        cases h2
        split at h3
        · obtain ⟨_, _, _, h4⟩ := bind_ok.mp h3
          cases h4
        · unfold readU32 at h3
          obtain ⟨m, r2, h4, h5⟩ := bind_ok.mp h3
          rw [readBytes_eq] at h4
          split at h4
          case isFalse => cases h4
          rename_i hl
          cases h4; cases h5
          simp [Reader.rest, Reader.new] at hl
          refine ⟨by omega, rfl, rfl⟩
      have : ∀ enc num, Fits (.version num enc ((Reader.new d off).originalPosition,
          r1.originalPosition)) off (d.take r1.position) := by
        intro enc num
        refine ⟨?_, ?_⟩
        · simp [Reader.originalPosition, Reader.new, h8.2]
        · rw [h8.2.1, List.length_take]; omega
      repeat' split at hh
      · cases hh; exact this _ _
      · cases hh; exact this _ _
      · cases hh
  · exact sectionStart_fits hh
  · repeat' split at hh
    · exact sectionStart_fits hh
    · cases hh
    · unfold parseFunctionBody at hh
      obtain ⟨⟨a, l⟩, h1, h2⟩ := runBody_ok hh
      cases h2
      unfold delimited at h1
      obtain ⟨_, _, h2, h3⟩ := bind_ok.mp h1
      cases h2
      obtain ⟨_, r2, h4, h5⟩ := bind_ok.mp h3
      obtain ⟨_, _, h6, h7⟩ := bind_ok.mp h5
      cases h6
      split at h7
      case isFalse => cases h7
      cases h7
      unfold readReader at h4
      obtain ⟨n, r3, h8, h9⟩ := bind_ok.mp h4
      have hlt := readVarU32_lt h8
      have b3 := (WellBehaved.readVarU32 _ (Nat.zero_le _)).bounds _ _ h8
      rw [skipBytes_eq] at h9
      split at h9
      case isFalse => cases h9
      rename_i hle
      cases h9
      obtain ⟨bf, ps, oo⟩ := r3
      simp only [Reader.new] at b3 hlt
      obtain ⟨rfl, rfl, b5, b6⟩ := b3
      exact shows (by omega) b6 hle rfl rfl

/-- Sequences of events tile the input. -/
theorem drive_tiles {p : Parser} {st : List Parser} {buf : List UInt8}
    {fut : List (List UInt8)} {tr out} (h : Drive p st buf fut tr out) :
    ∀ {a}, Good p st (buf ++ fut.flatten).length →
      (p.offset = a ∨ (buf ++ fut.flatten).length = 0) →
      Tiles a (buf ++ fut.flatten) tr := by
  have key : ∀ {p p' : Parser} {buf : List UInt8} {fut : List (List UInt8)} {a n pl},
      parse p buf fut.isEmpty = (.ok (.parsed n pl), p') →
      (p.offset = a ∨ (buf ++ fut.flatten).length = 0) →
      n ≤ (buf ++ fut.flatten).length ∧ Fits pl a ((buf ++ fut.flatten).take n) := by
    intro p p' buf fut a n pl h1 ho
    obtain ⟨hn, hpr⟩ := parse_progress h1
    refine ⟨by simp; omega, ?_⟩
    rw [List.take_append_of_le_length hn]
    obtain ⟨d, e', r', q, hd, _, hp, he, rfl, hnd, _, _, _, hl, hml⟩ := parse_eff h1
    have hf := parseReader_fits hp
    have hdt : d.take r'.position = buf.take r'.position := by
      rw [hd, List.take_take, Nat.min_eq_left hml]
    rw [hdt] at hf
    rcases ho with rfl | ho
    · exact hf
    · rcases hpr with ⟨⟨o, rfl⟩, _⟩ | ⟨_, hpos⟩
      · exact hf
      · simp at ho
        rw [ho.1] at hn
        simp at hn; omega
  induction h with
  | @more p p' st buf c fut k tr out h1 h2 ih =>
    intro a g ho
    have H : p.maxOffset = none → p.offset + (buf ++ (c :: fut).flatten).length ≤ u64Max :=
      fun _ => g.room
    obtain ⟨k1, k2, k3, k4, k5⟩ := parse_more_mono (e := true) H h1
    have eqb : buf ++ c ++ fut.flatten = buf ++ (c :: fut).flatten := by simp
    rw [eqb] at ih
    exact ih (g.congr k3 k2) (by rw [k2]; exact ho)
  | @step p p' st buf fut n pl q st' tr out h1 h2 h3 ih =>
    intro a g ho
    obtain ⟨k1, k2⟩ := key h1 ho
    refine ⟨k1, k2, ?_⟩
    have hn := (parse_progress h1).1
    have ed : (buf ++ fut.flatten).drop n = buf.drop n ++ fut.flatten :=
      List.drop_append_of_le_length hn
    obtain ⟨g', ho'⟩ := Good.next' g (by simp) (fun he => by
      cases fut with
      | nil => simp
      | cons c f => cases he) h1 h2
    rw [ed]
    have hl : (buf.drop n ++ fut.flatten).length = (buf ++ fut.flatten).length - n := by
      rw [← ed, List.length_drop]
    refine ih (by rw [hl]; exact g') ?_
    rw [hl]
    rcases ho with rfl | ho
    · exact ho'
    · right; omega
  | @done p p' st buf fut n pl h1 h2 =>
    intro a g ho
    obtain ⟨k1, k2⟩ := key h1 ho
    exact ⟨k1, k2, trivial⟩
  | @err p p' st buf fut e h1 => intro a g ho; trivial

theorem totalConsumed_cons (ev : Event) (tr) :
    totalConsumed (ev :: tr) = ev.consumed + totalConsumed tr := by
  simp [totalConsumed]

theorem drive_consumed_module {p : Parser} {st : List Parser} {buf : List UInt8}
    {fut : List (List UInt8)} {tr out} (h : Drive p st buf fut tr out) :
    st = [] → p.encoding = .module → p.maxOffset = none →
    p.offset + (buf ++ fut.flatten).length ≤ u64Max →
    (∀ ev ∈ tr, ¬ IsComponent ev.payload) → fut = [] → out = none →
    totalConsumed tr = (buf ++ fut.flatten).length ∧
    ∃ tr', tr = tr' ++ [⟨0, .endOf (p.offset + (buf ++ fut.flatten).length)⟩] := by
  induction h with
  | more h1 h2 ih => intro _ _ _ _ _ hf; cases hf
  | @step p p' st buf fut n pl q st' tr out h1 h2 h3 ih =>
    intro hst hm hx hb hns hf ho
    subst hst hf ho
    obtain ⟨rfl, rfl, f1, f2, f3, f4⟩ :=
      module_next hm hx (hns ⟨n, pl⟩ (List.mem_cons_self ..)) h1 h2
    have hb' : p.offset + buf.length ≤ u64Max := by simpa using hb
    obtain ⟨h4, tr', h5⟩ := ih rfl f1 f2 (by simp [f3]; omega)
      (fun ev he => hns ev (by simp [he])) rfl rfl
    constructor
    · rw [totalConsumed_cons, h4]; simp; omega
    · refine ⟨⟨n, pl⟩ :: tr', ?_⟩
      rw [h5, f3]
      simp; omega
  | @done p p' st buf fut n pl h1 h2 =>
    intro hst hm hx hb hns hf ho
    subst hst hf
    have hb' : p.offset + buf.length ≤ u64Max := by simpa using hb
    have hml : buf.length ≤ p.maxLen := by simp [Parser.maxLen, hx]; omega
    obtain ⟨d, e', r', q, hd, hs, hp, he, rfl, hnd, _, _, _, hl, _⟩ := parse_eff h1
    obtain ⟨_, rfl⟩ := hs hml
    cases he with
    | plain e1 e2 =>
      unfold next at h2
      split at h2
      · cases h2
      · exact absurd ⟨_, rfl⟩ e2
      · cases h2
    | nested b s l e1 => subst e1; cases h2
    | fin e1 e2 e3 =>
      have hd : d = [] := by simpa [Reader.rest, Reader.new] using e3
      subst e1 e2 hd
      exact ⟨rfl, [], rfl⟩
  | err h1 => intro _ _ _ _ _ _ ho; cases ho

end Verif.Parser
