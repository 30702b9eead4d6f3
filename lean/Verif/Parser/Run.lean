import Verif.Parser.Step
/-! Lemmas about whole runs of the driver. -/
namespace Verif.Parser
open Verif.Reader

/-! ## Effects of a step -/

def IsNested (pl : Payload) : Prop := ∃ b q rg, pl = .nested b q rg
def IsEnd (pl : Payload) : Prop := ∃ o, pl = .endOf o

theorem runBody_ok {p : Parser} {body : R α} {fin : α → Nat → Except Err Payload × Parser}
    {r r' : Reader} {pl p'} (h : runBody p body fin r = (.ok (pl, r'), p')) :
    ∃ a, body r = .ok (a, r') ∧ fin a r'.originalPosition = (.ok pl, p') := by
  unfold runBody at h
  split at h
  · cases h
  · split at h
    · cases h
    · rename_i h1 _ _ _ h2
      cases h; exact ⟨_, h1, h2⟩

theorem readVarU32_lt {r r' : Reader} {v} (h : readVarU32 r = .ok (v, r')) :
    r.position < r'.position := by
  unfold readVarU32 at h
  split at h
  · cases h
  · rename_i b r5 h6
    have hlt := readU8_lt h6
    obtain ⟨rfl, _⟩ := readU8_ok h6
    split at h
    · cases h; simp
    · have := (WBAt.readVarUBig 32 "u32" ((b &&& 0x7F).toBitVec.setWidth 32) 7
        (r.advance 1) (by simp at hlt ⊢; omega)).bounds _ _ h
      simp at this; omega

theorem header_facts {mo : Option Nat} {r r' : Reader} {h : Header}
    (hh : readSectionHeader mo r = .ok (h, r')) :
    h.start = r'.originalPosition ∧ h.stop = h.start + h.len.toNat ∧ h.stop ≤ u64Max ∧
    h.stop ≤ mo.getD u64Max ∧ r.position + 2 ≤ r'.position := by
  unfold readSectionHeader at hh
  obtain ⟨i, r1, h1, hh⟩ := bind_ok.mp hh
  cases h1
  obtain ⟨id, r2, h2, hh⟩ := bind_ok.mp hh
  split at hh
  · cases hh
  · obtain ⟨_, _, h3, hh⟩ := bind_ok.mp hh
    cases h3
    obtain ⟨len, r4, h4, hh⟩ := bind_ok.mp hh
    obtain ⟨_, _, h5, hh⟩ := bind_ok.mp hh
    cases h5
    split at hh
    · rename_i hc
      cases hh
      obtain ⟨rfl, _⟩ := readU8_ok h2
      refine ⟨rfl, rfl, hc.1, hc.2, ?_⟩
      have := readVarU32_lt (r := r.advance 1) h4
      simp at this
      omega
    · cases hh

theorem moduleBody_fields {p p' : Parser} {h : Header} {r r' : Reader} {pl}
    (hh : moduleBody p h r = (.ok (pl, r'), p')) :
    ¬ IsNested pl ∧ ¬ IsEnd pl ∧ p'.offset = p.offset ∧ p'.maxOffset = p.maxOffset ∧
      p'.encoding = p.encoding ∧ p'.order = p.order ∧ ¬ IsStart pl := by
  unfold moduleBody at hh
  repeat' split at hh
  all_goals obtain ⟨a, h1, h2⟩ := runBody_ok hh
  all_goals dsimp only at h2
  all_goals try split at h2
  all_goals cases h2
  all_goals exact ⟨by rintro ⟨_, _, _, ⟨⟩⟩, by rintro ⟨_, ⟨⟩⟩, rfl, rfl, rfl, rfl,
    by rintro ⟨_, _, _, _, ⟨⟩⟩⟩

theorem unknownBody_fields {p p' : Parser} {h : Header} {r r' : Reader} {pl}
    (hh : unknownBody p h r = (.ok (pl, r'), p')) :
    ¬ IsNested pl ∧ ¬ IsEnd pl ∧ p' = p ∧ ¬ IsStart pl := by
  unfold unknownBody at hh
  obtain ⟨a, h1, h2⟩ := runBody_ok hh
  cases h2
  exact ⟨by rintro ⟨_, _, _, ⟨⟩⟩, by rintro ⟨_, ⟨⟩⟩, rfl, by rintro ⟨_, _, _, _, ⟨⟩⟩⟩

theorem updateOrder_ok {p p' : Parser} {o : Order} {n : Nat} (h : updateOrder p o n = .ok p') :
    p' = { p with order := (o, n) } := by
  unfold updateOrder at h
  split at h <;> cases h
  rfl

theorem parseSection_fields {p p' : Parser} {h : Header} {r r' : Reader} {pl}
    (hh : parseSection p h r = (.ok (pl, r'), p')) :
    (¬ IsNested pl ∧ ¬ IsEnd pl ∧ p'.offset = p.offset ∧ p'.maxOffset = p.maxOffset ∧
      p'.encoding = p.encoding) ∨
    (p.encoding = .component ∧ (∃ b, pl = .nested b
      { Parser.new h.start with maxOffset := some h.stop } (h.start, h.stop)) ∧ r' = r ∧
      p' = { p with offset := p.offset + h.len.toNat }) := by
  unfold parseSection at hh
  split at hh
  · obtain ⟨a, h1, h2⟩ := runBody_ok hh
    cases h2
    exact .inl ⟨by rintro ⟨_, _, _, ⟨⟩⟩, by rintro ⟨_, ⟨⟩⟩, rfl, rfl, rfl⟩
  · split at hh
    · split at hh
      · split at hh
        · cases hh
        · rename_i hu
          have e := updateOrder_ok hu
          obtain ⟨h1, h2, h3, h4, h5, _⟩ := moduleBody_fields hh
          left
          refine ⟨h1, h2, ?_, ?_, ?_⟩
          · rw [h3, e]
          · rw [h4, e]
          · rw [h5, e]
      · obtain ⟨h1, h2, rfl, _⟩ := unknownBody_fields hh
        exact .inl ⟨h1, h2, rfl, rfl, rfl⟩
    · rename_i hc
      unfold componentBody at hh
      dsimp only at hh
      repeat' split at hh
      · cases hh
      · cases hh
        exact .inr ⟨hc, ⟨_, rfl⟩, rfl, rfl⟩
      · cases hh
      · obtain ⟨a, h1, h2⟩ := runBody_ok hh
        cases h2
        exact .inl ⟨by rintro ⟨_, _, _, ⟨⟩⟩, by rintro ⟨_, ⟨⟩⟩, rfl, rfl, rfl⟩
      · obtain ⟨a, h1, h2⟩ := runBody_ok hh
        cases h2
        exact .inl ⟨by rintro ⟨_, _, _, ⟨⟩⟩, by rintro ⟨_, ⟨⟩⟩, rfl, rfl, rfl⟩
      · obtain ⟨h1, h2, rfl, _⟩ := unknownBody_fields hh
        exact .inl ⟨h1, h2, rfl, rfl, rfl⟩

/-- What one successful step of `parseReader` does to the offsets. -/
inductive Eff (p : Parser) (r : Reader) (pl : Payload) (r' : Reader) (p' : Parser) : Prop where
  | plain (h1 : ¬ IsNested pl) (h2 : ¬ IsEnd pl) (h3 : p'.offset = p.offset)
      (h4 : p'.maxOffset = p.maxOffset) (h5 : r.position < r'.position)
      (h6 : p'.encoding = p.encoding ∨ ∃ num rg, pl = .version num p'.encoding rg)
  | nested (b : Bool) (start len : Nat)
      (h1 : pl = .nested b { Parser.new start with maxOffset := some (start + len) }
        (start, start + len))
      (h2 : start = r'.originalPosition) (h3 : start + len ≤ u64Max)
      (h4 : start + len ≤ p.maxOffset.getD u64Max) (h5 : p'.offset = p.offset + len)
      (h6 : p'.maxOffset = p.maxOffset) (h7 : r.position < r'.position)
      (h8 : p.encoding = .component) (h9 : p'.encoding = .component)
  | fin (e : pl = .endOf r.originalPosition) (h1 : r' = r) (h2 : r.rest = [])
      (h3 : p'.offset = p.offset) (h4 : p'.maxOffset = p.maxOffset)

theorem sectionStart_eff {p p' : Parser} {r r' : Reader} {e pl}
    (hr : r.position ≤ r.buffer.length)
    (hh : parseSectionStart p r e = (.ok (pl, r'), p')) : Eff p r pl r' p' := by
  unfold parseSectionStart at hh
  split at hh
  · rename_i he
    split at hh
    · cases hh
    · split at hh
      · cases hh
      · cases hh
        refine .fin rfl rfl ?_ rfl rfl
        have := he.2
        rw [Reader.bytesRemaining_eq] at this
        exact List.eq_nil_of_length_eq_zero this
  · split at hh
    · cases hh
    · split at hh
      · cases hh
      · rename_i h r1 h1
        obtain ⟨f1, f2, f3, f4, f5⟩ := header_facts h1
        have b1 := (WellBehaved.readSectionHeader p.maxOffset r hr).bounds _ _ h1
        have b2 := (SAt.parseSection p h (r := r1) (by rw [b1.1]; exact b1.2.2.2)).bounds _ _ _ hh
        rcases parseSection_fields hh with ⟨h1, h2, h3, h4, h5⟩ | ⟨hc, ⟨b, rfl⟩, rfl, rfl⟩
        · exact .plain h1 h2 h3 h4 (by omega) (.inl h5)
        · rw [f2] at f3 f4 ⊢
          exact .nested b h.start h.len.toNat rfl f1 f3 f4 rfl rfl (by omega) hc hc

theorem parseReader_eff {p p' : Parser} {r r' : Reader} {e pl}
    (hr : r.position ≤ r.buffer.length)
    (hh : parseReader p r e = (.ok (pl, r'), p')) : Eff p r pl r' p' := by
  unfold parseReader at hh
  split at hh
  · unfold parseHeader at hh
    dsimp only at hh
    split at hh
    · cases hh
    · rename_i v r1 h1
      have hlt : r.position < r1.position := by
        unfold readHeaderVersion at h1
        obtain ⟨m, r2, h2, h3⟩ := bind_ok.mp h1
        rw [readBytes_eq] at h2
        split at h2
        case isFalse => cases h2
        rename_i hl
        rw [Reader.length_rest] at hl
        cases h2
        split at h3
        · obtain ⟨_, _, _, h4⟩ := bind_ok.mp h3
          cases h4
        · have := (WellBehaved.readU32 (r.advance 4) (by simp; omega)).bounds _ _ h3
          simp at this
          omega
      repeat' split at hh
      · cases hh
        refine .plain ?_ ?_ rfl rfl hlt (.inr ⟨_, _, rfl⟩)
        · rintro ⟨_, _, _, ⟨⟩⟩
        · rintro ⟨_, ⟨⟩⟩
      · cases hh
        refine .plain ?_ ?_ rfl rfl hlt (.inr ⟨_, _, rfl⟩)
        · rintro ⟨_, _, _, ⟨⟩⟩
        · rintro ⟨_, ⟨⟩⟩
      · cases hh
  · exact sectionStart_eff hr hh
  · repeat' split at hh
    · cases sectionStart_eff hr hh with
      | plain h1 h2 h3 h4 h5 h6 => exact .plain h1 h2 h3 h4 h5 h6
      | nested b s l h1 h2 h3 h4 h5 h6 h7 h8 h9 => exact .nested b s l h1 h2 h3 h4 h5 h6 h7 h8 h9
      | fin e h1 h2 h3 h4 => exact .fin e h1 h2 h3 h4
    · cases hh
    · unfold parseFunctionBody at hh
      obtain ⟨a, h1, h2⟩ := runBody_ok hh
      cases h2
      have hlt : r.position < r'.position := by
        unfold delimited at h1
        obtain ⟨_, _, h2, h3⟩ := bind_ok.mp h1
        cases h2
        obtain ⟨_, r2, h4, h5⟩ := bind_ok.mp h3
        obtain ⟨_, _, h6, h7⟩ := bind_ok.mp h5
        cases h6
        split at h7
        case isFalse => cases h7
        cases h7
        unfold readReader at h4
        obtain ⟨n, r3, h8, h9⟩ := bind_ok.mp h4
        have b3 := (WellBehaved.readVarU32 r hr).bounds _ _ h8
        have b4 := (WellBehaved.skip ((WellBehaved.readBytes n.toNat).bind fun _ => .pure _)
          r3 (by rw [b3.1]; exact b3.2.2.2)).bounds _ _ h9
        have := readVarU32_lt h8
        omega
      refine .plain ?_ ?_ rfl rfl hlt (.inl rfl)
      · rintro ⟨_, _, _, ⟨⟩⟩
      · rintro ⟨_, ⟨⟩⟩

/-- What one successful call of `parse` does. `d` is the data it looked at. -/
theorem parse_eff {p p' : Parser} {b : List UInt8} {e n pl}
    (h : parse p b e = (.ok (.parsed n pl), p')) :
    ∃ d e' r' q, d = b.take p.maxLen ∧ (b.length ≤ p.maxLen → e' = e ∧ d = b) ∧
      parseReader p (Reader.new d p.offset) e' = (.ok (pl, r'), q) ∧
      Eff p (Reader.new d p.offset) pl r' q ∧ n = r'.position ∧ n ≤ d.length ∧
      r'.buffer = d ∧ r'.originalOffset = p.offset ∧
      p' = { q with offset := q.offset + n } ∧ n ≤ b.length ∧ n ≤ p.maxLen := by
  by_cases hb : b.length ≤ p.maxLen
  · rw [parse_short hb] at h
    obtain ⟨r', q, h1, rfl, rfl⟩ := finish_parsed h
    have bd := (StepR.parseReader p (r := Reader.new b p.offset) (Nat.zero_le _)).bounds _ _ _ _ h1
    exact ⟨b, e, r', q, (List.take_of_length_le hb).symm, fun _ => ⟨rfl, rfl⟩, h1,
      parseReader_eff (Nat.zero_le _) h1, rfl, bd.2.2.2, bd.1, bd.2.1, rfl, bd.2.2.2,
      Nat.le_trans bd.2.2.2 hb⟩
  · by_cases hm : p.maxOffset = none
    · exfalso
      unfold parse at h
      have h1 : (p.maxOffset.getD u64Max - p.offset < b.length) := by
        unfold Parser.maxLen at hb; omega
      dsimp only at h
      rw [if_pos ⟨h1, hm⟩] at h
      cases h
    · rw [parse_long (by omega) hm] at h
      obtain ⟨r', q, h1, rfl, rfl⟩ := finish_parsed h
      have bd := (StepR.parseReader p (r := Reader.new (b.take p.maxLen) p.offset)
        (Nat.zero_le _)).bounds _ _ _ _ h1
      have l : (b.take p.maxLen).length ≤ p.maxLen := by simp; omega
      have l2 : (b.take p.maxLen).length ≤ b.length := by simp; omega
      exact ⟨_, true, r', q, rfl, fun h => absurd h hb, h1, parseReader_eff (Nat.zero_le _) h1,
        rfl, bd.2.2.2, bd.1, bd.2.1, rfl, Nat.le_trans bd.2.2.2 l2, Nat.le_trans bd.2.2.2 l⟩

/-- Every successful step other than `End` consumes at least one byte. -/
theorem parse_progress {p p' : Parser} {b : List UInt8} {e n pl}
    (h : parse p b e = (.ok (.parsed n pl), p')) : n ≤ b.length ∧ (IsEnd pl ∧ n = 0 ∨
      ¬ IsEnd pl ∧ 0 < n) := by
  obtain ⟨d, e', r', q, _, _, _, he, rfl, _, _, _, _, hl, _⟩ := parse_eff h
  refine ⟨hl, ?_⟩
  cases he with
  | plain h1 h2 h3 h4 h5 => exact .inr ⟨h2, Nat.lt_of_le_of_lt (Nat.zero_le _) h5⟩
  | nested b s l h1 h2 h3 h4 h5 h6 h7 =>
    refine .inr ⟨?_, Nat.lt_of_le_of_lt (Nat.zero_le _) h7⟩
    rw [h1]; rintro ⟨_, ⟨⟩⟩
  | fin e h1 h2 h3 h4 => rw [h1]; exact .inl ⟨⟨_, e⟩, rfl⟩

/-- The driver always comes to an end. -/
theorem drive_total (p : Parser) (st : List Parser) (buf : List UInt8) (fut : List (List UInt8)) :
    ∃ tr out, Drive p st buf fut tr out := by
  cases hp : parse p buf fut.isEmpty with
  | mk res p' =>
  cases res with
  | error e => exact ⟨_, _, .err hp⟩
  | ok c =>
    cases c with
    | needMoreData k =>
      cases fut with
      | nil => exact absurd hp parse_eof_ne_more
      | cons c fut =>
        obtain ⟨tr, out, h⟩ := drive_total p' st (buf ++ c) fut
        exact ⟨tr, out, .more hp h⟩
    | parsed n pl =>
      have hpr := parse_progress hp
      cases hn : next pl p' st with
      | none => exact ⟨_, _, .done hp hn⟩
      | some x =>
        obtain ⟨q, st'⟩ := x
        have : 2 * (buf.drop n).length + st'.length < 2 * buf.length + st.length := by
          have hl : (buf.drop n).length = buf.length - n := by simp
          unfold next at hn
          split at hn
          · cases hn
            rcases hpr.2 with ⟨⟨_, ⟨⟩⟩, _⟩ | ⟨_, h2⟩
            simp only [List.length_cons]; omega
          · split at hn
            · cases hn
            · cases hn
              rcases hpr.2 with ⟨_, rfl⟩ | ⟨h1, _⟩
              · simp
              · exact absurd ⟨_, rfl⟩ h1
          · cases hn
            rename_i h1 h2
            rcases hpr.2 with ⟨⟨_, rfl⟩, _⟩ | ⟨_, h2⟩
            · exact absurd rfl (h2 _)
            · omega
        obtain ⟨tr, out, h⟩ := drive_total q st' (buf.drop n) fut
        exact ⟨_, _, .step hp hn h⟩
termination_by 2 * (buf ++ fut.flatten).length + st.length + fut.length
decreasing_by
  · simp [List.flatten_cons]
  · simp only [List.length_append] at this ⊢
    omega

/-- and its result is determined by the input and its division into chunks. -/
theorem drive_unique {p : Parser} {st : List Parser} {buf : List UInt8}
    {fut : List (List UInt8)} {tr out} (h : Drive p st buf fut tr out) :
    ∀ {tr' out'}, Drive p st buf fut tr' out' → tr' = tr ∧ out' = out := by
  induction h with
  | more h1 h2 ih =>
    intro tr' out' h'
    cases h' with
    | more h3 h4 => rw [h1] at h3; cases h3; exact ih h4
    | step h3 h4 h5 => simp [h1] at h3
    | done h3 h4 => simp [h1] at h3
    | err h3 => simp [h1] at h3
  | step h1 h2 h3 ih =>
    intro tr' out' h'
    cases h' with
    | more h4 h5 => simp [h4] at h1
    | step h4 h5 h6 =>
      rw [h1] at h4; cases h4
      rw [h2] at h5; cases h5
      obtain ⟨rfl, rfl⟩ := ih h6
      exact ⟨rfl, rfl⟩
    | done h4 h5 => rw [h1] at h4; cases h4; rw [h2] at h5; cases h5
    | err h4 => rw [h1] at h4; cases h4
  | done h1 h2 =>
    intro tr' out' h'
    cases h' with
    | more h4 h5 => simp [h4] at h1
    | step h4 h5 h6 => rw [h1] at h4; cases h4; rw [h2] at h5; cases h5
    | done h4 h5 => rw [h1] at h4; cases h4; exact ⟨rfl, rfl⟩
    | err h4 => rw [h1] at h4; cases h4
  | err h1 =>
    intro tr' out' h'
    cases h' with
    | more h4 h5 => simp [h4] at h1
    | step h4 h5 h6 => rw [h1] at h4; cases h4
    | done h4 h5 => rw [h1] at h4; cases h4
    | err h4 => rw [h1] at h4; cases h4; exact ⟨rfl, rfl⟩

/-! ## Invariant of the parser stack -/

/-- Each nested parser is limited to where its parent continues. -/
def Chain : Parser → List Parser → Prop
  | p, [] => p.maxOffset = none
  | p, q :: st => p.maxOffset = some q.offset ∧ Chain q st

/-- `n` bytes of input remain. -/
structure Good (p : Parser) (st : List Parser) (n : Nat) : Prop where
  chain : Chain p st
  room : p.offset + n ≤ u64Max
  le : ∀ q ∈ p :: st, q.offset ≤ q.maxOffset.getD u64Max ∧ q.offset ≤ u64Max

theorem Chain.congr {p q : Parser} {st} (h : Chain p st) (e : q.maxOffset = p.maxOffset) :
    Chain q st := by
  cases st with
  | nil => simpa [Chain, e] using h
  | cons a st => simpa [Chain, e] using h

theorem Good.congr {p q : Parser} {st n} (h : Good p st n) (e : q.maxOffset = p.maxOffset)
    (e2 : q.offset = p.offset) : Good q st n := by
  refine ⟨h.chain.congr e, by rw [e2]; exact h.room, fun x hx => ?_⟩
  rcases List.mem_cons.mp hx with rfl | hx
  · rw [e, e2]; exact h.le p (by simp)
  · exact h.le x (by simp [hx])

theorem Good.next' {p p' : Parser} {st : List Parser} {b : List UInt8} {e n pl N q st'}
    (g : Good p st N) (hN : b.length ≤ N) (hE : e = true → b.length = N)
    (h : parse p b e = (.ok (.parsed n pl), p')) (hn : next pl p' st = some (q, st')) :
    Good q st' (N - n) ∧ (q.offset = p.offset + n ∨ N - n = 0) := by
  obtain ⟨d, e', r', q0, hd, hshort, hpr, he, rfl, hle, hbuf, hoff, rfl, hl, hl2⟩ := parse_eff h
  have gp := g.le p (by simp)
  have groom := g.room
  have mle : p.offset + r'.position ≤ p.maxOffset.getD u64Max := by
    unfold Parser.maxLen at hl2; omega
  cases he with
  | plain h1 h2 h3 h4 h5 =>
    have : (q, st') = ({ q0 with offset := q0.offset + r'.position }, st) := by
      unfold Parser.next at hn
      split at hn
      · exact absurd ⟨_, _, _, rfl⟩ h1
      · exact absurd ⟨_, rfl⟩ h2
      · exact (Option.some.inj hn).symm
    cases this
    refine ⟨⟨g.chain.congr h4, by simp only [h3]; omega, fun x hx => ?_⟩, .inl (by simp only [h3])⟩
    rcases List.mem_cons.mp hx with rfl | hx
    · simp only [h3, h4]; omega
    · exact g.le x (by simp [hx])
  | nested b s l h1 h2 h3 h4 h5 h6 h7 =>
    subst h1
    simp only [Parser.next, Option.some.injEq, Prod.mk.injEq] at hn
    obtain ⟨rfl, rfl⟩ := hn
    have hs : s = p.offset + r'.position := by
      rw [h2]; simp [Reader.originalPosition, hoff]
    refine ⟨⟨⟨?_, g.chain.congr h6⟩, ?_, fun x hx => ?_⟩, .inl (by simp [Parser.new, hs])⟩
    · simp [h5, hs]; omega
    · simp [Parser.new, hs]; omega
    · rcases List.mem_cons.mp hx with rfl | hx
      · simp [Parser.new]; omega
      · rcases List.mem_cons.mp hx with rfl | hx
        · simp only [h5, h6]; omega
        · exact g.le x (by simp [hx])
  | fin e1 h1 h2 h3 h4 =>
    subst e1
    unfold Parser.next at hn
    split at hn
    · rename_i hh; cases hh
    · cases st with
      | nil => cases hn
      | cons a st =>
        simp only [Option.some.injEq, Prod.mk.injEq] at hn
        obtain ⟨rfl, rfl⟩ := hn
        have gq := g.le a (by simp)
        suffices hk : a.offset = p.offset + r'.position ∨ N - r'.position = 0 by
          refine ⟨⟨g.chain.2, ?_, fun x hx => g.le x (List.mem_cons_of_mem _ hx)⟩, hk⟩
          omega
        have hp0 : r'.position = 0 := by rw [h1]; rfl
        by_cases hb : b.length ≤ p.maxLen
        · obtain ⟨rfl, rfl⟩ := hshort hb
          have hb0 : d = [] := by simpa [Reader.rest, Reader.new] using h2
          have he' : e' = true := by
            cases e'
            · exfalso
              have hs := StepR.parseReader p (r := Reader.new d p.offset) (Nat.zero_le _)
              have := hs.ok [0] false _ _ _ hpr
              cases parseReader_eff (r := (Reader.new d p.offset).extend [0]) (Nat.zero_le _) this with
              | plain _ h2 _ _ _ => exact h2 ⟨_, rfl⟩
              | nested _ _ _ h1 => cases h1
              | fin _ _ hr _ _ => simp [Reader.rest, Reader.new, hb0] at hr
            · rfl
          have := hE he'
          rw [hb0] at this
          simp at this
          omega
        · have h0 : d.length = 0 := by
            have : d = [] := by simpa [Reader.rest, Reader.new] using h2
            rw [this]; rfl
          have hml : p.maxLen = 0 := by
            rw [hd, List.length_take] at h0; omega
          have hc := g.chain.1
          unfold Parser.maxLen at hml
          rw [hc] at hml gp
          simp at hml gp
          omega
    · rename_i h1 h2; exact absurd rfl (h2 _)

theorem Good.next {p p' : Parser} {st : List Parser} {b : List UInt8} {e n pl N q st'}
    (g : Good p st N) (hN : b.length ≤ N) (hE : e = true → b.length = N)
    (h : parse p b e = (.ok (.parsed n pl), p')) (hn : next pl p' st = some (q, st')) :
    Good q st' (N - n) := (Good.next' g hN hE h hn).1

theorem parse_hint_pos {p p' : Parser} {b : List UInt8} {e k}
    (h : parse p b e = (.ok (.needMoreData k), p')) : e = false ∧ 0 < k := by
  cases e with
  | true => exact absurd h parse_eof_ne_more
  | false =>
    refine ⟨rfl, ?_⟩
    by_cases hb : b.length ≤ p.maxLen
    · rw [parse_short hb] at h
      obtain ⟨_, o, h3⟩ := finish_needMore h
      exact ((StepR.parseReader p (r := Reader.new b p.offset) (Nat.zero_le _)).eof _ _ _ h3).1
    · by_cases hm : p.maxOffset = none
      · exfalso
        unfold parse at h
        have h1 : (p.maxOffset.getD u64Max - p.offset < b.length) := by
          unfold Parser.maxLen at hb; omega
        dsimp only at h
        rw [if_pos ⟨h1, hm⟩] at h
        cases h
      · rw [parse_long (by omega) hm] at h
        exact absurd h finish_eof_needMore

/-! ## An executable driver -/

/-- The driver as a function, for examples. -/
def driveFuel : Nat → Parser → List Parser → List UInt8 → List (List UInt8) →
    Option (List Event × Option Err)
  | 0, _, _, _, _ => none
  | f + 1, p, st, buf, fut =>
    match parse p buf fut.isEmpty with
    | (.error e, _) => some ([], some e)
    | (.ok (.needMoreData _), p') =>
      match fut with
      | [] => none
      | c :: fut => driveFuel f p' st (buf ++ c) fut
    | (.ok (.parsed n pl), p') =>
      match next pl p' st with
      | none => some ([⟨n, pl⟩], none)
      | some (q, st') => (driveFuel f q st' (buf.drop n) fut).map fun x => (⟨n, pl⟩ :: x.1, x.2)

/-- The run on an example. -/
def runOf (off : Nat) (buf : List UInt8) (chunks : List (List UInt8)) :
    List Event × Option Err :=
  (driveFuel 60 (Parser.new off) [] buf chunks).getD ([], none)

theorem driveFuel_sound : ∀ (f : Nat) {p st buf fut tr out},
    driveFuel f p st buf fut = some (tr, out) → Drive p st buf fut tr out
  | 0, _, _, _, _, _, _, h => by cases h
  | f + 1, p, st, buf, fut, tr, out, h => by
    unfold driveFuel at h
    split at h
    · rename_i h1; cases h; exact .err h1
    · rename_i h1
      cases fut with
      | nil => cases h
      | cons c fut => exact .more h1 (driveFuel_sound f h)
    · rename_i h1
      split at h
      · rename_i h2; cases h; exact .done h1 h2
      · rename_i h2
        obtain ⟨⟨tr', out'⟩, h3, h4⟩ := Option.map_eq_some_iff.mp h
        cases h4
        exact .step h1 h2 (driveFuel_sound f h3)

/-! ## Chunking -/

theorem drive_chunks {p : Parser} {st : List Parser} {buf : List UInt8}
    {fut : List (List UInt8)} {tr out} (h : Drive p st buf fut tr out) :
    Good p st (buf ++ fut.flatten).length →
    ∀ {trW outW}, Drive p st (buf ++ fut.flatten) [] trW outW →
      (out = none ∨ ∀ ev ∈ trW, ¬ IsStart ev.payload) → tr = trW ∧ out.isSome = outW.isSome := by
  induction h with
  | @more p p' st buf c fut k tr out h1 h2 ih =>
    intro g trW outW hW hns
    have H : p.maxOffset = none → p.offset + (buf ++ (c :: fut).flatten).length ≤ u64Max :=
      fun _ => g.room
    obtain ⟨k1, k2, k3, k4, k5⟩ := parse_more_mono (e := true) H h1
    have eqb : buf ++ c ++ fut.flatten = buf ++ (c :: fut).flatten := by simp
    have g' : Good p' st (buf ++ c ++ fut.flatten).length := by
      rw [eqb]; exact g.congr k3 k2
    rcases k5 with k5 | ⟨k5, ⟨er, q, k6⟩, k7⟩
    · refine ih g' (trW := trW) (outW := outW) ?_ hns
      rw [eqb]
      cases hW with
      | step h3 h4 h5 => exact .step (k5.trans h3) h4 h5
      | done h3 h4 => exact .done (k5.trans h3) h4
      | err h3 => exact .err (k5.trans h3)
    · have hW' : Drive p' st (buf ++ c ++ fut.flatten) [] [] (some er) := by
        rw [eqb]; exact .err k6
      obtain ⟨rfl, ho⟩ := ih g' hW' (.inr (by simp))
      rcases hns with rfl | hns
      · cases ho
      cases hW with
      | step h3 h4 h5 => exact absurd (k7 _ _ _ h3) (hns _ (List.mem_cons_self ..))
      | done h3 h4 => exact absurd (k7 _ _ _ h3) (hns _ (List.mem_cons_self ..))
      | err h3 => exact ⟨rfl, by simpa using ho⟩
  | @step p p' st buf fut n pl q st' tr out h1 h2 h3 ih =>
    intro g trW outW hW hns
    have H : p.maxOffset = none → p.offset + (buf ++ fut.flatten).length ≤ u64Max := fun _ => g.room
    have hp : parse p (buf ++ fut.flatten) true = (.ok (.parsed n pl), p') := by
      cases fut with
      | nil => simpa using h1
      | cons c fut => exact parse_ok_mono H h1
    have hn := (parse_progress h1).1
    have ed : (buf ++ fut.flatten).drop n = buf.drop n ++ fut.flatten :=
      List.drop_append_of_le_length hn
    have g' := Good.next g (Nat.le_refl _) (fun _ => rfl) hp h2
    cases hW with
    | step h4 h5 h6 =>
      rw [show ([] : List (List UInt8)).isEmpty = true from rfl, hp] at h4; cases h4
      rw [h2] at h5; cases h5
      rw [ed] at h6
      obtain ⟨rfl, ho⟩ := ih (by rw [← ed, List.length_drop]; exact g') h6
        (hns.imp id fun hns ev he => hns ev (by simp [he]))
      exact ⟨rfl, ho⟩
    | done h4 h5 =>
      rw [show ([] : List (List UInt8)).isEmpty = true from rfl, hp] at h4; cases h4
      rw [h2] at h5; cases h5
    | err h4 => rw [show ([] : List (List UInt8)).isEmpty = true from rfl, hp] at h4; cases h4
  | @done p p' st buf fut n pl h1 h2 =>
    intro g trW outW hW hns
    have H : p.maxOffset = none → p.offset + (buf ++ fut.flatten).length ≤ u64Max := fun _ => g.room
    have hp : parse p (buf ++ fut.flatten) true = (.ok (.parsed n pl), p') := by
      cases fut with
      | nil => simpa using h1
      | cons c fut => exact parse_ok_mono H h1
    cases hW with
    | step h4 h5 h6 =>
      rw [show ([] : List (List UInt8)).isEmpty = true from rfl, hp] at h4; cases h4
      rw [h2] at h5; cases h5
    | done h4 h5 =>
      rw [show ([] : List (List UInt8)).isEmpty = true from rfl, hp] at h4; cases h4
      exact ⟨rfl, rfl⟩
    | err h4 => rw [show ([] : List (List UInt8)).isEmpty = true from rfl, hp] at h4; cases h4
  | @err p p' st buf fut e h1 =>
    intro g trW outW hW hns
    have H : p.maxOffset = none → p.offset + (buf ++ fut.flatten).length ≤ u64Max := fun _ => g.room
    have hp : ∃ e' p'', parse p (buf ++ fut.flatten) true = (.error e', p'') := by
      cases fut with
      | nil => exact ⟨_, _, by simpa using h1⟩
      | cons c fut =>
        obtain ⟨e', p'', h, _⟩ := parse_err_mono (e := true) H h1
        exact ⟨_, _, h⟩
    obtain ⟨e', p'', hp⟩ := hp
    cases hW with
    | step h4 h5 h6 => rw [show ([] : List (List UInt8)).isEmpty = true from rfl, hp] at h4; cases h4
    | done h4 h5 => rw [show ([] : List (List UInt8)).isEmpty = true from rfl, hp] at h4; cases h4
    | err h4 => exact ⟨rfl, rfl⟩

/-- What a successful step of a parser of modules leads to. -/
theorem module_next {p p' : Parser} {b : List UInt8} {e n pl q st'}
    (hm : p.encoding = .module) (hx : p.maxOffset = none) (hc : ¬ IsComponent pl)
    (h : parse p b e = (.ok (.parsed n pl), p')) (hn : next pl p' [] = some (q, st')) :
    q = p' ∧ st' = [] ∧ q.encoding = .module ∧ q.maxOffset = none ∧ q.offset = p.offset + n ∧
    n ≤ b.length := by
  obtain ⟨d, e', r', q0, hd, hshort, hpr, he, rfl, hle, hbuf, hoff, rfl, hl, hl2⟩ := parse_eff h
  cases he with
  | plain h1 h2 h3 h4 h5 h6 =>
    have : (q, st') = ({ q0 with offset := q0.offset + r'.position }, []) := by
      unfold Parser.next at hn
      split at hn
      · exact absurd ⟨_, _, _, rfl⟩ h1
      · exact absurd ⟨_, rfl⟩ h2
      · exact (Option.some.inj hn).symm
    cases this
    refine ⟨rfl, rfl, ?_, h4.trans hx, by simp only [h3], hl⟩
    rcases h6 with h6 | ⟨num, rg, h6⟩
    · exact h6.trans hm
    · cases hq : q0.encoding
      · rfl
      · rw [hq] at h6; exact absurd ⟨num, rg, h6⟩ hc
  | nested b s l h1 h2 h3 h4 h5 h6 h7 h8 => rw [hm] at h8; cases h8
  | fin e1 h1 h2 h3 h4 => subst e1; cases hn

theorem drive_chunks_module {p : Parser} {st : List Parser} {buf : List UInt8}
    {fut : List (List UInt8)} {tr out} (h : Drive p st buf fut tr out) :
    st = [] → p.encoding = .module → p.maxOffset = none →
    p.offset + (buf ++ fut.flatten).length + 99 ≤ u64Max →
    ∀ {trW outW}, Drive p st (buf ++ fut.flatten) [] trW outW →
      (∀ ev ∈ trW, ¬ IsComponent ev.payload) → tr = trW ∧ out = outW := by
  induction h with
  | @more p p' st buf c fut k tr out h1 h2 ih =>
    intro hst hm hx hb trW outW hW hns
    have H : p.maxOffset = none → p.offset + (buf ++ (c :: fut).flatten).length ≤ u64Max :=
      fun _ => by omega
    obtain ⟨k1, k2, k3, k4, k5⟩ := parse_more_mono (e := true) H h1
    have eqb : buf ++ c ++ fut.flatten = buf ++ (c :: fut).flatten := by simp
    rcases k5 with k5 | ⟨k5, _⟩
    · refine ih hst (k4.trans hm) (k3.trans hx) (by rw [k2, eqb]; exact hb)
        (trW := trW) (outW := outW) ?_ hns
      rw [eqb]
      cases hW with
      | step h3 h4 h5 => exact .step (k5.trans h3) h4 h5
      | done h3 h4 => exact .done (k5.trans h3) h4
      | err h3 => exact .err (k5.trans h3)
    · rw [hm] at k5; cases k5
  | @step p p' st buf fut n pl q st' tr out h1 h2 h3 ih =>
    intro hst hm hx hb trW outW hW hns
    subst hst
    have H : p.maxOffset = none → p.offset + (buf ++ fut.flatten).length ≤ u64Max :=
      fun _ => by omega
    have hp : parse p (buf ++ fut.flatten) true = (.ok (.parsed n pl), p') := by
      cases fut with
      | nil => simpa using h1
      | cons c fut => exact parse_ok_mono H h1
    have hn := (parse_progress h1).1
    have ed : (buf ++ fut.flatten).drop n = buf.drop n ++ fut.flatten :=
      List.drop_append_of_le_length hn
    cases hW with
    | step h4 h5 h6 =>
      rw [show ([] : List (List UInt8)).isEmpty = true from rfl, hp] at h4; cases h4
      rw [h2] at h5; cases h5
      rw [ed] at h6
      obtain ⟨rfl, rfl, f1, f2, f3, f4⟩ :=
        module_next hm hx (hns ⟨n, pl⟩ (List.mem_cons_self ..)) hp h2
      obtain ⟨rfl, ho⟩ := ih rfl f1 f2 (by
        rw [f3, ← ed, List.length_drop]; omega) h6
        (fun ev he => hns ev (by simp [he]))
      exact ⟨rfl, ho⟩
    | done h4 h5 =>
      rw [show ([] : List (List UInt8)).isEmpty = true from rfl, hp] at h4; cases h4
      rw [h2] at h5; cases h5
    | err h4 => rw [show ([] : List (List UInt8)).isEmpty = true from rfl, hp] at h4; cases h4
  | @done p p' st buf fut n pl h1 h2 =>
    intro hst hm hx hb trW outW hW hns
    have H : p.maxOffset = none → p.offset + (buf ++ fut.flatten).length ≤ u64Max :=
      fun _ => by omega
    have hp : parse p (buf ++ fut.flatten) true = (.ok (.parsed n pl), p') := by
      cases fut with
      | nil => simpa using h1
      | cons c fut => exact parse_ok_mono H h1
    cases hW with
    | step h4 h5 h6 =>
      rw [show ([] : List (List UInt8)).isEmpty = true from rfl, hp] at h4; cases h4
      rw [h2] at h5; cases h5
    | done h4 h5 =>
      rw [show ([] : List (List UInt8)).isEmpty = true from rfl, hp] at h4; cases h4
      exact ⟨rfl, rfl⟩
    | err h4 => rw [show ([] : List (List UInt8)).isEmpty = true from rfl, hp] at h4; cases h4
  | @err p p' st buf fut e h1 =>
    intro hst hm hx hb trW outW hW hns
    have H : p.maxOffset = none → p.offset + (buf ++ fut.flatten).length ≤ u64Max :=
      fun _ => by omega
    have hp : parse p (buf ++ fut.flatten) true = (.error e, p') := by
      cases fut with
      | nil => simpa using h1
      | cons c fut =>
        obtain ⟨e', p'', h, h'⟩ := parse_err_mono (e := true) H h1
        obtain ⟨rfl, rfl⟩ := h' hx (by omega)
        exact h
    cases hW with
    | step h4 h5 h6 => rw [show ([] : List (List UInt8)).isEmpty = true from rfl, hp] at h4; cases h4
    | done h4 h5 => rw [show ([] : List (List UInt8)).isEmpty = true from rfl, hp] at h4; cases h4
    | err h4 =>
      rw [show ([] : List (List UInt8)).isEmpty = true from rfl, hp] at h4; cases h4
      exact ⟨rfl, rfl⟩

/-! ## Inputs that are not components -/

theorem sectionStart_state {p p' : Parser} {r r' : Reader} {e pl} (hm : p.encoding = .module)
    (hs : p.state ≠ .header)
    (hh : parseSectionStart p r e = (.ok (pl, r'), p')) :
    p'.state ≠ .header ∧ ¬ IsComponent pl := by
  unfold parseSectionStart at hh
  repeat' split at hh
  all_goals first | (cases hh; done) | skip
  · cases hh; exact ⟨hs, by rintro ⟨_, _, ⟨⟩⟩⟩
  · unfold parseSection at hh
    split at hh
    · obtain ⟨a, h1, h2⟩ := runBody_ok hh
      cases h2; exact ⟨hs, by rintro ⟨_, _, ⟨⟩⟩⟩
    · rw [hm] at hh
      dsimp only at hh
      split at hh
      · split at hh
        · cases hh
        · rename_i hu
          have e1 := updateOrder_ok hu
          unfold moduleBody at hh
          repeat' split at hh
          all_goals obtain ⟨a, h1, h2⟩ := runBody_ok hh
          all_goals dsimp only at h2
          all_goals try split at h2
          all_goals cases h2
          all_goals refine ⟨?_, by rintro ⟨_, _, ⟨⟩⟩⟩
          all_goals simp [e1, hs]
      · have := unknownBody_fields hh
        refine ⟨by rw [this.2.2.1]; exact hs, ?_⟩
        unfold unknownBody at hh
        obtain ⟨a, h1, h2⟩ := runBody_ok hh
        cases h2; rintro ⟨_, _, ⟨⟩⟩

theorem parse_state {p p' : Parser} {b : List UInt8} {e n pl} (hm : p.encoding = .module)
    (hs : p.state ≠ .header) (h : parse p b e = (.ok (.parsed n pl), p')) :
    p'.state ≠ .header ∧ ¬ IsComponent pl := by
  obtain ⟨d, e', r', q, hd, _, hp, he, rfl, hnd, _, _, rfl, hl, _⟩ := parse_eff h
  simp only
  unfold parseReader at hp
  split at hp
  · exact absurd (by assumption) hs
  · exact sectionStart_state hm hs hp
  · repeat' split at hp
    · exact sectionStart_state (p := { p with state := .sectionStart }) hm (by simp) hp
    · cases hp
    · unfold parseFunctionBody at hp
      obtain ⟨a, _, h2⟩ := runBody_ok hp
      cases h2
      exact ⟨by simp, by rintro ⟨_, _, ⟨⟩⟩⟩

theorem drive_module_state {p : Parser} {st : List Parser} {buf : List UInt8}
    {fut : List (List UInt8)} {tr out} (h : Drive p st buf fut tr out) :
    fut = [] → st = [] → p.encoding = .module → p.maxOffset = none → p.state ≠ .header →
    ∀ ev ∈ tr, ¬ IsComponent ev.payload := by
  induction h with
  | more h1 h2 ih => intro hf; cases hf
  | @step p p' st buf fut n pl q st' tr out h1 h2 h3 ih =>
    intro hf hst hm hx hs ev hev
    subst hst hf
    obtain ⟨s1, s2⟩ := parse_state hm hs h1
    obtain ⟨rfl, rfl, f1, f2, f3, f4⟩ := module_next hm hx s2 h1 h2
    rcases List.mem_cons.mp hev with rfl | hev
    · exact s2
    · exact ih rfl rfl f1 f2 s1 ev hev
  | @done p p' st buf fut n pl h1 h2 =>
    intro hf hst hm hx hs ev hev
    simp at hev
    subst hev
    exact (parse_state hm hs h1).2
  | err h1 => intro _ _ _ _ _ ev hev; cases hev

theorem leValue_four {l : List UInt8} (hl : l.length = 4)
    (h : (BitVec.ofNat 32 (leValue l)).toNat = 0x1000d) : l = [0x0d, 0x00, 0x01, 0x00] := by
  match l, hl with
  | [a, b, c, d], _ =>
    have ha := toNat_lt_256 a
    have hb := toNat_lt_256 b
    have hc := toNat_lt_256 c
    have hd := toNat_lt_256 d
    simp [leValue] at h
    have e : a.toNat = 13 ∧ b.toNat = 0 ∧ c.toNat = 1 ∧ d.toNat = 0 := by omega
    obtain ⟨e1, e2, e3, e4⟩ := e
    have t : ∀ (x y : UInt8), x.toNat = y.toNat → x = y := fun x y h => UInt8.toNat_inj.mp h
    rw [t a 13 e1, t b 0 e2, t c 1 e3, t d 0 e4]

theorem drive_not_component {off : Nat} {input : List UInt8} {tr out}
    (h : DriveAll (Parser.new off) input tr out) (hn : NotComponent input) :
    ∀ ev ∈ tr, ¬ IsComponent ev.payload := by
  have key : ∀ {n pl p'}, parse (Parser.new off) input true = (.ok (.parsed n pl), p') →
      p'.state ≠ .header ∧ ¬ IsComponent pl := by
    intro n pl p' hpp
    obtain ⟨d, e', r', q, hd, hs, hp, he, rfl, hnd, _, _, rfl, hl, hml⟩ := parse_eff hpp
    simp only [parseReader, Parser.new] at hp
    unfold parseHeader at hp
    dsimp only at hp
    split at hp
    · cases hp
    · rename_i v r1 h1
      split at hp
      · cases hp; exact ⟨by simp, by rintro ⟨_, _, ⟨⟩⟩⟩
      · split at hp
        · rename_i hv
          exfalso
          cases hp
          apply hn
          unfold readHeaderVersion at h1
          obtain ⟨m, r2, h2, h3⟩ := bind_ok.mp h1
          rw [readBytes_eq] at h2
          split at h2
          case isFalse => cases h2
          cases h2
          split at h3
          · obtain ⟨_, _, _, h4⟩ := bind_ok.mp h3
            cases h4
          · rename_i hmag
            unfold readU32 at h3
            obtain ⟨m, r2, h4, h5⟩ := bind_ok.mp h3
            rw [readBytes_eq] at h4
            split at h4
            case isFalse => cases h4
            rename_i hl8
            cases h4; cases h5
            have hmag' : d.take 4 = wasmMagic := by
              simpa [Reader.rest, Reader.new] using hmag
            have hl8' : 4 ≤ (d.drop 4).length := by
              simpa [Reader.rest, Reader.new] using hl8
            have e4 : (d.drop 4).take 4 = [0x0d, 0x00, 0x01, 0x00] := by
              refine leValue_four (by simp at hl8' ⊢; omega) ?_
              simp [Reader.rest, Reader.new] at hv ⊢
              omega
            have : (Reader.advance (Reader.advance (Reader.new d off) 4) 4).position = 8 := rfl
            have e8 : input.take 8 = d.take 8 := by
              have hml' : 8 ≤ (Parser.new off).maxLen := hml
              simp only [Parser.new] at hd hml'
              rw [hd, List.take_take, Nat.min_eq_left hml']
            rw [e8, show (8 : Nat) = 4 + 4 from rfl, List.take_add, hmag', e4]
            rfl
        · cases hp
  cases h with
  | @step p p' st buf fut n pl q st' tr out h1 h2 h3 =>
    obtain ⟨s1, s2⟩ := key h1
    obtain ⟨rfl, rfl, f1, f2, f3, f4⟩ := module_next rfl rfl s2 h1 h2
    intro ev hev
    rcases List.mem_cons.mp hev with rfl | hev
    · exact s2
    · exact drive_module_state h3 rfl rfl f1 f2 s1 ev hev
  | done h1 h2 =>
    intro ev hev
    simp at hev
    subst hev
    exact (key h1).2
  | err h1 => intro ev hev; cases hev

end Verif.Parser
