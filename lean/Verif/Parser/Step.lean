import Verif.Parser.Lemmas
import Verif.Parser.Spec
/-! One call of `parse` on a prefix of the input compared with a call on more input. -/
namespace Verif.Parser
open Verif.Reader

theorem rest_extend {r : Reader} (hr : r.position ≤ r.buffer.length) (s : List UInt8) :
    (r.extend s).rest = r.rest ++ s := by
  simp [Reader.rest, List.drop_append_of_le_length hr]

theorem peekBytes_eq (r : Reader) (n : Nat) : peekBytes r n =
    if n ≤ r.rest.length then .ok (r.rest.take n)
    else .error (.eof r.originalPosition (n - r.rest.length)) := by
  unfold peekBytes
  rw [ensureHasBytes_eq]
  by_cases h : n ≤ r.rest.length
  · simp only [if_pos h]
    simp [Reader.rest]
  · simp only [if_neg h]

/-- Where the magic number becomes visible only with more input, the section header is
that of a custom section of 97 bytes. -/
theorem magic_prefix {r : Reader} (hr : r.position ≤ r.buffer.length) {s : List UInt8}
    (h1 : peekBytes r 4 ≠ .ok wasmMagic) (h2 : peekBytes (r.extend s) 4 = .ok wasmMagic)
    (mo : Option Nat) :
    (∃ o k, readSectionHeader mo r = .error (.eof o k) ∧ 0 < k) ∨
    (∃ o, readSectionHeader mo r = .error (.msg "section too large" o) ∧
      ∃ m, mo.getD u64Max = m ∧ (m < r.originalPosition + 2 + 97 ∨
        u64Max < r.originalPosition + 2 + 97)) ∨
    (∃ h, readSectionHeader mo r = .ok (h, r.advance 2) ∧ h.id = 0 ∧ h.len = 97#32 ∧
      (r.advance 2).rest.length ≤ 1) := by
  rw [peekBytes_eq] at h1 h2
  rw [rest_extend hr] at h2
  split at h2
  case isFalse => cases h2
  rename_i hl2
  have h3 : (r.rest ++ s).take 4 = wasmMagic := by simpa using h2
  have hlt : r.rest.length < 4 := by
    by_cases hge : 4 ≤ r.rest.length
    · rw [if_pos hge] at h1
      rw [List.take_append_of_le_length hge] at h3
      exact absurd (by rw [h3]) h1
    · omega
  have hW : WellBehaved (readSectionHeader mo) := WellBehaved.readSectionHeader mo
  have key : ∀ b : UInt8, b = 0x61 → ∀ r1 : Reader, ∀ bs, r1.rest = b :: bs →
      readVarU32 r1 = .ok (97#32, r1.advance 1) := by
    intro b hb r1 bs h
    unfold readVarU32
    rw [readU8_cons h]
    subst hb
    rfl
  match hrest : r.rest with
  | [] =>
    left
    refine ⟨r.originalPosition, 1, ?_, by decide⟩
    show (readPos >>= _) r = _
    rw [bind_apply]
    simp only [readPos]
    rw [bind_apply, readU8_nil hrest]
    rfl
  | [b] =>
    rw [hrest] at h3
    have hb : b = 0 := by
      have := congrArg List.head? h3
      simpa [wasmMagic] using this
    subst hb
    left
    have e1 : readU8 r = .ok (0, r.advance 1) := readU8_cons hrest
    have e2 : readVarU32 (r.advance 1) = .error (.eof (r.originalPosition + 1) 1) := by
      unfold readVarU32
      rw [readU8_nil (by simp [hrest])]
      simp [Reader.eofErr]
    refine ⟨r.originalPosition + 1, 1, ?_, by decide⟩
    unfold readSectionHeader
    rw [bind_apply]
    simp only [readPos]
    rw [bind_apply, e1]
    simp [bind_apply, e2, readPos]
  | b :: c :: bs =>
    rw [hrest] at h3 hlt
    obtain ⟨rfl, rfl⟩ : b = 0 ∧ c = 0x61 := by
      simp [wasmMagic] at h3
      exact ⟨h3.1, h3.2.1⟩
    have e1 : readU8 r = .ok (0, r.advance 1) := readU8_cons hrest
    have e2 : readVarU32 (r.advance 1) = .ok (97#32, (r.advance 1).advance 1) :=
      key 0x61 rfl _ bs (by simp [hrest])
    right
    by_cases hm : r.originalPosition + 2 + 97 ≤ u64Max ∧
        r.originalPosition + 2 + 97 ≤ mo.getD u64Max
    · right
      refine ⟨⟨0, r.originalPosition + 1, 97#32, r.originalPosition + 2,
        r.originalPosition + 2 + 97⟩, ?_, rfl, rfl, ?_⟩
      · unfold readSectionHeader
        rw [bind_apply]
        simp only [readPos]
        rw [bind_apply, e1]
        simp [bind_apply, e2, readPos, pure_apply, hm]
      · simp [hrest]; simp at hlt; omega
    · left
      refine ⟨r.originalPosition + 1, ?_, _, rfl, by omega⟩
      unfold readSectionHeader
      rw [bind_apply]
      simp only [readPos]
      rw [bind_apply, e1]
      simp [bind_apply, e2, readPos, R.fail, hm]

theorem custom_eof (p : Parser) {h : Header} {r : Reader} (h0 : h.id = 0) (hl : h.len = 97#32)
    (hr : r.rest.length ≤ 1) : ∃ o k, parseSection p h r = (.error (.eof o k), p) ∧ 0 < k := by
  refine ⟨r.originalPosition, 97 - r.rest.length, ?_, by omega⟩
  simp only [parseSection, h0, if_true, runBody, sectionOf, bind_apply, skip, hl]
  rw [readBytes_eq, if_neg (by simp; omega)]
  simp

theorem header_pos {mo : Option Nat} {r r' : Reader} {h : Header}
    (hh : readSectionHeader mo r = .ok (h, r')) : r.rest ≠ [] := by
  intro hn
  unfold readSectionHeader at hh
  rw [bind_apply] at hh
  simp only [readPos] at hh
  rw [bind_apply, readU8_nil hn] at hh
  cases hh

theorem header_err_pos {mo : Option Nat} {r : Reader} {m : String} {o : Nat}
    (hh : readSectionHeader mo r = .error (.msg m o)) : r.rest ≠ [] := by
  intro hn
  unfold readSectionHeader at hh
  rw [bind_apply] at hh
  simp only [readPos] at hh
  rw [bind_apply, readU8_nil hn] at hh
  cases hh

/-- How parsing from `p` with reader `r` and more input to come relates to parsing with
all of the input. -/
structure StepR (F : Parser → Reader → Bool → Except Err (Payload × Reader) × Parser)
    (p : Parser) (r : Reader) : Prop where
  bounds : ∀ e pl r' p', F p r e = (.ok (pl, r'), p') → r'.buffer = r.buffer ∧
    r'.originalOffset = r.originalOffset ∧ r.position ≤ r'.position ∧
    r'.position ≤ r.buffer.length
  ok : ∀ s e pl r' p', F p r false = (.ok (pl, r'), p') →
    F p (r.extend s) e = (.ok (pl, r'.extend s), p')
  msg : ∀ s e m o p', F p r false = (.error (.msg m o), p') →
    ∃ m' o' p'', F p (r.extend s) e = (.error (.msg m' o'), p'') ∧
      (p.maxOffset = none → r.originalPosition + 99 ≤ u64Max → m' = m ∧ o' = o ∧ p'' = p')
  eof : ∀ o k p', F p r false = (.error (.eof o k), p') → 0 < k ∧ p'.offset = p.offset ∧
    p'.maxOffset = p.maxOffset ∧ p'.encoding = p.encoding ∧ ∀ s e,
      F p' (r.extend s) e = F p (r.extend s) e ∨
      (p.encoding = .component ∧
        (∃ m o p'', F p' (r.extend s) e = (.error (.msg m o), p'')) ∧
        ∀ pl r' p'', F p (r.extend s) e = (.ok (pl, r'), p'') → IsStart pl)

theorem bytesRemaining_ext {r : Reader} (hr : r.position ≤ r.buffer.length) (s : List UInt8)
    (hn : r.rest ≠ []) : (r.extend s).bytesRemaining ≠ 0 := by
  rw [Reader.bytesRemaining_eq, rest_extend hr]
  cases h : r.rest
  · exact absurd h hn
  · simp

theorem StepR.sectionStart (p : Parser) {r : Reader} (hr : r.position ≤ r.buffer.length) :
    StepR parseSectionStart p r := by
  have hW := WellBehaved.readSectionHeader p.maxOffset r hr
  have hS : ∀ h r1, readSectionHeader p.maxOffset r = .ok (h, r1) → ∀ q : Parser,
      SAt (parseSection q h) (retryParser q h) r1 := by
    intro h r1 h1 q
    have b := hW.bounds _ _ h1
    exact SAt.parseSection q h (by rw [b.1]; exact b.2.2.2)
  constructor
  · intro e pl r' p' h
    unfold parseSectionStart at h
    split at h
    · split at h
      · cases h
      · split at h
        · cases h
        · cases h; exact ⟨rfl, rfl, Nat.le_refl _, hr⟩
    · split at h
      · cases h
      · split at h
        · cases h
        · rename_i hd r1 h1
          have b1 := hW.bounds _ _ h1
          have b2 := (hS _ _ h1 p).bounds _ _ _ h
          refine ⟨b2.1.trans b1.1, b2.2.1.trans b1.2.1, by omega, ?_⟩
          rw [← b1.1]; exact b2.2.2.2
  · intro s e pl r' p' h
    unfold parseSectionStart at h ⊢
    rw [if_neg (by simp)] at h
    split at h
    · cases h
    · rename_i hpk
      split at h
      · cases h
      · rename_i hd r1 h1
        rw [if_neg (fun hh => bytesRemaining_ext hr s (header_pos h1) hh.2)]
        have hne : peekBytes (r.extend s) 4 ≠ .ok wasmMagic := by
          intro hm
          rcases magic_prefix hr hpk hm p.maxOffset with ⟨o, k, e1, _⟩ | ⟨o, e1, _⟩ | ⟨h', e1, h0, hl, hlen⟩
          · rw [e1] at h1; cases h1
          · rw [e1] at h1; cases h1
          · rw [e1] at h1; cases h1
            obtain ⟨o, k, e2, _⟩ := custom_eof p h0 hl hlen
            rw [e2] at h; cases h
        rw [if_neg hne, hW.ok_ext s _ _ h1]
        exact (hS _ _ h1 p).ok s _ _ _ h
  · intro s e m o p' h
    unfold parseSectionStart at h ⊢
    rw [if_neg (by simp)] at h
    split at h
    · rename_i hpk
      cases h
      have hn : r.rest ≠ [] := by
        intro hn
        rw [peekBytes_eq, hn] at hpk
        simp at hpk
      rw [if_neg (fun hh => bytesRemaining_ext hr s hn hh.2)]
      have : peekBytes (r.extend s) 4 = .ok wasmMagic := by
        rw [peekBytes_eq] at hpk ⊢
        rw [rest_extend hr]
        split at hpk
        · rename_i hl
          rw [if_pos (by simp; omega), List.take_append_of_le_length hl]
          exact hpk
        · cases hpk
      rw [if_pos this]
      exact ⟨_, _, _, rfl, fun _ _ => ⟨rfl, rfl, rfl⟩⟩
    · rename_i hpk
      have hn : r.rest ≠ [] := by
        split at h
        · rename_i h1; cases h; exact header_err_pos h1
        · rename_i h1; exact header_pos h1
      rw [if_neg (fun hh => bytesRemaining_ext hr s hn hh.2)]
      by_cases hm : peekBytes (r.extend s) 4 = .ok wasmMagic
      · rw [if_pos hm]
        refine ⟨_, _, _, rfl, fun hmo hpos => ?_⟩
        exfalso
        rcases magic_prefix hr hpk hm p.maxOffset with ⟨o, k, e1, _⟩ | ⟨o, e1, mm, e2, e3⟩ | ⟨h', e1, h0, hl, hlen⟩
        · rw [e1] at h; cases h
        · rw [hmo] at e2
          simp at e2
          omega
        · rw [e1] at h
          obtain ⟨o, k, e2, _⟩ := custom_eof p h0 hl hlen
          dsimp only at h
          rw [e2] at h; cases h
      · rw [if_neg hm]
        split at h
        · rename_i h1
          cases h
          rw [hW.msg_ext s _ _ h1]
          exact ⟨_, _, _, rfl, fun _ _ => ⟨rfl, rfl, rfl⟩⟩
        · rename_i hd r1 h1
          rw [hW.ok_ext s _ _ h1]
          exact ⟨_, _, _, (hS _ _ h1 p).msg s _ _ _ h, fun _ _ => ⟨rfl, rfl, rfl⟩⟩
  · intro o k p' h
    unfold parseSectionStart at h
    rw [if_neg (by simp)] at h
    split at h
    · cases h
    · split at h
      · rename_i h1
        cases h
        exact ⟨(hW.eof_hint _ _ h1).1, rfl, rfl, rfl, fun s e => .inl rfl⟩
      · rename_i hd r1 h1
        obtain ⟨rfl, hk⟩ := (hS _ _ h1 p).eof _ _ _ h
        obtain ⟨f1, f2, f3, f4⟩ := retryParser_fields p hd
        refine ⟨hk, f2, f3, f4, fun s e => ?_⟩
        unfold parseSectionStart
        have hn : ¬ (e = true ∧ (r.extend s).bytesRemaining = 0) :=
          fun hh => bytesRemaining_ext hr s (header_pos h1) hh.2
        rw [if_neg hn, if_neg hn]
        by_cases hm : peekBytes (r.extend s) 4 = .ok wasmMagic
        · rw [if_pos hm, if_pos hm]
          by_cases hen : retryParser p hd = p
          · left; rw [hen]
          · by_cases hcomp : p.encoding = .component
            · right
              exact ⟨hcomp, ⟨_, _, _, rfl⟩, fun pl r' p'' hh => by cases hh⟩
            · exfalso
              have hpk : ¬ peekBytes r 4 = .ok wasmMagic := by assumption
              rcases magic_prefix hr hpk hm p.maxOffset with ⟨o, k, e1, _⟩ | ⟨o, e1, _⟩ | ⟨h', e1, h0, hl, hlen⟩
              · rw [e1] at h1; cases h1
              · rw [e1] at h1; cases h1
              · rw [e1] at h1; cases h1
                exact hen (by simp [retryParser, h0])
        · rw [if_neg hm, if_neg hm, f3, hW.ok_ext s _ _ h1]
          dsimp only
          rcases parseSection_retry p hd (r1.extend s) with h2 | ⟨⟨m, o, p'', h2⟩, h3⟩
          · exact .inl h2
          · by_cases hcomp : p.encoding = .component
            · right
              exact ⟨hcomp, ⟨m, o, p'', h2⟩, fun pl r' p'' hh => h3 _ _ _ hh⟩
            · have hmod : p.encoding = .module := by
                cases hp : p.encoding
                · rfl
                · exact absurd hp hcomp
              left
              exact parseSection_retry_module p hd _ hmod

theorem sectionStart_eof_state {p p' : Parser} {r : Reader} (hr : r.position ≤ r.buffer.length)
    {o k} (h : parseSectionStart p r false = (.error (.eof o k), p')) : p'.state = p.state := by
  unfold parseSectionStart at h
  rw [if_neg (by simp)] at h
  split at h
  · cases h
  · split at h
    · cases h; rfl
    · rename_i hd r1 h1
      have b := (WellBehaved.readSectionHeader p.maxOffset r hr).bounds _ _ h1
      obtain ⟨rfl, hk⟩ :=
        (SAt.parseSection p hd (r := r1) (by rw [b.1]; exact b.2.2.2)).eof _ _ _ h
      exact (retryParser_fields p hd).1

theorem SAt.parseHeader (p : Parser) {r : Reader} (hr : r.position ≤ r.buffer.length) :
    SAt (parseHeader p) p r := by
  have w := WellBehaved.readHeaderVersion r hr
  unfold Parser.parseHeader
  dsimp only
  constructor
  · intro pl r' p' h
    split at h
    · cases h
    · rename_i v r1 h1
      repeat' split at h
      all_goals cases h
      all_goals exact w.bounds _ _ h1
  · intro s pl r' p' h
    split at h
    · cases h
    · rename_i v r1 h1
      rw [w.ok_ext s _ _ h1]
      simp only [extend_originalPosition]
      by_cases c1 : v.toNat % 2 ^ 16 = 1 ∧ v.toNat / 2 ^ 16 = 0
      · rw [if_pos c1] at h ⊢; cases h; try rfl
      · rw [if_neg c1] at h ⊢
        by_cases c2 : v.toNat % 2 ^ 16 = 0xd ∧ v.toNat / 2 ^ 16 = 1
        · rw [if_pos c2] at h ⊢; cases h; try rfl
        · rw [if_neg c2] at h ⊢; cases h; try rfl
  · intro s m o p' h
    split at h
    · rename_i e h1; cases h; rw [w.msg_ext s _ _ h1]
    · rename_i v r1 h1
      rw [w.ok_ext s _ _ h1]
      simp only [extend_originalPosition]
      by_cases c1 : v.toNat % 2 ^ 16 = 1 ∧ v.toNat / 2 ^ 16 = 0
      · rw [if_pos c1] at h ⊢; cases h; try rfl
      · rw [if_neg c1] at h ⊢
        by_cases c2 : v.toNat % 2 ^ 16 = 0xd ∧ v.toNat / 2 ^ 16 = 1
        · rw [if_pos c2] at h ⊢; cases h; try rfl
        · rw [if_neg c2] at h ⊢; cases h; try rfl
  · intro o k p' h
    split at h
    · rename_i e h1; cases h; exact ⟨rfl, (w.eof_hint _ _ h1).1⟩
    · repeat' split at h
      all_goals cases h

theorem SAt.parseFunctionBody (p : Parser) (n l : Nat) {r : Reader}
    (hr : r.position ≤ r.buffer.length) : SAt (parseFunctionBody p n l) p r := by
  unfold Parser.parseFunctionBody
  exact .runBody (WellBehaved.delimited _ .readReader) (fun a n e p' h => by cases h) hr

theorem StepR.ofSAt {F : Parser → Reader → Bool → Except Err (Payload × Reader) × Parser}
    {G : Reader → Except Err (Payload × Reader) × Parser} {p : Parser} {r : Reader}
    (h : SAt G p r) (e : ∀ r e, F p r e = G r) : StepR F p r := by
  constructor
  · intro b pl r' p' hh
    rw [e] at hh
    exact h.bounds _ _ _ hh
  · intro s b pl r' p' hh
    rw [e] at hh ⊢
    exact h.ok s _ _ _ hh
  · intro s b m o p' hh
    rw [e] at hh
    exact ⟨_, _, _, by rw [e]; exact h.msg s _ _ _ hh, fun _ _ => ⟨rfl, rfl, rfl⟩⟩
  · intro o k p' hh
    rw [e] at hh
    obtain ⟨rfl, hk⟩ := h.eof _ _ _ hh
    exact ⟨hk, rfl, rfl, rfl, fun _ _ => .inl rfl⟩

theorem StepR.parseReader (p : Parser) {r : Reader} (hr : r.position ≤ r.buffer.length) :
    StepR parseReader p r := by
  cases hs : p.state with
  | header => exact .ofSAt (SAt.parseHeader p hr) (fun r e => by simp [Parser.parseReader, hs])
  | sectionStart =>
    have h := StepR.sectionStart p hr
    have e0 : ∀ q : Parser, q.state = .sectionStart → ∀ r e,
        Parser.parseReader q r e = parseSectionStart q r e := by
      intro q hq r e; simp [Parser.parseReader, hq]
    constructor
    · intro e pl r' p' hh; rw [e0 p hs] at hh; exact h.bounds _ _ _ _ hh
    · intro s e pl r' p' hh; rw [e0 p hs] at hh ⊢; exact h.ok s e _ _ _ hh
    · intro s e m o p' hh
      rw [e0 p hs] at hh
      obtain ⟨m', o', p'', h1, h2⟩ := h.msg s e _ _ _ hh
      exact ⟨m', o', p'', by rw [e0 p hs]; exact h1, h2⟩
    · intro o k p' hh
      rw [e0 p hs] at hh
      have hp' := (sectionStart_eof_state hr hh).trans hs
      obtain ⟨h1, h2, h3, h4, h5⟩ := h.eof _ _ _ hh
      refine ⟨h1, h2, h3, h4, fun s e => ?_⟩
      rw [e0 p hs, e0 p' hp']
      exact h5 s e
  | functionBody n l =>
    by_cases hn : n = 0
    · by_cases hl : l = 0
      · have h := StepR.sectionStart { p with state := .sectionStart } hr
        have e1 : ∀ r e, Parser.parseReader p r e =
            parseSectionStart { p with state := .sectionStart } r e := by
          intro r e; simp [Parser.parseReader, hs, hn, hl]
        have e0 : ∀ q : Parser, q.state = .sectionStart → ∀ r e,
            Parser.parseReader q r e = parseSectionStart q r e := by
          intro q hq r e; simp [Parser.parseReader, hq]
        constructor
        · intro e pl r' p' hh; rw [e1] at hh; exact h.bounds _ _ _ _ hh
        · intro s e pl r' p' hh; rw [e1] at hh ⊢; exact h.ok s e _ _ _ hh
        · intro s e m o p' hh
          rw [e1] at hh
          obtain ⟨m', o', p'', h1, h2⟩ := h.msg s e _ _ _ hh
          exact ⟨m', o', p'', by rw [e1]; exact h1, h2⟩
        · intro o k p' hh
          rw [e1] at hh
          have hp' := sectionStart_eof_state hr hh
          obtain ⟨h1, h2, h3, h4, h5⟩ := h.eof _ _ _ hh
          refine ⟨h1, h2, h3, h4, fun s e => ?_⟩
          rw [e1, e0 p' hp']
          exact h5 s e
      · have e1 : ∀ r e, Parser.parseReader p r e =
            (.error (.msg "trailing bytes at end of section" r.originalPosition), p) := by
          intro r e; simp [Parser.parseReader, hs, hn, hl]
        constructor
        · intro e pl r' p' hh; rw [e1] at hh; cases hh
        · intro s e pl r' p' hh; rw [e1] at hh; cases hh
        · intro s e m o p' hh
          rw [e1] at hh ⊢
          cases hh
          exact ⟨_, _, _, rfl, fun _ _ => ⟨rfl, rfl, rfl⟩⟩
        · intro o k p' hh; rw [e1] at hh; cases hh
    · exact .ofSAt (SAt.parseFunctionBody p n l hr)
        (fun r e => by simp [Parser.parseReader, hs, hn])

/-- The end of `parse`: what is done with the result of `parseReader`. -/
def finish (x : Except Err (Payload × Reader) × Parser) (eof : Bool) : Except Err Chunk × Parser :=
  match x with
  | (.ok (payload, r'), p') =>
    (.ok (.parsed r'.position payload), { p' with offset := p'.offset + r'.position })
  | (.error e, p') =>
    if eof then (.error e, p')
    else match e with
      | .eof _ hint => (.ok (.needMoreData hint), p')
      | .msg _ _ => (.error e, p')

/-- The most bytes a parser may look at. -/
def Parser.maxLen (p : Parser) : Nat := p.maxOffset.getD u64Max - p.offset

theorem parse_short {p : Parser} {b : List UInt8} (h : b.length ≤ p.maxLen) (e : Bool) :
    parse p b e = finish (parseReader p (Reader.new b p.offset) e) e := by
  unfold parse finish
  have h1 : ¬ (p.maxOffset.getD u64Max - p.offset < b.length) := by
    unfold Parser.maxLen at h; omega
  simp only [h1, false_and, if_false]
  rfl

theorem parse_long {p : Parser} {b : List UInt8} (h : p.maxLen < b.length)
    (hm : p.maxOffset ≠ none) (e : Bool) :
    parse p b e = finish (parseReader p (Reader.new (b.take p.maxLen) p.offset) true) true := by
  unfold parse finish
  have h1 : (p.maxOffset.getD u64Max - p.offset < b.length) := h
  simp only [h1, hm, and_false, if_false, if_true]
  rfl

theorem new_extend (b s : List UInt8) (o : Nat) :
    (Reader.new b o).extend s = Reader.new (b ++ s) o := rfl

theorem parse_append {p : Parser} {b s : List UInt8} (hb : b.length ≤ p.maxLen)
    (H : p.maxOffset = none → p.offset + (b ++ s).length ≤ u64Max) (e : Bool) :
    ∃ s' e', (e = true → e' = true) ∧ ∀ q : Parser, q.offset = p.offset → q.maxOffset = p.maxOffset →
      parse q (b ++ s) e =
        finish (parseReader q ((Reader.new b p.offset).extend s') e') e' := by
  by_cases h : p.maxLen < (b ++ s).length
  · have hm : p.maxOffset ≠ none := by
      intro hn
      have := H hn
      simp [Parser.maxLen, hn] at h
      simp at this
      omega
    refine ⟨s.take (p.maxLen - b.length), true, fun _ => rfl, fun q h1 h2 => ?_⟩
    have hml : q.maxLen = p.maxLen := by simp [Parser.maxLen, h1, h2]
    rw [parse_long (by rw [hml]; exact h) (by rw [h2]; exact hm), hml, List.take_append,
      List.take_of_length_le hb, h1]
    rfl
  · refine ⟨s, e, id, fun q h1 h2 => ?_⟩
    have hml : q.maxLen = p.maxLen := by simp [Parser.maxLen, h1, h2]
    rw [parse_short (by rw [hml]; omega), h1]
    rfl

theorem parse_trunc {p : Parser} {b s : List UInt8} (hb : p.maxLen < b.length)
    (H : p.maxOffset = none → p.offset + (b ++ s).length ≤ u64Max) (e e' : Bool) :
    parse p (b ++ s) e = parse p b e' ∧ ∃ x, parse p b e' = finish x true := by
  have hm : p.maxOffset ≠ none := by
    intro hn
    have := H hn
    simp [Parser.maxLen, hn] at hb
    simp at this
    omega
  rw [parse_long hb hm, parse_long (by simp; omega) hm,
    List.take_append_of_le_length (by omega)]
  exact ⟨rfl, _, rfl⟩

theorem finish_eof_needMore {x k p'} : finish x true ≠ (.ok (.needMoreData k), p') := by
  unfold finish
  split <;> simp

theorem finish_parsed {x e n pl p'} (h : finish x e = (.ok (.parsed n pl), p')) :
    ∃ r' q, x = (.ok (pl, r'), q) ∧ n = r'.position ∧ p' = { q with offset := q.offset + n } := by
  unfold finish at h
  split at h
  · cases h; exact ⟨_, _, rfl, rfl, rfl⟩
  · split at h
    · cases h
    · split at h <;> cases h

theorem finish_needMore {x e k p'} (h : finish x e = (.ok (.needMoreData k), p')) :
    e = false ∧ ∃ o, x = (.error (.eof o k), p') := by
  unfold finish at h
  split at h
  · cases h
  · split at h
    · cases h
    · split at h <;> cases h
      exact ⟨by simp_all, _, rfl⟩

theorem finish_error {x e er p'} (h : finish x e = (.error er, p')) :
    x = (.error er, p') ∧ (e = false → ∃ m o, er = .msg m o) := by
  unfold finish at h
  split at h
  · cases h
  · split at h
    · cases h; exact ⟨rfl, fun h => by simp_all⟩
    · split at h <;> cases h
      exact ⟨rfl, fun _ => ⟨_, _, rfl⟩⟩

theorem finish_ok_parsed {pl r' q e} : finish (.ok (pl, r'), q) e =
    (.ok (.parsed r'.position pl), { q with offset := q.offset + r'.position }) := rfl

theorem finish_msg {m o q e} : finish (.error (.msg m o), q) e = (.error (.msg m o), q) := by
  unfold finish; cases e <;> rfl

theorem parse_ok_mono {p : Parser} {b s : List UInt8} {e : Bool} {n pl p'}
    (H : p.maxOffset = none → p.offset + (b ++ s).length ≤ u64Max)
    (h : parse p b false = (.ok (.parsed n pl), p')) :
    parse p (b ++ s) e = (.ok (.parsed n pl), p') := by
  by_cases hb : b.length ≤ p.maxLen
  · obtain ⟨s', e', _, h2⟩ := parse_append hb H e
    rw [h2 p rfl rfl]
    rw [parse_short hb] at h
    obtain ⟨r', q, h3, rfl, rfl⟩ := finish_parsed h
    rw [(StepR.parseReader p (r := Reader.new b p.offset) (Nat.zero_le _)).ok s' e' _ _ _ h3]
    rfl
  · rw [(parse_trunc (by omega) H e false).1, h]

theorem parse_err_mono {p : Parser} {b s : List UInt8} {e : Bool} {er p'}
    (H : p.maxOffset = none → p.offset + (b ++ s).length ≤ u64Max)
    (h : parse p b false = (.error er, p')) :
    ∃ er' p'', parse p (b ++ s) e = (.error er', p'') ∧
      (p.maxOffset = none → p.offset + 99 ≤ u64Max → er' = er ∧ p'' = p') := by
  by_cases hb : b.length ≤ p.maxLen
  · obtain ⟨s', e', _, h2⟩ := parse_append hb H e
    rw [h2 p rfl rfl]
    rw [parse_short hb] at h
    obtain ⟨h3, h4⟩ := finish_error h
    obtain ⟨m, o, rfl⟩ := h4 rfl
    obtain ⟨m', o', p'', h5, h6⟩ :=
      (StepR.parseReader p (r := Reader.new b p.offset) (Nat.zero_le _)).msg s' e' _ _ _ h3
    rw [h5, finish_msg]
    refine ⟨_, _, rfl, fun hm ho => ?_⟩
    obtain ⟨rfl, rfl, rfl⟩ := h6 hm (by simpa [Reader.originalPosition, Reader.new] using ho)
    exact ⟨rfl, rfl⟩
  · exact ⟨_, _, by rw [(parse_trunc (by omega) H e false).1]; exact h, fun _ _ => ⟨rfl, rfl⟩⟩

theorem parse_more_mono {p : Parser} {b s : List UInt8} {e : Bool} {k p'}
    (H : p.maxOffset = none → p.offset + (b ++ s).length ≤ u64Max)
    (h : parse p b false = (.ok (.needMoreData k), p')) :
    0 < k ∧ p'.offset = p.offset ∧ p'.maxOffset = p.maxOffset ∧ p'.encoding = p.encoding ∧
    (parse p' (b ++ s) e = parse p (b ++ s) e ∨
     (p.encoding = .component ∧ (∃ er q, parse p' (b ++ s) e = (.error er, q)) ∧
        ∀ n pl q, parse p (b ++ s) e = (.ok (.parsed n pl), q) → IsStart pl)) := by
  by_cases hb : b.length ≤ p.maxLen
  · obtain ⟨s', e', _, h2⟩ := parse_append hb H e
    rw [parse_short hb] at h
    obtain ⟨_, o, h3⟩ := finish_needMore h
    obtain ⟨k1, k2, k3, k4, k5⟩ :=
      (StepR.parseReader p (r := Reader.new b p.offset) (Nat.zero_le _)).eof _ _ _ h3
    refine ⟨k1, k2, k3, k4, ?_⟩
    rw [h2 p rfl rfl, h2 p' k2 k3]
    rcases k5 s' e' with h6 | ⟨h6, ⟨m, o, q, h7⟩, h8⟩
    · rw [h6]; exact .inl rfl
    · refine .inr ⟨h6, ⟨_, _, by rw [h7, finish_msg]⟩, fun n pl q hh => ?_⟩
      obtain ⟨r', q', h9, _, _⟩ := finish_parsed hh
      exact h8 _ _ _ h9
  · obtain ⟨x, hx⟩ := (parse_trunc (by omega) H e false).2
    rw [hx] at h
    exact absurd h finish_eof_needMore

theorem parse_eof_ne_more {p : Parser} {b : List UInt8} {k p'} :
    parse p b true ≠ (.ok (.needMoreData k), p') := by
  by_cases hb : b.length ≤ p.maxLen
  · rw [parse_short hb]; exact finish_eof_needMore
  · by_cases hm : p.maxOffset = none
    · intro h
      unfold parse at h
      have h1 : (p.maxOffset.getD u64Max - p.offset < b.length) := by
        unfold Parser.maxLen at hb; omega
      dsimp only at h
      rw [if_pos ⟨h1, hm⟩] at h
      cases h
    · rw [parse_long (by omega) hm]; exact finish_eof_needMore

end Verif.Parser
