import Verif.Parser.Model
import Verif.Reader.Stable
/-! Stability of the parser under appending input. -/
namespace Verif.Parser
open Verif.Reader

theorem WellBehaved.noHint (x : Except Err α) : WellBehaved (noHint x) := by
  intro r hr
  unfold Parser.noHint
  constructor
  · intro a r' h
    cases x with
    | ok a => cases h; exact ⟨rfl, rfl, Nat.le_refl _, hr⟩
    | error e => cases h
  · intro s a r' h
    cases x with
    | ok a => cases h; rfl
    | error e => cases h
  · intro s m off h
    cases x with
    | ok a => cases h
    | error e => exact h
  · intro off hint h
    cases x with
    | ok a => cases h
    | error e => cases e <;> cases h

theorem WellBehaved.sectionOf (n : Nat) (c : Reader → Except Err α) :
    WellBehaved (sectionOf n c) :=
  (WellBehaved.skip ((WellBehaved.readBytes n).bind fun _ => .pure _)).bind
    fun _ => WellBehaved.noHint _

theorem WellBehaved.singleItem (e : Nat) (i : R α) (d : String) :
    WellBehaved (singleItem e i d) :=
  WellBehaved.readPos.bind fun _ =>
    (WellBehaved.skip ((WellBehaved.readBytes _).bind fun _ => .pure _)).bind fun _ =>
      (WellBehaved.noHint _).bind fun _ => .ite (.fail _ _) (.pure _)

theorem WellBehaved.delimited (n : Nat) {f : R α} (hf : WellBehaved f) :
    WellBehaved (delimited n f) :=
  WellBehaved.readPos.bind fun _ => hf.bind fun _ => WellBehaved.readPos.bind fun _ =>
    .ite (.pure _) (.fail _ _)

theorem WellBehaved.readSectionHeader (m : Option Nat) : WellBehaved (readSectionHeader m) :=
  WellBehaved.readPos.bind fun _ => WellBehaved.readU8.bind fun _ =>
    .ite (.fail _ _) (WellBehaved.readPos.bind fun _ => WellBehaved.readVarU32.bind fun _ =>
      WellBehaved.readPos.bind fun _ => .ite (.pure _) (.fail _ _))

/-- A parsing step that is stable under appending input and leaves parser `p` behind when
it runs out of input. -/
structure SAt (F : Reader → Except Err (Payload × Reader) × Parser) (p : Parser) (r : Reader) :
    Prop where
  bounds : ∀ pl r' p', F r = (.ok (pl, r'), p') → r'.buffer = r.buffer ∧
    r'.originalOffset = r.originalOffset ∧ r.position ≤ r'.position ∧
    r'.position ≤ r.buffer.length
  ok : ∀ s pl r' p', F r = (.ok (pl, r'), p') → F (r.extend s) = (.ok (pl, r'.extend s), p')
  msg : ∀ s m o p', F r = (.error (.msg m o), p') → F (r.extend s) = (.error (.msg m o), p')
  eof : ∀ o h p', F r = (.error (.eof o h), p') → p' = p ∧ 0 < h

theorem SAt.runBody {p : Parser} {body : R α} {fin : α → Nat → Except Err Payload × Parser}
    (hb : WellBehaved body)
    (hf : ∀ a n e p', fin a n = (.error e, p') → ∃ m o, e = .msg m o)
    {r : Reader} (hr : r.position ≤ r.buffer.length) : SAt (runBody p body fin) p r := by
  have w := hb r hr
  unfold Parser.runBody
  constructor
  · intro pl r' p' h
    split at h
    · cases h
    · rename_i a r1 h1
      split at h
      · cases h
      · cases h; exact w.bounds _ _ h1
  · intro s pl r' p' h
    split at h
    · cases h
    · rename_i a r1 h1
      rw [w.ok_ext s _ _ h1]
      simp only [extend_originalPosition]
      split at h
      · cases h
      · cases h; rfl
  · intro s m o p' h
    split at h
    · rename_i e h1
      cases h
      rw [w.msg_ext s _ _ h1]
    · rename_i a r1 h1
      rw [w.ok_ext s _ _ h1]
      simp only [extend_originalPosition]
      split at h
      · cases h; rfl
      · cases h
  · intro o hh p' h
    split at h
    · rename_i e h1
      cases h
      exact ⟨rfl, (w.eof_hint _ _ h1).1⟩
    · rename_i a r1 h1
      split at h
      · rename_i h2
        obtain ⟨m, o', e⟩ := hf _ _ _ _ h2
        cases h; cases e
      · cases h

theorem SAt.ite {c : Prop} [Decidable c] {F G : Reader → Except Err (Payload × Reader) × Parser}
    {p : Parser} {r : Reader} (hF : c → SAt F p r) (hG : ¬ c → SAt G p r) :
    SAt (fun r => if c then F r else G r) p r := by
  by_cases h : c
  · simp only [h, if_true]; exact hF h
  · simp only [h, if_false]; exact hG h

theorem checkFunctionCodeCounts_error {c : Counts} {n : Nat} {e : Err}
    (h : checkFunctionCodeCounts c n = .error e) : ∃ m o, e = .msg m o := by
  unfold checkFunctionCodeCounts at h
  repeat' split at h
  all_goals first | (cases h; done) | (cases h; exact ⟨_, _, rfl⟩)

theorem checkDataCount_error {c : Counts} {n : Nat} {e : Err}
    (h : checkDataCount c n = .error e) : ∃ m o, e = .msg m o := by
  unfold checkDataCount at h
  repeat' split at h
  all_goals first | (cases h; done) | (cases h; exact ⟨_, _, rfl⟩)

theorem SAt.moduleBody (p : Parser) (h : Header) {r : Reader}
    (hr : r.position ≤ r.buffer.length) : SAt (moduleBody p h) p r := by
  unfold Parser.moduleBody
  refine .ite (fun _ => ?_) fun _ => .ite (fun _ => ?_) fun _ => .ite (fun _ => ?_) fun _ =>
    .ite (fun _ => ?_) fun _ => .ite (fun _ => ?_) fun _ => ?_
  · exact .runBody (WellBehaved.sectionOf _ _) (fun a n e p' h => by cases h) hr
  · exact .runBody (WellBehaved.singleItem _ _ _) (fun a n e p' h => by cases h) hr
  · refine .runBody (WellBehaved.delimited _ .readVarU32) (fun a n e p' h => ?_) hr
    dsimp only at h
    split at h
    · rename_i h1; cases h; exact checkFunctionCodeCounts_error h1
    · cases h
  · refine .runBody (WellBehaved.sectionOf _ _) (fun a n e p' h => ?_) hr
    dsimp only at h
    split at h
    · rename_i h1; cases h; exact checkDataCount_error h1
    · cases h
  · exact .runBody (WellBehaved.singleItem _ _ _) (fun a n e p' h => by cases h) hr
  · exact .runBody (WellBehaved.sectionOf _ _) (fun a n e p' h => by cases h) hr

theorem SAt.unknownBody (p : Parser) (h : Header) {r : Reader}
    (hr : r.position ≤ r.buffer.length) : SAt (unknownBody p h) p r := by
  unfold Parser.unknownBody
  exact .runBody (WellBehaved.readPos.bind fun _ => (WellBehaved.readBytes _).bind fun _ => .pure _)
    (fun a n e p' h => by cases h) hr

/-- The parser left behind by `componentBody` when it runs out of input. -/
def startMark (p : Parser) (h : Header) : Parser :=
  if h.id = 9 ∧ p.counts.componentStartSections = false then
    { p with counts := { p.counts with componentStartSections := true } } else p

theorem SAt.componentBody (p : Parser) (h : Header) {r : Reader}
    (hr : r.position ≤ r.buffer.length) : SAt (componentBody p h) (startMark p h) r := by
  by_cases h9 : h.id = 9
  · cases hc : p.counts.componentStartSections
    · have e : startMark p h = { p with counts := { p.counts with componentStartSections := true } } := by
        simp [startMark, h9, hc]
      rw [e]
      have : Parser.componentBody p h = Parser.runBody
          { p with counts := { p.counts with componentStartSections := true } }
          (Parser.singleItem h.stop readComponentStart "component start")
          (fun ((f, as, n), rg) _ => (.ok (.componentStart f as n rg),
            { p with counts := { p.counts with componentStartSections := true } })) := by
        funext r
        simp [Parser.componentBody, h9, hc]
      rw [this]
      exact .runBody (WellBehaved.singleItem _ _ _) (fun a n e p' h => by cases h) hr
    · have : ∀ r, Parser.componentBody p h r = (.error (.msg
          "component cannot have more than one start function" r.originalPosition), p) := by
        intro r
        simp [Parser.componentBody, h9, hc]
      constructor
      · intro pl r' p' h; rw [this] at h; cases h
      · intro s pl r' p' h; rw [this] at h; cases h
      · intro s m o p' h; rw [this] at h ⊢; simpa using h
      · intro o hh p' h; rw [this] at h; cases h
  · have e : startMark p h = p := by simp [startMark, h9]
    rw [e]
    unfold Parser.componentBody
    simp only [h9, if_false]
    refine .ite (fun _ => .ite (fun _ => ?_) (fun _ => ?_)) fun _ => .ite (fun _ => ?_) fun _ => ?_
    · constructor
      · intro pl r' p' h; cases h
      · intro s pl r' p' h; cases h
      · intro s m o p' h; exact h
      · intro o hh p' h; cases h
    · constructor
      · intro pl r' p' h; cases h; exact ⟨rfl, rfl, Nat.le_refl _, hr⟩
      · intro s pl r' p' h; cases h; rfl
      · intro s m o p' h; cases h
      · intro o hh p' h; cases h
    · exact .runBody (WellBehaved.sectionOf _ _) (fun a n e p' h => by cases h) hr
    · exact .unknownBody p h hr

/-- What the parser becomes when `parseSection` runs out of input. -/
def retryParser (p : Parser) (h : Header) : Parser :=
  if h.id = 0 then p else
  match p.encoding with
  | .module =>
    match orderOf h.id with
    | some o =>
      match updateOrder p o h.start with
      | .error _ => p
      | .ok p' => p'
    | none => p
  | .component => startMark p h

theorem SAt.congr {F G : Reader → Except Err (Payload × Reader) × Parser} {p : Parser} {r : Reader}
    (h : SAt F p r) (e : F = G) : SAt G p r := e ▸ h

theorem SAt.const_msg {F : Reader → Except Err (Payload × Reader) × Parser} {p : Parser}
    {r : Reader} {m : String} {o : Nat} {p' : Parser}
    (e : ∀ r, F r = (.error (.msg m o), p')) : SAt F p r := by
  constructor
  · intro pl r' p' h; rw [e] at h; cases h
  · intro s pl r' p' h; rw [e] at h; cases h
  · intro s m o p' h; rw [e] at h ⊢; exact h
  · intro o hh p' h; rw [e] at h; cases h

theorem SAt.parseSection (p : Parser) (h : Header) {r : Reader}
    (hr : r.position ≤ r.buffer.length) : SAt (parseSection p h) (retryParser p h) r := by
  unfold retryParser
  by_cases h0 : h.id = 0
  · rw [if_pos h0]
    refine SAt.congr (.runBody (p := p) (WellBehaved.sectionOf h.len.toNat customNew)
      (fin := fun (n, rd) _ => (.ok (.custom n rd), p)) (fun a n e p' h => by cases h) hr) ?_
    funext r
    simp [Parser.parseSection, h0]
  · rw [if_neg h0]
    cases he : p.encoding with
    | component =>
      dsimp only
      refine SAt.congr (.componentBody p h hr) ?_
      funext r; simp [Parser.parseSection, h0, he]
    | module =>
      dsimp only
      cases ho : orderOf h.id with
      | none =>
        dsimp only
        refine SAt.congr (.unknownBody p h hr) ?_
        funext r; simp [Parser.parseSection, h0, he, ho]
      | some o =>
        dsimp only
        cases hu : updateOrder p o h.start with
        | error e =>
          have : ∃ m o, e = .msg m o := by
            unfold updateOrder at hu
            split at hu
            · cases hu; exact ⟨_, _, rfl⟩
            · cases hu
          obtain ⟨m, o', rfl⟩ := this
          refine SAt.const_msg (m := m) (o := o') (p' := p) fun r => ?_
          simp [Parser.parseSection, h0, he, ho, hu]
        | ok p' =>
          dsimp only
          refine SAt.congr (.moduleBody p' h hr) ?_
          funext r; simp [Parser.parseSection, h0, he, ho, hu]

theorem retryParser_fields (p : Parser) (h : Header) :
    (retryParser p h).state = p.state ∧ (retryParser p h).offset = p.offset ∧
    (retryParser p h).maxOffset = p.maxOffset ∧ (retryParser p h).encoding = p.encoding := by
  unfold retryParser updateOrder startMark
  repeat' split
  all_goals first | exact ⟨rfl, rfl, rfl, rfl⟩ | skip
  all_goals (rename_i h1; split at h1 <;> cases h1; exact ⟨rfl, rfl, rfl, rfl⟩)

theorem parseSection_retry_module (p : Parser) (h : Header) (r : Reader)
    (he : p.encoding = .module) : parseSection (retryParser p h) h r = parseSection p h r := by
  by_cases h0 : h.id = 0
  · simp [retryParser, h0]
  · cases ho : orderOf h.id with
    | none => simp [retryParser, h0, he, ho]
    | some o =>
      cases hu : updateOrder p o h.start with
      | error e => simp [retryParser, h0, he, ho, hu]
      | ok p' =>
        have hp' : p' = { p with order := (o, h.start) } := by
          unfold updateOrder at hu
          split at hu <;> cases hu; rfl
        have h2 : updateOrder p' o h.start = .ok p' := by
          unfold updateOrder
          rw [if_neg (by rw [hp']; simp), hp']
        have he' : p'.encoding = .module := by rw [hp']; exact he
        have hr : retryParser p h = p' := by simp [retryParser, h0, he, ho, hu]
        rw [hr]
        simp [parseSection, h0, he, he', ho, hu, h2]

/-- Retrying a section with the parser left behind by an end of input gives the same
result, except for the component start section. -/
theorem parseSection_retry (p : Parser) (h : Header) (r : Reader) :
    parseSection (retryParser p h) h r = parseSection p h r ∨
    ((∃ m o p', parseSection (retryParser p h) h r = (.error (.msg m o), p')) ∧
      ∀ pl r' p', parseSection p h r = (.ok (pl, r'), p') →
        ∃ f as n rg, pl = .componentStart f as n rg) := by
  by_cases h0 : h.id = 0
  · left; simp [retryParser, h0]
  · cases he : p.encoding with
    | module => exact .inl (parseSection_retry_module p h r he)
    | component =>
      by_cases h9 : h.id = 9
      · cases hc : p.counts.componentStartSections
        · right
          have hr : retryParser p h =
              { p with counts := { p.counts with componentStartSections := true } } := by
            simp [retryParser, startMark, h9, he, hc]
          refine ⟨⟨"component cannot have more than one start function", r.originalPosition,
            retryParser p h, by rw [hr]; simp [parseSection, componentBody, h9, he]⟩, ?_⟩
          intro pl r' p' hp
          simp [parseSection, componentBody, h9, he, hc, runBody] at hp
          split at hp
          · cases hp
          · simp at hp
            exact ⟨_, _, _, _, hp.1.1.symm⟩
        · left
          simp [retryParser, startMark, h9, he, hc]
      · left
        simp [retryParser, startMark, h9, he, h0]

end Verif.Parser
