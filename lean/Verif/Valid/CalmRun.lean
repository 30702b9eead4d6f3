import Verif.Valid.CalmTypes
import Verif.Parser.CountLemmas
/-! # A whole module is validated without panics -/
namespace Verif.Valid
open Verif.Reader Verif.Items
open Verif.Op.Calm
open Verif.Op.Typing Verif.Op.View
open Verif.Std (BSearch)
open Verif.TypeList (TypeList)
open Verif.Parser (Payload Event Drive DriveAll Parser)

variable {f : Feats} {bs : BSearch} {n : Nat}

/-! ## Sections -/

/-- The validator is in the module `s`. -/
structure AtState (V : Validator) (s : ModuleState) : Prop where
  state : V.state = .module
  module : V.module = some s

theorem ensure_calm {V : Validator} {s : ModuleState} (h : AtState V s) :
    NoPanic (ensureModule V) fun s' => s' = s := by
  unfold ensureModule
  rw [h.state]
  exact .orPanic ⟨s, h.module, rfl⟩

theorem sectionOf_calm {α : Type} {V : Validator} {s : ModuleState} {item : R α}
    {sec : SectionLimited} {start : ModuleState → X Unit} {g : ModuleState → α → X ModuleState}
    {I J : ModuleState → Prop} {P : α → Prop} (h : AtState V s) (hs : I s)
    (h1 : NoPanic (start s) fun _ => True) (hp : Yields item P)
    (h2 : ∀ s a, I s → P a → NoPanic (g s a) I) (hJ : ∀ s, I s → J s) :
    NoPanic (sectionOf V item sec start g) fun V' => V'.types = V.types ∧ ∃ s', AtState V' s' ∧ J s' := by
  refine (ensure_calm h).bind fun s' _ e => ?_
  subst e
  refine h1.bind fun _ _ _ => (NoPanic.eachItem hp h2 hs).bind fun s2 _ h2 => .pure ?_
  exact ⟨rfl, s2, ⟨h.state, rfl⟩, hJ s2 h2⟩

/-- What an item section leaves: the module is as before but for its items; only the function
section adds functions. -/
def After (f : Feats) (id : UInt8) (count : Nat) (c : Ctl) (V' : Validator) : Prop :=
  ∃ s', AtState V' s' ∧ Inv f V'.types { c with own := if id = 3 then c.own + count else c.own } s'

theorem typeSection_calm (hn : n + 1000000 ≤ 2 ^ 20) {V : Validator} {s : ModuleState} (h : AtState V s)
    (hy : Young f n V.types s) {sec : SectionLimited} :
    NoPanic (typeSection f V sec) fun V' => ∃ s', AtState V' s' ∧ Young f n V'.types s' := by
  refine (ensure_calm h).bind fun s' _ e => ?_
  subst e
  refine checkMax_calm.bind fun _ _ _ => (assertMut_calm (hy.inv hn).owned).bind fun _ _ _ => ?_
  refine NoPanic.bind (NoPanic.eachItem (I := fun (x : TypeList × ModuleState) => Young f n x.1 x.2)
    (P := fun g => ∃ r r', Types.readRecGroup r = .ok (g, r')) (fun r _ r' h => ⟨r, r', h⟩)
    (fun x g hx hg => addTypes_calm hn hg hx) (s := (V.types, s')) hy) fun x _ hx => .pure ?_
  exact ⟨x.2, ⟨h.state, rfl⟩, hx⟩

theorem start_calm {s : ModuleState} (ho : s.owned = true) {a b c : Nat} :
    NoPanic (do checkMax a b c; s.assertMut : X Unit) fun _ => True :=
  checkMax_calm.bind fun _ _ _ => assertMut_calm ho

theorem itemSection_calm {V : Validator} {s : ModuleState} {c : Ctl} {id : UInt8}
    {sec : SectionLimited} (h : AtState V s) (hi : Inv f V.types c s) (hid : id ≠ 1)
    (ho : id = 11 ∨ c.owned = true) :
    NoPanic (itemSection f bs V id sec) fun V' => V'.types = V.types ∧
      After f id sec.count.toNat c V' := by
  have fin : id ≠ 3 → ∀ {V' : Validator},
      (V'.types = V.types ∧ ∃ s', AtState V' s' ∧ Inv f V.types c s') →
      V'.types = V.types ∧ After f id sec.count.toNat c V' := by
    rintro h3 V' ⟨e, s', h4, h5⟩
    refine ⟨e, s', h4, ?_⟩
    rw [e]
    simpa only [if_neg h3] using h5
  unfold itemSection
  dsimp only
  rw [if_neg hid]
  by_cases h2 : id = 2
  · subst h2
    rw [if_pos rfl]
    have hc := ho.resolve_left (by decide)
    exact (sectionOf_calm h hi (start_calm (hi.owned.trans hc)) (yields_imports _)
      (fun s a hs ha => addImports_calm hc hs ha) fun _ h => h).mono fun _ => fin (by decide)
  rw [if_neg h2]
  by_cases h3 : id = 3
  · subst h3
    rw [if_pos rfl]
    have hc := ho.resolve_left (by decide)
    refine (ensure_calm h).bind fun s' _ e => ?_
    subst e
    refine (start_calm (hi.owned.trans hc)).bind fun _ _ _ => ?_
    refine (NoPanic.eachCount (item := readVarU32) (g := addFunction V.types)
      (I := fun j s => Inv f V.types { c with own := c.own + j } s)
      (fun j s a hs => addFunction_calm (c := { c with own := c.own + j }) hc hs) _ 0 _ _ hi).bind fun s2 _ h2 => .pure ?_
    refine ⟨rfl, s2, ⟨h.state, rfl⟩, ?_⟩
    rw [Nat.zero_add] at h2
    exact h2
  rw [if_neg h3]
  have fin {V'} := @fin h3 V'
  by_cases h4 : id = 4
  · subst h4
    rw [if_pos rfl]
    have hc := ho.resolve_left (by decide)
    exact (sectionOf_calm h hi (start_calm (hi.owned.trans hc)) (yields_table _)
      (fun s a hs ha => addTable_calm hc hs ha) fun _ h => h).mono fun _ => fin
  rw [if_neg h4]
  by_cases h5 : id = 5
  · subst h5
    rw [if_pos rfl]
    have hc := ho.resolve_left (by decide)
    exact (sectionOf_calm (P := fun _ => True) h hi (start_calm (hi.owned.trans hc))
      (fun _ _ _ _ => trivial)
      (fun s a hs ha => addMemory_calm hc hs) fun _ h => h).mono fun _ => fin
  rw [if_neg h5]
  by_cases h6 : id = 6
  · subst h6
    rw [if_pos rfl]
    have hc := ho.resolve_left (by decide)
    exact (sectionOf_calm h hi (start_calm (hi.owned.trans hc)) (yields_global _)
      (fun s a hs ha => addGlobal_calm hc hs ha) fun _ h => h).mono fun _ => fin
  rw [if_neg h6]
  by_cases h7 : id = 7
  · subst h7
    rw [if_pos rfl]
    have hc := ho.resolve_left (by decide)
    exact (sectionOf_calm (P := fun _ => True) h hi (start_calm (hi.owned.trans hc))
      (fun _ _ _ _ => trivial)
      (fun s a hs ha => addExport_calm hc hs) fun _ h => h).mono fun _ => fin
  rw [if_neg h7]
  by_cases h9 : id = 9
  · subst h9
    rw [if_pos rfl]
    have hc := ho.resolve_left (by decide)
    exact (sectionOf_calm h hi (start_calm (hi.owned.trans hc)) (yields_element _)
      (fun s a hs ha => addElementSegment_calm hc hs ha) fun _ h => h).mono fun _ => fin
  rw [if_neg h9]
  by_cases h11 : id = 11
  · subst h11
    rw [if_pos rfl]
    exact (sectionOf_calm h hi checkMax_calm.unit (yields_data _)
      (fun s a hs ha => addDataSegment_calm hs ha) fun _ h => h).mono fun _ => fin
  rw [if_neg h11]
  by_cases h13 : id = 13
  · subst h13
    rw [if_pos rfl]
    have hc := ho.resolve_left (by decide)
    exact NoPanic.need.bind fun _ _ _ => (sectionOf_calm (P := fun _ => True) h hi
      (start_calm (hi.owned.trans hc)) (fun _ _ _ _ => trivial)
      (fun s a hs ha => addTag_calm hc hs) fun _ h => h).mono fun _ => fin
  rw [if_neg h13]
  exact .err

/-! ## What the parser says -/

/-- While bodies are left, the parser reports bodies. -/
theorem parse_body {p p' : Parser} {b : List UInt8} {e k pl}
    (h : Parser.parse p b e = (.ok (.parsed k pl), p')) :
    p.state.rem = 0 ∨ ∃ r, pl = .codeEntry r := by
  obtain ⟨d, e', r', q, hd, hs, hp, he, rfl, hnd, _, _, rfl, hl, _⟩ := Parser.parse_eff h
  unfold Parser.parseReader at hp
  split at hp
  · next h => left; rw [h]; rfl
  · next h => left; rw [h]; rfl
  · next h =>
    repeat' split at hp
    · left; rw [h]; simpa [Parser.State.rem]
    · cases hp
    · unfold Parser.parseFunctionBody at hp
      obtain ⟨a, _, h2⟩ := Parser.runBody_ok hp
      cases h2
      exact .inr ⟨_, rfl⟩

theorem moduleBody_start {p p' : Parser} {h : Parser.Header} {r r' : Reader} {c rg sz}
    (hh : Parser.moduleBody p h r = (.ok (.codeStart c rg sz, r'), p')) :
    p'.counts.functionEntries.getD 0 = c.toNat := by
  unfold Parser.moduleBody at hh
  repeat' split at hh
  all_goals obtain ⟨a, h1, h2⟩ := Parser.runBody_ok hh
  all_goals dsimp only at h2
  all_goals try split at h2
  all_goals cases h2
  next hc => exact Parser.check1_spec hc

theorem sectionStart_start {p p' : Parser} {r r' : Reader} {e c rg sz}
    (hm : p.encoding = .module)
    (hh : Parser.parseSectionStart p r e = (.ok (.codeStart c rg sz, r'), p')) :
    p'.counts.functionEntries.getD 0 = c.toNat := by
  unfold Parser.parseSectionStart at hh
  split at hh
  · split at hh
    · cases hh
    · split at hh <;> cases hh
  · split at hh
    · cases hh
    · split at hh
      · cases hh
      · unfold Parser.parseSection at hh
        split at hh
        · obtain ⟨a, _, h2⟩ := Parser.runBody_ok hh
          cases h2
        · rw [hm] at hh
          dsimp only at hh
          split at hh
          · split at hh
            · cases hh
            · exact moduleBody_start hh
          · unfold Parser.unknownBody at hh
            obtain ⟨a, _, h2⟩ := Parser.runBody_ok hh
            cases h2

/-- When the code section starts, there are as many bodies as functions. -/
theorem parse_start {p p' : Parser} {b : List UInt8} {e k c rg sz} (hm : p.encoding = .module)
    (h : Parser.parse p b e = (.ok (.parsed k (.codeStart c rg sz)), p')) :
    p'.counts.functionEntries.getD 0 = c.toNat := by
  obtain ⟨d, e', r', q, hd, hs, hp, he, rfl, hnd, _, _, rfl, hl, _⟩ := Parser.parse_eff h
  show q.counts.functionEntries.getD 0 = _
  unfold Parser.parseReader at hp
  split at hp
  · unfold Parser.parseHeader at hp
    dsimp only at hp
    repeat' split at hp
    all_goals cases hp
  · exact sectionStart_start hm hp
  · repeat' split at hp
    · exact sectionStart_start (p := { p with state := .sectionStart }) hm hp
    · cases hp
    · unfold Parser.parseFunctionBody at hp
      obtain ⟨a, _, h2⟩ := Parser.runBody_ok hp
      cases h2

/-- The first payload is the version. -/
theorem parse_header {p p' : Parser} {b : List UInt8} {e k pl} (hs : p.state = .header)
    (h : Parser.parse p b e = (.ok (.parsed k pl), p')) :
    (∃ num rg, pl = .version num p'.encoding rg) ∧ p'.state = .sectionStart ∧
      p'.counts = p.counts ∧ p'.order = p.order := by
  obtain ⟨d, e', r', q, hd, _, hp, he, rfl, hnd, _, _, rfl, hl, _⟩ := Parser.parse_eff h
  unfold Parser.parseReader at hp
  rw [hs] at hp
  unfold Parser.parseHeader at hp
  dsimp only at hp
  repeat' split at hp
  all_goals cases hp
  all_goals exact ⟨⟨_, _, rfl⟩, rfl, rfl, rfl⟩

/-! ## The parser and the validator -/

/-- What the parser knows of the module in which the validator is. -/
structure Run (f : Feats) (n : Nat) (p : Parser) (V : Validator) (s : ModuleState) (c : Ctl) :
    Prop where
  at_ : AtState V s
  inv : Inv f V.types c s
  young : p.order.1.rank = 0 → Young f n V.types s
  owned : p.order.1.rank < 12 → c.owned = true ∧ c.codeIndex = none
  own : c.own = p.counts.functionEntries.getD 0
  funcs : p.order.1.rank < 3 → p.counts.functionEntries = none
  bodies : p.state.rem ≠ 0 → 12 ≤ p.order.1.rank ∧ c.snapshot = some V.types ∧
    c.codeIndex.getD s.m.numImportedFunctions + p.state.rem = s.m.functions.length

/-- A function whose module is as it should be. -/
def FnOk (f : Feats) (fn : FuncToValidate) : Prop :=
  ∃ T s, fn.types = some T ∧ Good f T s ∧ fn.m = s.m ∧ fn.ty ∈ s.m.functions

/-- What `payload` leaves. -/
def PayOk (f : Feats) (n : Nat) (p' : Parser) (pl : Payload)
    (x : Validator × Option (FuncToValidate × Reader)) : Prop :=
  (∀ fn, x.2 = some fn → FnOk f fn.1) ∧ (Parser.IsEnd pl → x.1.state = .ended) ∧
  (¬ Parser.IsEnd pl → ¬ Parser.IsComponent pl ∧ ∃ s c, Run f n p' x.1 s c)

theorem orderOf_ranks {id : UInt8} {o : Parser.Order} (h : Parser.orderOf id = some o) :
    (id = 1 → o.rank = 1) ∧ (id = 3 → o.rank = 3) ∧ (id = 10 → o.rank = 12) ∧
    (id ≠ 10 → id ≠ 11 → o.rank < 12) ∧ 1 ≤ o.rank ∧ (o.rank < 3 → id ≠ 3) := by
  have h2 := (Parser.orderOf_spec h).2.1
  cases o
  case initial => have := (Parser.orderOf_spec h).1; simp [Parser.Order.rank] at this
  all_goals
    simp only [Parser.Order.rank, Parser.moduleOrder] at h2
    cases h2
    decide

theorem Run.same {p p' : Parser} {V : Validator} {s : ModuleState} {c : Ctl} {pl : Payload}
    (h : Run f n p V s c) (ho : p'.order.1 = p.order.1)
    (hc : p'.counts.functionEntries = p.counts.functionEntries) (hr : p'.state.rem = 0) :
    Run f n p' V s c where
  at_ := h.at_
  inv := h.inv
  young := by rw [ho]; exact h.young
  owned := by rw [ho]; exact h.owned
  own := by rw [hc]; exact h.own
  funcs := by rw [ho, hc]; exact h.funcs
  bodies hh := absurd hr hh

/-- The same module after a section that is not the function section. -/
theorem Run.later {p p' : Parser} {V V' : Validator} {s s' : ModuleState} {c c' : Ctl}
    (h : Run f n p V s c) (hlt : p.order.1.rank < p'.order.1.rank)
    (hc : p'.counts.functionEntries = p.counts.functionEntries) (hr : p'.state.rem = 0)
    (ha : AtState V' s') (hi : Inv f V'.types c' s') (h1 : c'.owned = c.owned)
    (h2 : c'.codeIndex = c.codeIndex) (h3 : c'.own = c.own) : Run f n p' V' s' c' where
  at_ := ha
  inv := hi
  young hh := by omega
  owned hh := by rw [h1, h2]; exact h.owned (by omega)
  own := by rw [hc, h3]; exact h.own
  funcs hh := by rw [hc]; exact h.funcs (by omega)
  bodies hh := absurd hr hh

theorem notEnd {α : Prop} {pl : Payload} (h : ∀ o, pl ≠ .endOf o) : Parser.IsEnd pl → α :=
  fun ⟨o, e⟩ => absurd e (h o)

theorem notComp {pl : Payload} (h : ∀ a b c, pl ≠ .version a b c) : ¬ Parser.IsComponent pl :=
  fun ⟨_, _, e⟩ => h _ _ _ e

theorem payload_calm (hn : n + 1000000 ≤ 2 ^ 20) {p p' : Parser} {V : Validator}
    {s : ModuleState} {c : Ctl} (h : Run f n p V s c) (hm : p.encoding = .module)
    (ho : p.order.2 ≤ p.offset) {b : List UInt8} {e k pl}
    (hp : Parser.parse p b e = (.ok (.parsed k pl), p')) :
    NoPanic (payload f bs V pl) (PayOk f n p' pl) := by
  have hO := (Parser.parse_order hm ho hp).2
  have hC := Parser.parse_counts hm hp
  have hB := parse_body hp
  have hf := hC.f
  have hr := hC.rem
  cases pl with
  | version num enc rg =>
    refine NoPanic.bind (P := fun _ => True) ?_ fun _ he _ => ?_
    · unfold version; rw [h.at_.state]; exact .err
    · unfold version at he; rw [h.at_.state] at he; cases he
  | nested => exact .err
  | componentStart => exact .err
  | unknown => exact .err
  | custom nm rd =>
    have h0 := hB.resolve_right (by rintro ⟨_, ⟨⟩⟩)
    refine .pure ⟨nofun, notEnd nofun, fun _ => ⟨notComp nofun, s, c, h.same (pl := .custom nm rd) ?_ hf ?_⟩⟩
    · rcases hO with hO | ⟨_, ⟨⟩, _⟩
      exact hO.2
    · simpa [Parser.isBody, Parser.announces, h0] using hr
  | endOf o =>
    refine NoPanic.bind (P := fun V' => V'.state = .ended) ?_ fun V' _ hV' =>
      .pure ⟨nofun, fun _ => hV', fun hh => absurd ⟨o, rfl⟩ hh⟩
    unfold endOf
    rw [h.at_.state]
    exact (NoPanic.orPanic ⟨s, h.at_.module, trivial⟩).bind (P := fun _ => True) fun _ _ _ => .pure rfl
  | limited id count rd =>
    have h0 := hB.resolve_right (by rintro ⟨_, ⟨⟩⟩)
    obtain ⟨id', e1, hlt, hid⟩ : ∃ id', Parser.sectionId? (.limited id count rd) = some id' ∧ _ :=
      hO.resolve_left (by rintro ⟨⟨⟩, _⟩)
    cases e1
    obtain ⟨r1, r3, -, r11, r0, -⟩ := orderOf_ranks hid
    by_cases h10 : id = 10
    · subst h10
      exact .err
    have hr0 : p'.state.rem = 0 := by
      simpa [Parser.isBody, Parser.announces, h0, h10] using hr
    by_cases h1 : id = 1
    · subst h1
      have hz : p.order.1.rank = 0 := by have := r1 rfl; omega
      refine NoPanic.bind (typeSection_calm hn h.at_ (h.young hz)) fun V' _ hV' => .pure ?_
      obtain ⟨s', ha, hy⟩ := hV'
      refine ⟨nofun, notEnd nofun, fun _ => ⟨notComp nofun, s', ⟨true, none, none, 0⟩, ?_⟩⟩
      have hfe := h.funcs (by omega)
      have hfe' : p'.counts.functionEntries = none := by rw [hf, hfe]; rfl
      exact
        { at_ := ha, inv := hy.inv hn, young := fun hh => by omega, owned := fun _ => ⟨rfl, rfl⟩
          own := by rw [hfe']; rfl
          funcs := fun _ => hfe'
          bodies := fun hh => absurd hr0 hh }
    · refine NoPanic.bind (itemSection_calm h.at_ h.inv h1 ?_) fun V' _ hV' => .pure ?_
      · by_cases h11 : id = 11
        · exact .inl h11
        · exact .inr (h.owned (by have := r11 h10 h11; omega)).1
      · obtain ⟨eT, s', ha, hi⟩ := hV'
        refine ⟨nofun, notEnd nofun, fun _ => ⟨notComp nofun, s',
          { c with own := if id = 3 then c.own + count.toNat else c.own }, ?_⟩⟩
        by_cases h3 : id = 3
        · subst h3
          have hfe := h.funcs (by have := r3 rfl; omega)
          have hfe' : p'.counts.functionEntries = some count.toNat := by rw [hf]; rfl
          have hown := h.own
          rw [hfe] at hown
          refine
            { at_ := ha, inv := hi, young := fun hh => by omega
              owned := fun hh => h.owned (by omega)
              own := ?_
              funcs := fun hh => absurd (r3 rfl) (by omega)
              bodies := fun hh => absurd hr0 hh }
          rw [hfe']
          show c.own + count.toNat = count.toNat
          rw [hown]
          exact Nat.zero_add _
        · refine h.later hlt ?_ hr0 ha hi rfl rfl ?_
          · rw [hf]; simp [Parser.announces, h3]
          · simp [h3]
  | start func rg =>
    have h0 := hB.resolve_right (by rintro ⟨_, ⟨⟩⟩)
    obtain ⟨id', e1, hlt, hid⟩ : ∃ id, Parser.sectionId? (.start func rg) = some id ∧ _ :=
      hO.resolve_left (by rintro ⟨⟨⟩, _⟩)
    refine NoPanic.bind (P := fun V' => V' = V) ?_ fun V' _ hV' => .pure ?_
    · refine (ensure_calm h.at_).bind fun s' _ e => ?_
      subst e
      exact (getFuncType_calm h.inv.hist).bind fun _ _ _ => NoPanic.need.bind fun _ _ _ => .pure rfl
    · subst hV'
      refine ⟨nofun, notEnd nofun, fun _ => ⟨notComp nofun, s, c, h.later hlt hf ?_ h.at_ h.inv
        rfl rfl rfl⟩⟩
      simpa [Parser.isBody, Parser.announces, h0] using hr
  | dataCount count rg =>
    have h0 := hB.resolve_right (by rintro ⟨_, ⟨⟩⟩)
    obtain ⟨id', e1, hlt, hid⟩ : ∃ id, Parser.sectionId? (.dataCount count rg) = some id ∧ _ :=
      hO.resolve_left (by rintro ⟨⟨⟩, _⟩)
    cases e1
    obtain ⟨-, -, -, r11, -⟩ := orderOf_ranks hid
    have hc := (h.owned (by have := r11 (by decide) (by decide); omega)).1
    refine NoPanic.bind (P := fun V' => V'.types = V.types ∧ ∃ s', AtState V' s' ∧ Inv f V.types c s') ?_
      fun V' _ hV' => .pure ?_
    · refine (ensure_calm h.at_).bind fun s' _ e => ?_
      subst e
      refine NoPanic.need.bind fun _ _ _ => (assertMut_calm (h.inv.owned.trans hc)).bind
        fun _ _ _ => .pure ⟨rfl, _, ⟨h.at_.state, rfl⟩, ?_⟩
      have hi := h.inv
      exact ⟨⟨hi.hist.of rfl hi.hist.tags, ⟨hi.items.globals, hi.items.tables, hi.items.elems,
        hi.items.funcs⟩, hi.small, hi.tagsIn⟩, hi.owned, hi.snapshot, hi.codeIndex, hi.own⟩
    · obtain ⟨eT, s', ha, hi⟩ := hV'
      rw [← eT] at hi
      refine ⟨nofun, notEnd nofun, fun _ => ⟨notComp nofun, s', c, h.later hlt hf ?_ ha hi
        rfl rfl rfl⟩⟩
      simpa [Parser.isBody, Parser.announces, h0] using hr
  | codeStart count rg size =>
    have h0 := hB.resolve_right (by rintro ⟨_, ⟨⟩⟩)
    obtain ⟨id', e1, hlt, hid⟩ : ∃ id, Parser.sectionId? (.codeStart count rg size) = some id ∧ _ :=
      hO.resolve_left (by rintro ⟨⟨⟩, _⟩)
    cases e1
    obtain ⟨-, -, r10, -⟩ := orderOf_ranks hid
    have r10 := r10 rfl
    obtain ⟨hc, hci⟩ := h.owned (by omega)
    have hst := parse_start hm hp
    have hr : p'.state.rem = count.toNat := by
      simpa [Parser.isBody, Parser.announces, h0] using hr
    have hf : p'.counts.functionEntries = p.counts.functionEntries := hf
    have hi := h.inv
    refine NoPanic.bind (P := fun V' => V' =
        { V with module := some { s with snapshot := some V.types } }) ?_ fun V' _ hV' => .pure ?_
    · refine (ensure_calm h.at_).bind fun s' _ e => ?_
      subst e
      exact (assertMut_calm (hi.owned.trans hc)).bind fun _ _ _ => .pure rfl
    · subst hV'
      refine ⟨nofun, notEnd nofun, fun _ => ⟨notComp nofun, { s with snapshot := some V.types },
        { c with snapshot := some V.types }, ?_⟩⟩
      refine
        { at_ := ⟨h.at_.state, rfl⟩
          inv := ⟨⟨hi.hist, hi.items, hi.small, hi.tagsIn⟩, hi.owned, rfl, hi.codeIndex, hi.own⟩
          young := fun hh => by omega
          owned := fun hh => by omega
          own := by rw [hf]; exact h.own
          funcs := fun hh => by omega
          bodies := fun _ => ⟨by omega, rfl, ?_⟩ }
      show c.codeIndex.getD s.m.numImportedFunctions + p'.state.rem = s.m.functions.length
      rw [hci, hr, hi.own, h.own, ← hf, hst]
      rfl
  | codeEntry body =>
    have hr : p'.state.rem + 1 = p.state.rem := by
      simpa [Parser.isBody, Parser.announces] using hr
    have ho : p'.order.1 = p.order.1 := by
      rcases hO with hO | ⟨_, ⟨⟩, _⟩
      exact hO.2
    have hf : p'.counts.functionEntries = p.counts.functionEntries := hf
    obtain ⟨hrank, hsnap, hidx⟩ := h.bodies (by omega)
    rw [← ho] at hrank
    have hi := h.inv
    have hlt : s.codeIndex.getD s.m.numImportedFunctions < s.m.functions.length := by
      rw [hi.codeIndex]; omega
    refine NoPanic.bind (P := fun (x : Validator × FuncToValidate) =>
      x.1 = { V with module := some { s with
        codeIndex := some (s.codeIndex.getD s.m.numImportedFunctions + 1), owned := false } } ∧
      x.2.m = s.m ∧ x.2.types = s.snapshot ∧ x.2.ty ∈ s.m.functions) ?_ fun x _ hx => .pure ?_
    · refine (ensure_calm h.at_).bind fun s' _ e => ?_
      subst e
      refine checkMax_calm.bind fun _ _ _ => ?_
      refine NoPanic.bind (P := fun (x : BitVec 32 × ModuleState) => x.1 ∈ s'.m.functions ∧
        x.2 = { s' with codeIndex := some (s'.codeIndex.getD s'.m.numImportedFunctions + 1) }) ?_
        fun x _ hx => .pure ⟨?_, ?_, ?_, hx.1⟩
      · exact (NoPanic.orPanic (Q := fun ty => ty ∈ s'.m.functions)
          ⟨_, List.getElem?_eq_getElem hlt, List.getElem_mem hlt⟩).bind fun ty _ hty =>
            .pure ⟨hty, rfl⟩
      · rw [hx.2]
      · rw [hx.2]
      · rw [hx.2]
    · obtain ⟨e1, e2, e3, e4⟩ := hx
      refine ⟨?_, notEnd nofun, fun _ => ⟨notComp nofun, { s with
          codeIndex := some (s.codeIndex.getD s.m.numImportedFunctions + 1), owned := false },
        { c with
          owned := false
          codeIndex := some (s.codeIndex.getD s.m.numImportedFunctions + 1) }, ?_⟩⟩
      · intro fn hfn
        cases hfn
        exact ⟨V.types, s, e3.trans (hi.snapshot.trans hsnap), hi.toGood, e2, e4⟩
      · rw [e1]
        refine
          { at_ := ⟨h.at_.state, rfl⟩
            inv := ⟨⟨hi.hist, hi.items, hi.small, hi.tagsIn⟩, rfl, hi.snapshot, rfl, hi.own⟩
            young := fun hh => by omega
            owned := fun hh => by omega
            own := by rw [hf]; exact h.own
            funcs := fun hh => by omega
            bodies := fun _ => ⟨by omega, hsnap, ?_⟩ }
        show s.codeIndex.getD s.m.numImportedFunctions + 1 + p'.state.rem = s.m.functions.length
        rw [hi.codeIndex]
        omega

/-! ## The whole input -/

theorem done_end {p' : Parser} {pl : Payload} (h : Parser.next pl p' [] = none) :
    Parser.IsEnd pl := by
  unfold Parser.next at h
  split at h
  · cases h
  · exact ⟨_, rfl⟩
  · cases h

theorem step_end {p' : Parser} {pl : Payload} {x} (h : Parser.next pl p' [] = some x) :
    ¬ Parser.IsEnd pl := by
  rintro ⟨o, rfl⟩
  cases h

theorem drive_calm (hn : n + 1000000 ≤ 2 ^ 20) {p : Parser} {st : List Parser} {buf : List UInt8}
    {fut : List (List UInt8)} {tr : List Event} {out} (h : Drive p st buf fut tr out) :
    ∀ {V s c}, Run f n p V s c → st = [] → fut = [] → p.encoding = .module → p.maxOffset = none →
      p.order.2 ≤ p.offset →
      NoPanic (payloads f bs V tr) fun x =>
        (∀ fn ∈ x.2, FnOk f fn.1) ∧ (out = none → x.1.state = .ended) := by
  induction h with
  | more h1 h2 ih => intro _ _ _ _ _ hf; cases hf
  | @step p p' st buf fut k pl q st' tr out h1 h2 h3 ih =>
    rintro V s c hr rfl rfl hm hx ho
    refine (payload_calm hn hr hm ho h1).bind fun x _ hx' => ?_
    obtain ⟨a1, a2, a3⟩ := hx'
    obtain ⟨a3, s', c', hr'⟩ := a3 (step_end h2)
    obtain ⟨rfl, rfl, f1, f2, f3, f4⟩ := Parser.module_next hm hx a3 h1 h2
    have o1 := (Parser.parse_order hm ho h1).1
    refine (ih hr' rfl rfl f1 f2 (by rw [f3]; exact o1)).bind fun y _ hy => .pure ⟨?_, hy.2⟩
    intro fn hfn
    rcases List.mem_append.1 hfn with hfn | hfn
    · exact a1 fn (Option.mem_toList.1 hfn)
    · exact hy.1 fn hfn
  | @done p p' st buf fut k pl h1 h2 =>
    rintro V s c hr rfl rfl hm hx ho
    refine (payload_calm hn hr hm ho h1).bind fun x _ hx' => ?_
    obtain ⟨a1, a2, a3⟩ := hx'
    refine NoPanic.bind (P := fun y => y = (x.1, [])) (.pure rfl) fun y _ hy => .pure ?_
    subst hy
    refine ⟨?_, fun _ => a2 (done_end h2)⟩
    intro fn hfn
    rcases List.mem_append.1 hfn with hfn | hfn
    · exact a1 fn (Option.mem_toList.1 hfn)
    · cases hfn
  | err h1 => exact fun _ _ _ _ _ _ => .pure ⟨nofun, nofun⟩

theorem validateFunc_calm {fn : FuncToValidate} (h : FnOk f fn) {body : Reader} :
    NoPanic (validateFunc f bs fn body) fun _ => True := by
  obtain ⟨T, s, h1, h2, h3, h4⟩ := h
  obtain ⟨id, x, ps, rs, h5, h6, h7⟩ := h2.items.funcs _ h4
  refine NoPanic.bind (P := fun T' => T' = T) (.orPanic ⟨T, h1, rfl⟩) fun T' _ e => ?_
  subst e
  rw [h3]
  have hsub : (env f bs T' s.m).R.subTypeAt fn.ty = some x := by
    show (s.m.types[fn.ty.toNat]? >>= fun id => (listOf T')[id]?) = _
    rw [h5]
    exact h6
  dsimp only
  split
  · next hne =>
    unfold Op.newFunc at hne
    rw [hsub] at hne
    dsimp only at hne
    rw [h7] at hne
    cases hne
  · next S hS =>
    have := trip_validate (h2.fine (bs := bs)) (same_own _ _) f.reader.toFeatures body S
      (newFunc_wf h2.fine hS)
    exact ⟨this.2.1, fun _ _ => trivial⟩

theorem validateFuncs_calm : ∀ {fns : List (FuncToValidate × Reader)},
    (∀ fn ∈ fns, FnOk f fn.1) → NoPanic (validateFuncs f bs fns) fun _ => True
  | [], _ => .pure trivial
  | (fn, body) :: _, h => (validateFunc_calm (h (fn, body) (by simp))).bind fun _ _ _ =>
    validateFuncs_calm fun fn hfn => h fn (by simp [hfn])

/-- The first payload, and the rest. -/
theorem all_calm {off : Nat} {data : List UInt8} {tr : List Event} {out}
    (hd : DriveAll (Parser.new off) data tr out) {ops os z} (hT : TypeList.Reaches f.types ops os z)
    {V : Validator} (hV : V.types = z.types) (hs : V.state = .unparsed) (hmod : V.module = none)
    (hn : V.types.coreTypes.length + 1000000 ≤ 2 ^ 20) :
    NoPanic (payloads f bs V tr) fun x =>
      (∀ fn ∈ x.2, FnOk f fn.1) ∧ (out = none → x.1.state = .ended) := by
  unfold DriveAll at hd
  generalize hp : Parser.new off = p at hd
  generalize hst : ([] : List Parser) = st at hd
  generalize hfu : ([] : List (List UInt8)) = fut at hd
  cases hd with
  | more => cases hfu
  | err => exact .pure ⟨nofun, nofun⟩
  | @done _ p' _ _ _ k pl h1 h2 =>
    subst hst
    obtain ⟨⟨num, rg, rfl⟩, -⟩ := parse_header (by rw [← hp]; rfl) h1
    obtain ⟨o, ⟨⟩⟩ := done_end h2
  | @step _ p' _ _ _ k pl q st' tr _ h1 h2 h3 =>
    subst hst hfu hp
    obtain ⟨⟨num, rg, rfl⟩, e1, e2, e3⟩ := parse_header rfl h1
    refine NoPanic.bind (P := fun (x : Validator × Option (FuncToValidate × Reader)) =>
      p'.encoding = .module ∧ x = (⟨V.types, .module, some .new⟩, none)) ?_ fun x _ hx => ?_
    · refine NoPanic.bind (P := fun V' => p'.encoding = .module ∧ V' = ⟨V.types, .module, some .new⟩)
        ?_ fun V' _ hV' => .pure ⟨hV'.1, by rw [hV'.2]⟩
      unfold version
      rw [hs]
      dsimp only
      split
      · next he =>
        refine .ite (fun _ => ?_) fun _ => .err
        rw [hmod]
        exact .pure ⟨he, rfl⟩
      · exact .err
    · obtain ⟨he, rfl⟩ := hx
      have hc : ¬ Parser.IsComponent (.version num p'.encoding rg) := by
        rintro ⟨_, _, h⟩
        rw [he] at h
        cases h
      obtain ⟨rfl, rfl, f1, f2, f3, f4⟩ := Parser.module_next rfl rfl hc h1 h2
      have hy : Young f V.types.coreTypes.length V.types .new := by
        rw [hV]; exact young_new hT
      have hr : Run f V.types.coreTypes.length q ⟨V.types, .module, some .new⟩ .new
          ⟨true, none, none, 0⟩ :=
        { at_ := ⟨rfl, rfl⟩
          inv := hy.inv hn
          young := fun _ => hy
          owned := fun _ => ⟨rfl, rfl⟩
          own := by rw [e2]; rfl
          funcs := fun _ => by rw [e2]; rfl
          bodies := fun hh => absurd (by rw [e1]; rfl) hh }
      refine (drive_calm hn h3 hr rfl rfl f1 f2 ?_).bind fun y _ hy => .pure hy
      rw [f3, e3]
      exact Nat.le_add_right _ _

theorem validateAll_calm {off : Nat} {data : List UInt8} {tr : List Event} {out}
    (hd : DriveAll (Parser.new off) data tr out) {ops os z} (hT : TypeList.Reaches f.types ops os z)
    {V : Validator} (hV : V.types = z.types) (hs : V.state = .unparsed) (hmod : V.module = none)
    (hn : V.types.coreTypes.length + 1000000 ≤ 2 ^ 20) :
    NoPanic (validateAll f bs V tr out) fun _ => True := by
  refine (all_calm hd hT hV hs hmod hn).bind fun x _ hx => ?_
  cases out with
  | some e => exact .err
  | none =>
    refine (validateFuncs_calm hx.1).bind fun _ _ _ => ?_
    show NoPanic (if x.1.state = .ended then pure x.1 else .error .panic) _
    rw [if_pos (hx.2 rfl)]
    exact .pure trivial

end Verif.Valid
