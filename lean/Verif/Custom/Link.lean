import Verif.Custom.Rel
/-! The items of the sections of branch hints, `linking` and `reloc.*`. -/
namespace Verif.Custom
open Verif.Reader Verif.Leb Verif.Items Verif.Framing

theorem exact_invalid (d : String) : Exact (invalidLeading d : R α) fun _ _ => False := by
  intro r a r'
  constructor
  · intro h; cases h
  · rintro ⟨b, t, -, h, -⟩; exact h.elim

theorem exact_hint : Exact readHint IsHint := by
  unfold readHint checkHintByte takenOf
  refine (Exact.u32.bind fun o => Exact.readU8.bind fun x => (Exact.ite (.pure _) (exact_invalid _)).bind
    fun _ => Exact.readU8.bind fun y => (Exact.ite (.pure _) (.ite (.pure _) (exact_invalid _))).bind
    fun t => .pure _).congr fun h b => ?_
  constructor
  · rintro ⟨o, b1, b2, rfl, h1, x, b3, b4, rfl, rfl, -, b5, b6, rfl, ⟨rfl, -, rfl⟩ | ⟨-, h⟩,
      y, b7, b8, rfl, rfl, t, b9, b10, rfl, ⟨rfl, rfl, rfl⟩ | ⟨-, ⟨rfl, rfl, rfl⟩ | ⟨-, h'⟩⟩, rfl, rfl⟩
    · exact IsHint.mk (h := ⟨o, false⟩) h1
    · exact IsHint.mk (h := ⟨o, true⟩) h1
    · exact h'.elim
    · exact h.elim
    · exact h.elim
    · exact h.elim
  · rintro ⟨h1⟩
    obtain ⟨o, t⟩ := h
    rename_i b
    refine ⟨o, b, [1, if t then 1 else 0], rfl, h1, 1, [1], [if t then 1 else 0], rfl, rfl, (), [],
      [if t then 1 else 0], rfl, .inl ⟨rfl, rfl, rfl⟩, if t then 1 else 0, [if t then 1 else 0], [], rfl,
      rfl, t, [], [], rfl, ?_, rfl, rfl⟩
    cases t
    · exact .inl ⟨rfl, rfl, rfl⟩
    · exact .inr ⟨by decide, .inl ⟨rfl, rfl, rfl⟩⟩

theorem exactR_hints : ExactR readHintFunction
    (fun f e => f.func = e.1 ∧ f.hints.collect readHint = .ok e.2) IsHints := by
  unfold readHintFunction
  refine (Exact.u32.bindR fun func => exactR_nested (P := fun e => func = e.1) (l := Prod.snd)
    exact_hint rfl fun s x => Iff.rfl).congr fun e b => ?_
  constructor
  · rintro ⟨f, b1, b2, rfl, h1, rfl, h2⟩
    exact .mk h1 h2
  · rintro ⟨h1, h2⟩
    exact ⟨e.1, _, _, rfl, h1, rfl, h2⟩

/-! ### `linking` -/

theorem undefined_eq (f : BitVec 32) : undefined f = f.toNat.testBit 4 := by
  unfold undefined
  have h := BitVec.and_twoPow f 4
  have e : BitVec.twoPow 32 4 = 0x10 := by decide
  rw [e] at h
  rw [h, BitVec.testBit_toNat]
  cases f.getLsbD 4 <;> decide

theorem explicit_eq (f : BitVec 32) : explicitName f = f.toNat.testBit 6 := by
  unfold explicitName
  have h := BitVec.and_twoPow f 6
  have e : BitVec.twoPow 32 6 = 0x40 := by decide
  rw [e] at h
  rw [h, BitVec.testBit_toNat]
  cases f.getLsbD 6 <;> decide

theorem defined_iff (f : BitVec 32) : (!undefined f) = true ↔ Defined f := by
  rw [undefined_eq]; unfold Defined; simp

theorem named_iff (f : BitVec 32) : (!undefined f || explicitName f) = true ↔ Named f := by
  rw [Bool.or_eq_true, defined_iff, explicit_eq]; rfl

theorem exact_if {f : R α} {G : Grammar α} (h : Exact f G) {c : Bool} {p : Prop} (hc : c = true ↔ p) :
    Exact (readIf c f) (Opt p G) := by
  unfold readIf
  refine (Exact.ite (h.bind fun x => .pure _) (.pure _)).congr fun o b => ?_
  constructor
  · rintro (⟨h1, x, b1, b2, rfl, h2, rfl, rfl⟩ | ⟨h1, rfl, rfl⟩)
    · rw [List.append_nil]; exact .some (hc.1 h1) h2
    · exact .none fun h => h1 (hc.2 h)
  · intro h
    cases h with
    | none h => exact .inr ⟨fun e => h (hc.1 e), rfl, rfl⟩
    | @some x b h1 h2 => exact .inl ⟨hc.2 h1, x, b, [], by simp, h2, rfl, rfl⟩

theorem exact_dataDef : Exact readDataDef IsDataDef := by
  unfold readDataDef
  refine (Exact.u32.bind fun _ => Exact.u32.bind fun _ => Exact.u32.bind fun _ => .pure _).congr
    fun d b => ?_
  constructor
  · rintro ⟨x, b1, b2, rfl, h1, y, b3, b4, rfl, h2, z, b5, b6, rfl, h3, rfl, rfl⟩
    have := IsDataDef.mk (d := ⟨x, y, z⟩) h1 h2 h3
    simpa using this
  · rintro ⟨h1, h2, h3⟩
    rename_i b1 b2 b3
    exact ⟨_, b1, b2 ++ b3, by simp, h1, _, b2, b3, rfl, h2, _, b3, [], by simp, h3, rfl, rfl⟩

/-- The part of a symbol after its kind and flags. -/
inductive SymbolTail (kind : UInt8) (flags : BitVec 32) : Grammar Symbol
  | indexed {k index name b2 b3} : kind = kindByte k → U32 index b2 → Opt (Named flags) Name name b3 →
      SymbolTail kind flags (.indexed k flags index name) (b2 ++ b3)
  | data {name d b2 b3} : kind = 1 → Name name b2 →
      Opt (Defined flags) IsDataDef d b3 → SymbolTail kind flags (.data flags name d) (b2 ++ b3)
  | section {sect b2} : kind = 3 → U32 sect b2 → SymbolTail kind flags (.section flags sect) b2

theorem exact_indexed (k : Indexed) (flags : BitVec 32) :
    Exact (readIndexed k flags) fun s b => ∃ index name b2 b3, s = .indexed k flags index name ∧
      b = b2 ++ b3 ∧ U32 index b2 ∧ Opt (Named flags) Name name b3 := by
  unfold readIndexed
  refine (Exact.u32.bind fun _ => (exact_if exact_name (named_iff flags)).bind fun _ => .pure _).congr
    fun s b => ?_
  constructor
  · rintro ⟨i, b1, b2, rfl, h1, n, b3, b4, rfl, h2, rfl, rfl⟩
    exact ⟨i, n, b1, b3, rfl, by simp, h1, h2⟩
  · rintro ⟨i, n, b1, b2, rfl, rfl, h1, h2⟩
    exact ⟨i, b1, b2, rfl, h1, n, b2, [], by simp, h2, rfl, rfl⟩

theorem exact_data (flags : BitVec 32) :
    Exact (readData flags) fun s b => ∃ name d b2 b3, s = .data flags name d ∧
      b = b2 ++ b3 ∧ Name name b2 ∧ Opt (Defined flags) IsDataDef d b3 := by
  unfold readData
  refine (exact_name.bind fun _ => (exact_if exact_dataDef (defined_iff flags)).bind fun _ => .pure _).congr
    fun s b => ?_
  constructor
  · rintro ⟨i, b1, b2, rfl, h1, n, b3, b4, rfl, h2, rfl, rfl⟩
    exact ⟨i, n, b1, b3, rfl, by simp, h1, h2⟩
  · rintro ⟨i, n, b1, b2, rfl, rfl, h1, h2⟩
    exact ⟨i, b1, b2, rfl, h1, n, b2, [], by simp, h2, rfl, rfl⟩

theorem exact_section (flags : BitVec 32) :
    Exact (readSection flags) fun s b => ∃ sect, s = .section flags sect ∧ U32 sect b := by
  unfold readSection
  refine (Exact.u32.bind fun _ => .pure _).congr fun s b => ?_
  constructor
  · rintro ⟨i, b1, b2, rfl, h1, rfl, rfl⟩
    exact ⟨i, rfl, by rw [List.append_nil]; exact h1⟩
  · rintro ⟨i, rfl, h1⟩
    exact ⟨i, b, [], by simp, h1, rfl, rfl⟩

theorem exact_symbolOf (pos : Nat) (kind : UInt8) (flags : BitVec 32) :
    Exact (readSymbolOf pos kind flags) (SymbolTail kind flags) := by
  unfold readSymbolOf
  refine (Exact.ite (exact_indexed _ _) (.ite (exact_indexed _ _) (.ite (exact_indexed _ _)
    (.ite (exact_indexed _ _) (.ite (exact_data _) (.ite (exact_section _) (.fail _ _))))))).congr
    fun s b => ?_
  constructor
  · rintro (⟨rfl, i, n, b1, b2, rfl, rfl, h1, h2⟩ | ⟨-, ⟨rfl, i, n, b1, b2, rfl, rfl, h1, h2⟩ |
      ⟨-, ⟨rfl, i, n, b1, b2, rfl, rfl, h1, h2⟩ | ⟨-, ⟨rfl, i, n, b1, b2, rfl, rfl, h1, h2⟩ |
      ⟨-, ⟨rfl, i, n, b1, b2, rfl, rfl, h1, h2⟩ | ⟨-, ⟨rfl, i, rfl, h1⟩ | ⟨-, h⟩⟩⟩⟩⟩⟩)
    · exact .indexed rfl h1 h2
    · exact .indexed rfl h1 h2
    · exact .indexed rfl h1 h2
    · exact .indexed rfl h1 h2
    · exact .data rfl h1 h2
    · exact .section rfl h1
    · exact h.elim
  · intro h
    cases h with
    | @indexed k i n b1 b2 hk h1 h2 =>
      subst hk
      cases k
      · exact .inl ⟨rfl, i, n, b1, b2, rfl, rfl, h1, h2⟩
      · exact .inr ⟨by decide, .inl ⟨rfl, i, n, b1, b2, rfl, rfl, h1, h2⟩⟩
      · exact .inr ⟨by decide, .inr ⟨by decide, .inl ⟨rfl, i, n, b1, b2, rfl, rfl, h1, h2⟩⟩⟩
      · exact .inr ⟨by decide, .inr ⟨by decide, .inr ⟨by decide, .inl ⟨rfl, i, n, b1, b2, rfl, rfl, h1, h2⟩⟩⟩⟩
    | @data n d b1 b2 hk h1 h2 =>
      subst hk
      exact .inr ⟨by decide, .inr ⟨by decide, .inr ⟨by decide, .inr ⟨by decide,
        .inl ⟨rfl, n, d, b1, b2, rfl, rfl, h1, h2⟩⟩⟩⟩⟩
    | @«section» sect b1 hk h1 =>
      subst hk
      exact .inr ⟨by decide, .inr ⟨by decide, .inr ⟨by decide, .inr ⟨by decide, .inr ⟨by decide,
        .inl ⟨rfl, sect, rfl, h1⟩⟩⟩⟩⟩⟩

theorem exact_symbol : Exact readSymbol IsSymbol := by
  unfold readSymbol
  refine Exact.readPos fun _ => ?_
  refine (Exact.readU8.bind fun kind => Exact.u32.bind fun flags => exact_symbolOf _ kind flags).congr
    fun s b => ?_
  constructor
  · rintro ⟨kind, b0, b1, rfl, rfl, flags, b2, b3, rfl, h1, h⟩
    cases h with
    | indexed hk h2 h3 => subst hk; simpa using IsSymbol.indexed h1 h2 h3
    | data hk h2 h3 => subst hk; simpa using IsSymbol.data h1 h2 h3
    | «section» hk h2 => subst hk; simpa using IsSymbol.section h1 h2
  · intro h
    cases h with
    | @indexed k flags i n b1 b2 b3 h1 h2 h3 =>
      exact ⟨kindByte k, [kindByte k], b1 ++ (b2 ++ b3), by simp, rfl, flags, b1, b2 ++ b3, rfl, h1,
        .indexed rfl h2 h3⟩
    | @data flags n d b1 b2 b3 h1 h2 h3 =>
      exact ⟨1, [1], b1 ++ (b2 ++ b3), by simp, rfl, flags, b1, b2 ++ b3, rfl, h1, .data rfl h2 h3⟩
    | @«section» flags sect b1 b2 h1 h2 =>
      exact ⟨3, [3], b1 ++ b2, by simp, rfl, flags, b1, b2, rfl, h1, .section rfl h2⟩

theorem exact_segment : Exact readSegment IsSegment := by
  unfold readSegment
  refine (exact_name.bind fun _ => Exact.u32.bind fun _ => Exact.u32.bind fun _ => .pure _).congr
    fun d b => ?_
  constructor
  · rintro ⟨x, b1, b2, rfl, h1, y, b3, b4, rfl, h2, z, b5, b6, rfl, h3, rfl, rfl⟩
    have := IsSegment.mk (s := ⟨x, y, z⟩) h1 h2 h3
    simpa using this
  · rintro ⟨h1, h2, h3⟩
    rename_i b1 b2 b3
    exact ⟨_, b1, b2 ++ b3, by simp, h1, _, b2, b3, rfl, h2, _, b3, [], by simp, h3, rfl, rfl⟩

theorem exact_init : Exact readInitFunc IsInit := by
  unfold readInitFunc
  refine (Exact.u32.bind fun _ => Exact.u32.bind fun _ => .pure _).congr fun d b => ?_
  constructor
  · rintro ⟨x, b1, b2, rfl, h1, y, b3, b4, rfl, h2, rfl, rfl⟩
    have := IsInit.mk (i := (x, y)) h1 h2
    simpa using this
  · rintro ⟨h1, h2⟩
    rename_i b1 b2
    exact ⟨_, b1, b2, rfl, h1, _, b2, [], by simp, h2, rfl, rfl⟩

theorem exact_comdatKind : Exact readComdatKind fun k b => b = [comdatByte k] := by
  unfold readComdatKind comdatKindOf
  refine Exact.readPos fun _ => ?_
  refine (Exact.readU8.bind fun x => Exact.ite (.pure _) (.ite (.pure _) (.ite (.pure _)
    (.ite (.pure _) (.ite (.pure _) (.ite (.pure _) (.fail _ _))))))).congr fun k b => ?_
  constructor
  · rintro ⟨x, b1, b2, rfl, rfl, ⟨rfl, rfl, rfl⟩ | ⟨-, ⟨rfl, rfl, rfl⟩ | ⟨-, ⟨rfl, rfl, rfl⟩ |
      ⟨-, ⟨rfl, rfl, rfl⟩ | ⟨-, ⟨rfl, rfl, rfl⟩ | ⟨-, ⟨rfl, rfl, rfl⟩ | ⟨-, h⟩⟩⟩⟩⟩⟩⟩
    all_goals first | rfl | exact h.elim
  · rintro rfl
    refine ⟨comdatByte k, [comdatByte k], [], rfl, rfl, ?_⟩
    cases k <;> simp [comdatByte]

theorem exact_comdatSymbol : Exact readComdatSymbol IsComdatSymbol := by
  unfold readComdatSymbol
  refine (exact_comdatKind.bind fun _ => Exact.u32.bind fun _ => .pure _).congr fun d b => ?_
  constructor
  · rintro ⟨x, b1, b2, rfl, rfl, y, b3, b4, rfl, h2, rfl, rfl⟩
    have := IsComdatSymbol.mk (c := (x, y)) h2
    simpa using this
  · rintro ⟨h2⟩
    rename_i b
    exact ⟨d.1, [comdatByte d.1], b, rfl, rfl, d.2, b, [], by simp, h2, rfl, rfl⟩

theorem exactR_comdat : ExactR readComdat
    (fun c e => c.name = e.1 ∧ c.flags = e.2.1 ∧ c.symbols.collect readComdatSymbol = .ok e.2.2)
    IsComdat := by
  unfold readComdat
  refine (exact_name.bindR fun name => Exact.u32.bindR fun flags => exactR_nested
    (P := fun e => name = e.1 ∧ flags = e.2.1) (l := fun e => e.2.2)
    exact_comdatSymbol rfl fun s x => by rw [and_assoc]).congr fun e b => ?_
  constructor
  · rintro ⟨f, b1, b2, rfl, h1, fl, b3, b4, rfl, h2, ⟨rfl, rfl⟩, h3⟩
    simpa using IsComdat.mk h1 h2 h3
  · rintro ⟨h1, h2, h3⟩
    rename_i b1 b2 b3
    exact ⟨e.1, b1, b2 ++ b3, by simp, h1, e.2.1, b2, b3, rfl, h2, ⟨rfl, rfl⟩, h3⟩

theorem map_ok {x : Except Err α} {f : α → β} {y : β} :
    x.map f = .ok y ↔ ∃ a, x = .ok a ∧ y = f a := by
  cases x <;> simp [Except.map, eq_comm]

theorem payload_iff (id : UInt8) (rd : Reader) (x : Sub) :
    (∃ a, linkingFromReader id rd = .ok a ∧ holds a x) ↔ IsPayload id x rd.rest := by
  unfold linkingFromReader
  constructor
  · rintro ⟨a, h1, h2⟩
    split at h1
    · next h =>
      subst h
      obtain ⟨s, hs, rfl⟩ := map_ok.1 h1
      cases h2 with
      | segments h2 => exact .segments ((collect_eq exact_segment _ _).1 ⟨s, hs, h2⟩)
    · split at h1
      · next h =>
        subst h
        obtain ⟨s, hs, rfl⟩ := map_ok.1 h1
        cases h2 with
        | inits h2 => exact .inits ((collect_eq exact_init _ _).1 ⟨s, hs, h2⟩)
      · split at h1
        · next h =>
          subst h
          obtain ⟨s, hs, rfl⟩ := map_ok.1 h1
          cases h2 with
          | comdats h2 h3 => exact .comdats ((collect_iff exactR_comdat _ _).1 ⟨s, _, hs, h2, h3⟩)
        · split at h1
          · next h =>
            subst h
            obtain ⟨s, hs, rfl⟩ := map_ok.1 h1
            cases h2 with
            | symbols h2 => exact .symbols ((collect_eq exact_symbol _ _).1 ⟨s, hs, h2⟩)
          · cases h1
            cases h2
            exact .unknown (by simp; exact ⟨‹_›, ‹_›, ‹_›, ‹_›⟩)
  · intro h
    generalize hb : rd.rest = b at h
    cases h with
    | segments h =>
      obtain ⟨s, hs, h⟩ := (collect_eq exact_segment rd _).2 (hb ▸ h)
      exact ⟨_, by rw [if_pos rfl, hs]; rfl, .segments h⟩
    | inits h =>
      obtain ⟨s, hs, h⟩ := (collect_eq exact_init rd _).2 (hb ▸ h)
      exact ⟨_, by rw [if_neg (by decide), if_pos rfl, hs]; rfl, .inits h⟩
    | comdats h =>
      obtain ⟨s, cs, hs, h, h'⟩ := (collect_iff exactR_comdat rd _).2 (hb ▸ h)
      exact ⟨_, by rw [if_neg (by decide), if_neg (by decide), if_pos rfl, hs]; rfl, .comdats h h'⟩
    | symbols h =>
      obtain ⟨s, hs, h⟩ := (collect_eq exact_symbol rd _).2 (hb ▸ h)
      exact ⟨_, by rw [if_neg (by decide), if_neg (by decide), if_neg (by decide), if_pos rfl, hs]; rfl,
        .symbols h⟩
    | unknown h =>
      simp only [List.mem_cons, List.not_mem_nil, or_false, not_or] at h
      rw [if_neg h.1, if_neg h.2.1, if_neg h.2.2.1, if_neg h.2.2.2]
      exact ⟨_, rfl, .unknown⟩

theorem readLinking_iff {r r' : Reader} : readLinking r = .ok r' ↔
    ∃ b t, r.rest = b ++ t ∧ ULeb 32 b 2 ∧ r' = r.advance b.length := by
  unfold readLinking
  constructor
  · intro h
    cases h1 : readVarU32 r with
    | error e => simp [h1] at h
    | ok q =>
      obtain ⟨v, r1⟩ := q
      simp only [h1] at h
      split at h
      · cases h
      · next hv =>
        cases h
        have hv : v = 2 := Classical.not_not.1 hv
        subst hv
        exact (Exact.u32 _ _ _).1 h1
  · rintro ⟨b, t, e, hb, rfl⟩
    rw [(Exact.u32 r 2 _).2 ⟨b, t, e, hb, rfl⟩]
    simp

/-! ### `reloc.*` -/

theorem ofByte_eq (n : UInt8) : RelocType.ofByte n = (relocTable[n.toNat]?).map (·.1) := by
  have h : ∀ y : Fin 256, RelocType.ofByte (UInt8.ofNat y.val) =
      (relocTable[(UInt8.ofNat y.val).toNat]?).map (·.1) := by decide +kernel
  have := h ⟨n.toNat, n.toNat_lt⟩
  simpa only [UInt8.ofNat_toNat] using this

theorem table_addend {n : Nat} {ty : RelocType} {t : Target} {f : Form}
    (h : relocTable[n]? = some (ty, t, f)) : ty.addendKind = addendOf t f := by
  have : ∀ e ∈ relocTable, e.1.addendKind = addendOf e.2.1 e.2.2 := by decide +kernel
  exact this _ (List.mem_of_getElem? h)

theorem exact_relocType : Exact readRelocType fun ty b =>
    ∃ (n : UInt8) (t : Target) (f : Form), b = [n] ∧ relocTable[n.toNat]? = some (ty, t, f) := by
  unfold readRelocType
  have h1 : ∀ (num : UInt8), Exact (do let pos ← readPos; relocTypeOf pos num) fun ty b =>
      RelocType.ofByte num = some ty ∧ b = [] := by
    intro num
    refine Exact.readPos fun pos => ?_
    unfold relocTypeOf
    cases h : RelocType.ofByte num with
    | none => exact (Exact.fail _ _).congr fun a b => by simp
    | some t => exact (Exact.pure t).congr fun a b => by simp [eq_comm]
  refine (Exact.readU8.bind h1).congr fun ty b => ?_
  constructor
  · rintro ⟨n, b1, b2, rfl, rfl, h2, rfl⟩
    rw [ofByte_eq] at h2
    obtain ⟨⟨ty', t, f⟩, h3, rfl⟩ := Option.map_eq_some_iff.1 h2
    exact ⟨n, t, f, by simp, h3⟩
  · rintro ⟨n, t, f, rfl, h2⟩
    exact ⟨n, [n], [], rfl, rfl, by rw [ofByte_eq, h2]; rfl, rfl⟩

theorem exact_addend (k : AddendKind) : Exact (readAddend k) (IsAddend k) := by
  cases k with
  | none =>
    refine (Exact.pure (0 : BitVec 64)).congr fun v b => ?_
    constructor
    · rintro ⟨rfl, rfl⟩; exact .none
    · intro h; cases h; exact ⟨rfl, rfl⟩
  | addend32 =>
    refine (Exact.i32.bind fun v => .pure (v.signExtend 64)).congr fun v b => ?_
    constructor
    · rintro ⟨w, b1, b2, rfl, h1, rfl, rfl⟩
      rw [List.append_nil]
      refine .addend32 ?_
      rwa [BitVec.toInt_signExtend_of_le (by decide)]
    · rintro ⟨⟩
      rename_i h
      have hr := h.range (by decide)
      have e : (BitVec.ofInt 32 v.toInt).toInt = v.toInt := by
        rw [BitVec.toInt_ofInt, Int.bmod_eq_of_le (by omega) (by omega)]
      refine ⟨BitVec.ofInt 32 v.toInt, b, [], by simp, by rwa [e], ?_, rfl⟩
      apply BitVec.eq_of_toInt_eq
      rw [BitVec.toInt_signExtend_of_le (by decide), e]
  | addend64 =>
    refine Exact.i64.congr fun v b => ?_
    constructor
    · exact .addend64
    · intro h; cases h; assumption

theorem exact_reloc : Exact readReloc IsReloc := by
  unfold readReloc
  refine (exact_relocType.bind fun ty => Exact.u32.bind fun _ => Exact.u32.bind fun _ =>
    (exact_addend _).bind fun _ => .pure _).congr fun e b => ?_
  constructor
  · rintro ⟨ty, b0, b1, rfl, ⟨n, t, f, rfl, h0⟩, o, b2, b3, rfl, h1, i, b4, b5, rfl, h2, a, b6, b7, rfl,
      h3, rfl, rfl⟩
    rw [table_addend h0] at h3
    simpa using IsReloc.mk (e := ⟨ty, o, i, a⟩) h0 h1 h2 h3
  · rintro ⟨h0, h1, h2, h3⟩
    rename_i n t f b1 b2 b3
    rw [← table_addend h0] at h3
    exact ⟨e.ty, [n], b1 ++ (b2 ++ b3), by simp, ⟨n, t, f, rfl, h0⟩, _, b1, b2 ++ b3, rfl, h1, _, b2, b3,
      rfl, h2, _, b3, [], by simp, h3, rfl, rfl⟩

end Verif.Custom
