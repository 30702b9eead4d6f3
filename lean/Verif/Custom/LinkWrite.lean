import Verif.Custom.Link
/-! The builders of branch hints and symbol tables. -/
namespace Verif.Custom
open Verif.Reader Verif.Leb Verif.Items Verif.Framing

/-- What `function_hints` appends. -/
def encHints (f : BitVec 32 × List (BitVec 32 × BitVec 32)) : Option (List UInt8) := do
  pure (encodeU32 f.1 ++ (← encodeUsize f.2.length) ++ f.2.flatMap encodeHint)

theorem addHints_eq (b : Enc.Builder) (f : BitVec 32 × List (BitVec 32 × BitVec 32)) :
    addHints b f = (encHints f).bind fun c => some (b.add c) := by
  unfold addHints encHints
  cases encodeUsize f.2.length <;> rfl

theorem hint_enc (h : Hint) : IsHint h (encodeHint (h.funcOffset, if h.taken then 1 else 0)) := by
  have e : encodeHint (h.funcOffset, if h.taken then 1 else 0) =
      encodeU32 h.funcOffset ++ [1, if h.taken then 1 else 0] := by
    unfold encodeHint
    cases h.taken <;> simp <;> decide +kernel
  rw [e]
  exact .mk (u32_enc _)

theorem writes_hints {f : BitVec 32 × List Hint} (h : f.2.length < 2 ^ 32) :
    Writes (encHints (hintsArgs f)) (IsHints f) := by
  obtain ⟨bs, h1, h2⟩ := writes_all (xs := f.2) (G := IsHint)
    (enc := fun h => some (encodeHint (h.funcOffset, if h.taken then 1 else 0)))
    fun x _ => ⟨_, rfl, hint_enc x⟩
  rw [encodeAll_some] at h1
  injection h1 with h1
  refine ⟨encodeU32 f.1 ++ (encodeU32 (BitVec.ofNat 32 f.2.length) ++
    f.2.flatMap fun h => encodeHint (h.funcOffset, if h.taken then 1 else 0)), ?_,
    .mk (u32_enc _) ⟨_, bs, by rw [← h1], leb_enc h, h2⟩⟩
  unfold encHints hintsArgs
  simp only [List.length_map]
  rw [usize_eq h]
  simp [List.flatMap_map]

/-- What the methods for symbols append. -/
def encSymbol : Symbol → Option (List UInt8)
  | .indexed k flags index name => do
    pure (encodeU32 (symtab k) ++ encodeU32 flags ++ encodeU32 index ++ (← encodeName name))
  | .data flags name d => do
    pure (encodeU32 1 ++ encodeU32 flags ++ (← encodeSlice name) ++ encodeDef d)
  | .section .. => none

theorem addSymbol_eq (b : Enc.Builder) (s : Symbol) :
    addSymbol b s = (encSymbol s).bind fun c => some (b.add c) := by
  cases s with
  | indexed k flags index name =>
    simp only [addSymbol, addIndexed, encSymbol]
    cases encodeName name <;> rfl
  | data flags name d =>
    simp only [addSymbol, addData, encSymbol]
    cases encodeSlice name <;> rfl
  | «section» => rfl

theorem symtab_enc (k : Indexed) : encodeU32 (symtab k) = [kindByte k] := by
  cases k <;> decide +kernel

theorem writes_symbol {s : Symbol} (h : s.Fits) : Writes (encSymbol s) (IsSymbol s) := by
  cases s with
  | indexed k flags index name =>
    obtain ⟨-, h1, h2⟩ := h
    have : Writes (encodeName name) (Opt (Named flags) Name name) := by
      cases name with
      | none => exact ⟨[], rfl, .none fun h => by simpa using h1.2 h⟩
      | some n =>
        obtain ⟨b, h3, h4⟩ := writes_name (h2 n rfl)
        exact ⟨b, h3, .some (h1.1 rfl) h4⟩
    obtain ⟨b, h3, h4⟩ := this
    refine ⟨_, ?_, .indexed (u32_enc flags) (u32_enc index) h4⟩
    simp only [encSymbol]
    rw [h3, symtab_enc]; rfl
  | data flags name d =>
    obtain ⟨h1, h2⟩ := h
    have : Opt (Defined flags) IsDataDef d (encodeDef d) := by
      cases d with
      | none => exact .none fun h => by simpa using h2.2 h
      | some d => exact .some (h2.1 rfl) (.mk (u32_enc _) (u32_enc _) (u32_enc _))
    obtain ⟨b, h3, h4⟩ := writes_name h1
    have e : encodeU32 1 = [1] := by decide +kernel
    refine ⟨_, ?_, .data (u32_enc flags) h4 this⟩
    simp only [encSymbol]
    rw [h3, e]; rfl
  | «section» => exact h.elim

theorem writes_table {bytes d : List UInt8} {t : List Symbol} {b : Enc.Builder}
    (h : t.length < 2 ^ 32) (hs : ∀ s ∈ t, s.Fits) (hb : calls addSymbol t = some b)
    (hd : addTable bytes b = some d) : ∃ c, d = bytes ++ c ∧ InSub IsPayload (.symbols t) c := by
  obtain ⟨b', h1, h2⟩ := calls_vec addSymbol_eq h fun s hs' => writes_symbol (hs s hs')
  rw [hb] at h1
  cases h1
  unfold addTable encodeSection at hd
  cases hn : encodeUsize (encodingSize b.numAdded + b.bytes.length) with
  | none => rw [hn] at hd; cases hd
  | some n =>
    rw [hn] at hd
    cases hd
    obtain ⟨hl, rfl⟩ := Names.encodeUsize_some hn
    have e : encodingSize b.numAdded = (encodeU32 b.numAdded).length := rfl
    refine ⟨8 :: encodeU32 (BitVec.ofNat 32 (encodingSize b.numAdded + b.bytes.length)) ++
      (encodeU32 b.numAdded ++ b.bytes), by simp, .mk (by decide) ?_ (.symbols h2)⟩
    rw [List.length_append, ← e]
    exact leb_enc hl

theorem writes_tables : ∀ {tables : List (List Symbol)} {bytes d : List UInt8},
    (∀ t ∈ tables, t.length < 2 ^ 32 ∧ ∀ s ∈ t, s.Fits) →
    tables.foldlM (fun bytes t => do addTable bytes (← calls addSymbol t)) bytes = some d →
    ∃ c, d = bytes ++ c ∧ Seq (InSub IsPayload) (tables.map .symbols) c
  | [], bytes, d, _, hd => by
    cases hd
    exact ⟨[], by simp, [], rfl, .nil⟩
  | t :: tables, bytes, d, h, hd => by
    rw [List.foldlM_cons] at hd
    obtain ⟨d1, hd1, hd⟩ := Option.bind_eq_some_iff.1 hd
    obtain ⟨b, hb, hd1⟩ := Option.bind_eq_some_iff.1 hd1
    obtain ⟨h1, h2⟩ := h t (List.mem_cons_self ..)
    obtain ⟨c, rfl, hc⟩ := writes_table h1 h2 hb hd1
    obtain ⟨c', rfl, bs, rfl, hc'⟩ := writes_tables (fun t' ht => h t' (List.mem_cons_of_mem _ ht)) hd
    exact ⟨c ++ bs.flatten, by simp, c :: bs, rfl, .cons hc hc'⟩

theorem writes_linking {tables : List (List Symbol)} {d : List UInt8}
    (h : ∀ t ∈ tables, t.length < 2 ^ 32 ∧ ∀ s ∈ t, s.Fits) (hd : buildLinking tables = some d) :
    IsLinking (tables.map .symbols) d := by
  obtain ⟨c, rfl, hc⟩ := writes_tables h hd
  exact .mk (u32_enc 2) hc

end Verif.Custom
