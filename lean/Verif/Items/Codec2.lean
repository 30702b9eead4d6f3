import Verif.Items.Codec
/-! The item readers decode what the section builders write, item by item. -/
namespace Verif.Items
open Verif.Reader Verif.Leb Verif.Framing Verif.Types Spec

theorem dec_limit {f : Instr.Features} {n : BitVec 64} (h : LimitFits f n) :
    Dec (readLimit f) (encodeU64 n) n := by
  unfold readLimit
  split
  · exact .u64 n
  · next hm =>
    have hn : n.toNat < 2 ^ 32 := h.resolve_left hm
    have h1 : (n.setWidth 32).toNat = n.toNat := by
      rw [BitVec.toNat_setWidth, Nat.mod_eq_of_lt hn]
    have h2 : encodeU64 n = encodeU32 (n.setWidth 32) := by
      unfold encodeU64 encodeU32; rw [h1]
    have h3 : (n.setWidth 32).setWidth 64 = n := by
      apply BitVec.eq_of_toNat_eq
      rw [BitVec.toNat_setWidth, h1, Nat.mod_eq_of_lt n.isLt]
    rw [h2]
    exact (Dec.u32 _).bind_nil (by rw [h3]; exact .pure _)

theorem dec_opt {m : R α} {enc : α → List UInt8} {o : Option α} {b : Bool} (hb : b = o.isSome)
    (h : ∀ x ∈ o, Dec m (enc x) x) : Dec (readOpt b m) (Enc.encodeOpt enc o) o := by
  subst hb
  cases o with
  | none => exact .pure _
  | some x => exact (h x rfl).map

theorem flags3 (a b c : Bool) : ∃ x : UInt8, (Enc.flag a 1 ||| Enc.flag b 2 ||| Enc.flag c 4) = x ∧
    x &&& 0xF8 = 0 ∧ decide (x &&& 1 ≠ 0) = a ∧ decide (x &&& 2 ≠ 0) = b ∧
    decide (x &&& 4 ≠ 0) = c := by
  cases a <;> cases b <;> cases c <;> exact ⟨_, rfl, by decide, by decide, by decide, by decide⟩

theorem flags4 (a b c d : Bool) : ∃ x : UInt8,
    (Enc.flag a 1 ||| Enc.flag b 2 ||| Enc.flag c 4 ||| Enc.flag d 8) = x ∧
    x &&& 0xF0 = 0 ∧ decide (x &&& 1 ≠ 0) = a ∧ decide (x &&& 2 ≠ 0) = b ∧
    decide (x &&& 4 ≠ 0) = c ∧ decide (x &&& 8 ≠ 0) = d := by
  cases a <;> cases b <;> cases c <;> cases d <;>
    exact ⟨_, rfl, by decide, by decide, by decide, by decide, by decide⟩

theorem flags2 (a b : Bool) : ∃ x : UInt8, (Enc.flag a 1 ||| Enc.flag b 2) = x ∧
    ¬ x.toNat > 3 ∧ decide (x &&& 1 ≠ 0) = a ∧ decide (x &&& 2 ≠ 0) = b := by
  cases a <;> cases b <;> exact ⟨_, rfl, by decide, by decide, by decide⟩

theorem decP_tableType {f : Instr.Features} {e : Enc.TableType} (h : TableTypeFits f e) :
    DecP (readTableType f) e.encode (TableTypeIs · e) := by
  obtain ⟨h1, h2, h3⟩ := h
  obtain ⟨x, hx, x0, x1, x2, x4⟩ := flags3 e.maximum.isSome e.shared e.table64
  unfold Enc.TableType.encode
  rw [hx, List.append_assoc, List.append_assoc]
  refine (decP_refType _ h1).bind fun t ht => DecP.readPos fun pos => ?_
  refine (Dec.readU8 x).bindP ?_
  rw [if_neg (by simp [x0])]
  refine (dec_limit h2).bindP ?_
  have := (dec_opt (b := decide (x &&& 1 ≠ 0)) x1 fun m hm => dec_limit (h3 m hm)).toP
    (P := (· = e.maximum)) rfl
  refine this.bind_nil ?_
  rintro _ rfl
  exact .pure ⟨ht, x4, rfl, rfl, x2⟩

theorem tableType_head (e : Enc.TableType) : ∃ b bs, e.encode = b :: bs ∧ b ≠ 0x40 := by
  obtain ⟨b, bs, h1, h2, h3⟩ := refType_head e.elementType
  unfold Enc.TableType.encode
  rw [h1]
  exact ⟨b, _, rfl, by rintro rfl; revert h2; decide⟩

theorem decP_tableInit {f : Instr.Features} {o : Option Enc.ConstExpr} (h : ∀ c ∈ o, ConstFits f c) :
    DecP (readTableInit f o.isSome) (Enc.encodeOpt Enc.ConstExpr.encode o) (TableInitIs f · o) := by
  cases o with
  | none => exact .pure trivial
  | some e => exact (decP_const (h e rfl)).map fun a ha => ha

theorem decP_table {f : Instr.Features} {e : Enc.Table} (h : TableFits f e) :
    DecP (readTable f) e.encode (TableIs f · e) := by
  obtain ⟨h1, h2⟩ := h
  have ht := decP_tableType h1
  have hi := decP_tableInit h2
  obtain ⟨ty, init⟩ := e
  dsimp only at h1 h2 ht hi
  have key : DecP (do
      let t ← readTableType f
      let init ← readTableInit f init.isSome
      pure (⟨t, init⟩ : Table)) (ty.encode ++ Enc.encodeOpt Enc.ConstExpr.encode init)
      (TableIs f · ⟨ty, init⟩) :=
    ht.bind fun t ht' => hi.bind_nil fun i hi' => .pure ⟨ht', hi'⟩
  cases init with
  | none =>
    unfold Enc.Table.encode
    simp only [Enc.encodeOpt, List.append_nil] at key ⊢
    obtain ⟨b, bs, hb, hne⟩ := tableType_head ty
    have hp : ∀ r tail, r.rest = (b :: bs) ++ tail → readTablePrefix r = .ok (false, r) := by
      intro r tail hr
      unfold readTablePrefix
      rw [bind_apply, peekR_cons hr]
      simp only [if_neg hne]
      rfl
    rw [hb] at key ⊢
    intro r tail hr
    unfold readTable
    rw [bind_apply, hp r tail hr]
    exact key r tail hr
  | some c =>
    simp only [Enc.Table.encode]
    rw [List.append_assoc]
    have hp : Dec readTablePrefix [0x40, 0x00] true := by
      refine Dec.peek (.ite_pos rfl ?_)
      refine Dec.bind (b1 := [0x40]) (.readU8 _) (Dec.bind (b1 := [0x00]) (b2 := []) (.readU8 _) ?_)
      exact Dec.readPos fun _ => .ite_neg (by decide) (.pure _)
    exact hp.bindP key

theorem dec_pageSize {pos : Nat} {p : BitVec 32} (h : p.toNat < 64) :
    Dec (readPageSize pos) (encodeU32 p) p := by
  refine (Dec.u32 p).bind_nil (.ite_neg (by omega) (.pure _))

theorem decP_memoryType {f : Instr.Features} {e : Enc.MemoryType} (h : MemoryTypeFits f e) :
    DecP (readMemoryType f) e.encode (MemoryTypeIs · e) := by
  obtain ⟨h1, h2, h3⟩ := h
  obtain ⟨x, hx, x0, x1, x2, x4, x8⟩ :=
    flags4 e.maximum.isSome e.shared e.memory64 e.pageSizeLog2.isSome
  unfold Enc.MemoryType.encode
  rw [hx, List.append_assoc, List.append_assoc]
  refine DecP.readPos fun pos => ?_
  refine (Dec.readU8 x).bindP ?_
  rw [if_neg (by simp [x0])]
  refine (dec_limit h1).bindP ?_
  refine (dec_opt (b := decide (x &&& 1 ≠ 0)) x1 fun m hm => dec_limit (h2 m hm)).bindP ?_
  have := (dec_opt (b := decide (x &&& 8 ≠ 0)) x8 fun m hm => dec_pageSize (pos := pos) (h3 m hm)).toP
    (P := (· = e.pageSizeLog2)) rfl
  refine this.bind_nil ?_
  rintro _ rfl
  exact .pure ⟨x4, x2, rfl, rfl, rfl⟩

theorem decP_globalType {e : Enc.GlobalType} (h : e.valType.Fits) :
    DecP readGlobalType e.encode (GlobalTypeIs · e) := by
  obtain ⟨x, hx, x0, x1, x2⟩ := flags2 e.mutable e.shared
  unfold Enc.GlobalType.encode
  rw [hx]
  refine (decP_valType _ h).bind fun t ht => ?_
  refine Dec.bindP (b1 := [x]) (b2 := []) (.readU8 x) ?_
  refine DecP.readPos fun pos => ?_
  rw [if_neg x0]
  exact .pure ⟨ht, x1, x2⟩

theorem decP_global {f : Instr.Features} {e : Enc.Global} (h : GlobalFits f e) :
    DecP (readGlobal f) e.encode (GlobalIs f · e) :=
  (decP_globalType h.1).bind fun _ ht => (decP_const h.2).bind_nil fun _ hc => .pure ⟨ht, hc⟩

theorem decP_tagType (e : Enc.TagType) : DecP readTagType e.encode (TagTypeIs · e) := by
  refine Dec.bindP (b1 := [0x00]) (.readU8 _) ?_
  refine DecP.readPos fun pos => ?_
  rw [if_neg (by decide)]
  exact ((Dec.u32 e.funcTypeIdx).toP (P := (· = e.funcTypeIdx)) rfl).bind_nil fun _ h => .pure h

theorem dec_kind {b : UInt8} {k : ExternalKind} (h : externalKindFromByte b = some k) :
    Dec readExternalKind [b] k := by
  refine Dec.readPos fun _ => (Dec.readU8 b).bind_nil ?_
  rw [h]
  exact .pure _

theorem decP_entity {f : Instr.Features} {e : Enc.EntityType} (h : EntityFits f e) :
    DecP (readTypeRef f) e.encode (TypeRefIs · e) := by
  cases e with
  | function i =>
    refine (dec_kind (b := 0x00) (k := .func) rfl).bindP ?_
    exact ((Dec.u32 i).toP (P := (· = i)) rfl).bind_nil fun _ h => .pure h
  | functionExact i =>
    refine (dec_kind (b := 0x20) (k := .funcExact) rfl).bindP ?_
    exact ((Dec.u32 i).toP (P := (· = i)) rfl).bind_nil fun _ h => .pure h
  | table t =>
    exact (dec_kind (b := 0x01) (k := .table) rfl).bindP
      ((decP_tableType h).bind_nil fun _ h => .pure h)
  | memory t =>
    exact (dec_kind (b := 0x02) (k := .memory) rfl).bindP
      ((decP_memoryType h).bind_nil fun _ h => .pure h)
  | global t =>
    exact (dec_kind (b := 0x03) (k := .global) rfl).bindP
      ((decP_globalType h).bind_nil fun _ h => .pure h)
  | tag t =>
    exact (dec_kind (b := 0x04) (k := .tag) rfl).bindP
      ((decP_tagType t).bind_nil fun _ h => .pure h)

theorem entity_head (e : Enc.EntityType) : ∃ b bs, e.encode = b :: bs ∧ b ≠ 0x7F ∧ b ≠ 0x7E := by
  cases e <;> exact ⟨_, _, rfl, by decide, by decide⟩

theorem decP_peekByte {g : UInt8 → R α} {b : UInt8} {bs : List UInt8} {P : α → Prop}
    (h : DecP (g b) (b :: bs) P) : DecP (peekByte >>= g) (b :: bs) P := by
  intro r tail hr
  have : peekByte r = .ok (b, r) := by
    unfold peekByte peekBytes
    rw [ensureHasBytes_eq, if_pos (by rw [hr]; simp)]
    have h2 : r.buffer.drop r.position = b :: (bs ++ tail) := hr
    simp [h2]
  rw [bind_apply, this]
  exact h r tail hr

theorem decP_importItem {f : Instr.Features} {e : Enc.ImportCompact} (h1 : StrFits e.name)
    (h2 : EntityFits f e.ty) : ∃ b, e.encode = some b ∧
      DecP (readImportItem f) b (ImportItemIs · e) ∧ Dec (skipImportItem f) b () := by
  have := h1.1
  refine ⟨(encodeU32 (BitVec.ofNat 32 e.name.length) ++ e.name) ++ e.ty.encode, ?_, ?_, ?_⟩
  · unfold Enc.ImportCompact.encode
    rw [encodeSlice_eq (by omega)]
    rfl
  · exact (dec_string h1).bindP ((decP_entity h2).bind_nil fun _ h => .pure ⟨rfl, h⟩)
  · refine DecP.unit (P := fun _ => True) ?_
    exact (dec_skipString h1).bindP ((decP_entity h2).bind_nil fun _ _ => .pure trivial)

theorem dec_emptyString : Dec readString [0x00] [] := by
  have h1 := dec_string (s := []) ⟨by decide, by decide +kernel⟩
  have h2 : encodeU32 (BitVec.ofNat 32 ([] : List UInt8).length) ++ [] = [0x00] := by
    decide +kernel
  rwa [h2] at h1

theorem decP_imports {f : Feats} {e : Enc.Imports} (h : ImportsFits f e) :
    ∃ b, e.encode = some b ∧ DecP (readImports f) b (ImportsIs f.toFeatures · e) := by
  cases e with
  | single m n t =>
    obtain ⟨hm, hn, ht⟩ := h
    have := hm.1
    have := hn.1
    obtain ⟨b, bs, hb, h1, h2⟩ := entity_head t
    refine ⟨(encodeU32 (BitVec.ofNat 32 m.length) ++ m) ++
      ((encodeU32 (BitVec.ofNat 32 n.length) ++ n) ++ t.encode), ?_, ?_⟩
    · simp only [Enc.Imports.encode]
      rw [encodeSlice_eq (by omega), encodeSlice_eq (by omega)]
      simp
    · refine DecP.readPos fun pos => (dec_string hm).bindP ((dec_string hn).bindP ?_)
      have hd := decP_entity ht
      rw [hb] at hd ⊢
      refine decP_peekByte ?_
      rw [if_neg (by simp [h1]), if_neg (by simp [h2])]
      exact hd.bind_nil fun _ h => .pure ⟨rfl, rfl, h⟩
  | compact1 m is =>
    obtain ⟨hf, hm, hl, hi⟩ := h
    have := hm.1
    obtain ⟨b, h1, h2, h3⟩ := decP_all2 (item := readImportItem f.toFeatures)
      (item' := skipImportItem f.toFeatures) (enc := Enc.ImportCompact.encode) (P := ImportItemIs)
      fun e he => decP_importItem (hi e he).1 (hi e he).2
    refine ⟨(encodeU32 (BitVec.ofNat 32 m.length) ++ m) ++ ([0x00] ++ ([0x7F] ++
      (encodeU32 (BitVec.ofNat 32 is.length) ++ b))), ?_, ?_⟩
    · simp only [Enc.Imports.encode]
      rw [encodeSlice_eq (by omega), encodeUsize_eq hl, h1]
      simp
    · refine DecP.readPos fun pos => (dec_string hm).bindP ?_
      refine dec_emptyString.bindP ?_
      refine decP_peekByte (b := 0x7F) ?_
      rw [if_pos ⟨rfl, rfl⟩]
      refine DecP.readPos fun pos => ?_
      rw [if_pos hf]
      refine Dec.bindP (b1 := [0x7F]) (.readBytes [0x7F]) ?_
      have := decP_bind_skip (b2 := []) (Q := (ImportsIs f.toFeatures · (.compact1 m is)))
        (g := fun items => (do pure (Imports.compact1 m (← limited items)) : R Imports))
        (dec_skipItems hl h3) fun r hr => decP_bind_limited hl h2 hr
          fun s xs hs hx => .pure ⟨rfl, xs, hs, hx⟩
      rwa [List.append_nil] at this
  | compact2 m t ns =>
    obtain ⟨hf, hm, ht, hl, hi⟩ := h
    have := hm.1
    obtain ⟨b, h1, h2, h3⟩ := decP_all2 (item := readString) (item' := skipString)
      (enc := encodeSlice) (P := fun a b => a = b) (es := ns) fun e he => ⟨_, by
          have := (hi e he).1
          exact encodeSlice_eq (by omega), (dec_string (hi e he)).toP rfl, dec_skipString (hi e he)⟩
    refine ⟨(encodeU32 (BitVec.ofNat 32 m.length) ++ m) ++ ([0x00] ++ ([0x7E] ++
      (t.encode ++ (encodeU32 (BitVec.ofNat 32 ns.length) ++ b)))), ?_, ?_⟩
    · simp only [Enc.Imports.encode]
      rw [encodeSlice_eq (by omega), encodeUsize_eq hl, h1]
      simp
    · refine DecP.readPos fun pos => (dec_string hm).bindP ?_
      refine dec_emptyString.bindP ?_
      refine decP_peekByte (b := 0x7E) ?_
      rw [if_neg (by decide), if_pos ⟨rfl, rfl⟩]
      refine DecP.readPos fun pos => ?_
      rw [if_pos hf]
      refine Dec.bindP (b1 := [0x7E]) (.readBytes [0x7E]) ?_
      refine (decP_entity ht).bind fun ty hty => ?_
      have := decP_bind_skip (b2 := []) (Q := (ImportsIs f.toFeatures · (.compact2 m t ns)))
        (g := fun items => (do pure (Imports.compact2 m ty (← limited items)) : R Imports))
        (dec_skipItems hl h3) fun r hr => decP_bind_limited hl h2 hr
          fun s xs hs hx => .pure ⟨rfl, hty, by
            rw [List.forall₂_eq_eq_eq] at hx
            rw [hs, hx]⟩
      rwa [List.append_nil] at this

theorem decP_export {e : Enc.Export} (h : ExportFits e) :
    ∃ b, e.encode = some b ∧ DecP readExport b (ExportIs · e) := by
  have := h.1
  obtain ⟨n, k, i⟩ := e
  dsimp only [ExportFits] at h this
  refine ⟨(encodeU32 (BitVec.ofNat 32 n.length) ++ n) ++ (k.encode ++ encodeU32 i), ?_, ?_⟩
  · simp only [Enc.Export.encode]
    rw [encodeSlice_eq (by omega)]
    simp
  · refine (dec_string h).bindP ?_
    have key : ∀ (b : UInt8) (x : ExternalKind), externalKindFromByte b = some x → KindIs x k →
        x ≠ .funcExact → k.encode = [b] → DecP (do
          let kind ← readExternalKind
          let pos ← readPos
          if kind = .funcExact then R.fail "Exact type is not allowed in the exports" pos
          else do pure (⟨n, kind, ← readVarU32⟩ : Export)) (k.encode ++ encodeU32 i)
          (ExportIs · ⟨n, k, i⟩) := by
      intro b x hx hk hne he
      rw [he]
      refine (dec_kind hx).bindP (DecP.readPos fun pos => ?_)
      rw [if_neg hne]
      exact ((Dec.u32 i).toP (P := (· = i)) rfl).bind_nil fun _ h => .pure ⟨rfl, hk, h⟩
    cases k
    · exact key 0 .func rfl trivial nofun rfl
    · exact key 1 .table rfl trivial nofun rfl
    · exact key 2 .memory rfl trivial nofun rfl
    · exact key 3 .global rfl trivial nofun rfl
    · exact key 4 .tag rfl trivial nofun rfl

theorem decP_typeEntry {e : Enc.TypeEntry} (h : TypeEntryFits e) :
    ∃ b, e.encode = some b ∧ DecP readRecGroup b (TypeEntryIs · e) := by
  cases e with
  | single t =>
    obtain ⟨b, h1, h2⟩ := Types.c39_subtype t h
    refine ⟨b, h1, fun r tail hr => ?_⟩
    obtain ⟨t', h3, h4⟩ := h2 r tail hr
    exact ⟨_, h3, h4⟩
  | group ts =>
    obtain ⟨b, h1, h2⟩ := Types.c39_rec_group ts h.1 h.2
    refine ⟨b, h1, fun r tail hr => ?_⟩
    obtain ⟨t', h3, h4⟩ := h2 r tail hr
    exact ⟨_, h3, h4⟩

theorem dataMode {f : Instr.Features} {mode : Enc.DataSegmentMode}
    (h : match mode with | .active _ c => ConstFits f c | _ => True) :
    ∃ fl b, mode.encode = encodeU32 fl ++ b ∧
      ∀ start, DecP (readDataKind f start fl) b (DataKindIs f · mode) := by
  cases mode with
  | passive =>
    refine ⟨1, [], by decide +kernel, fun start => ?_⟩
    unfold readDataKind
    rw [if_pos rfl]
    exact .pure trivial
  | active m c =>
    simp only [Enc.DataSegmentMode.encode]
    split
    · next hm =>
      have : [0x00] = encodeU32 0 := by decide +kernel
      refine ⟨0, c.encode, by rw [this], fun start => ?_⟩
      unfold readDataKind
      rw [if_neg (by decide), if_pos (by decide)]
      exact Dec.bindP (b1 := []) (a := 0) (.pure _)
        ((decP_const h).bind_nil fun _ hc => .pure ⟨hm.symm, hc⟩)
    · have : [0x02] = encodeU32 2 := by decide +kernel
      refine ⟨2, encodeU32 m ++ c.encode, by rw [this, List.append_assoc], fun start => ?_⟩
      unfold readDataKind
      rw [if_neg (by decide), if_pos (by decide)]
      exact Dec.bindP (a := m) (.u32 m)
        ((decP_const h).bind_nil fun _ hc => .pure ⟨rfl, hc⟩)

theorem decP_data {f : Instr.Features} {e : Enc.DataSegment} (h : DataFits f e) :
    ∃ b, e.encode = some b ∧ DecP (readData f) b (DataIs f · e) := by
  obtain ⟨mode, data⟩ := e
  obtain ⟨h1, h2⟩ := h
  dsimp only at h1 h2
  have hd : DecP readReader (encodeU32 (BitVec.ofNat 32 data.length) ++ data)
      (fun r => r.rest = data) := by
    refine (Dec.u32 _).bindP ?_
    rw [toNat_ofNat32 h2]
    have h0 : Dec (do let _ ← readBytes data.length; pure () : R Unit) data () :=
      (Dec.readBytes data).bind_nil (.pure _)
    intro r tail hr
    exact ⟨_, h0.skip r tail hr, rfl⟩
  obtain ⟨fl, b, h3, h4⟩ := dataMode h1
  refine ⟨encodeU32 fl ++ (b ++ (encodeU32 (BitVec.ofNat 32 data.length) ++ data)), ?_, ?_⟩
  · simp only [Enc.DataSegment.encode]
    rw [encodeUsize_eq h2, h3]
    simp
  · refine DecP.readPos fun start => (Dec.u32 fl).bindP ?_
    exact (h4 start).bind fun k hk => hd.bind_nil fun r hr => .pure ⟨hk, hr⟩

/-! ### Element segments -/

theorem elementMode {f : Instr.Features} {mode : Enc.ElementMode} {els : Enc.Elements}
    (h : match mode with | .active _ c => ConstFits f c | _ => True) :
    ∃ fl b, (Enc.encodeMode mode els).1 = encodeU32 fl ++ b ∧
      DecP (readElementKind f fl) b (ElementKindIs f · mode) ∧ fl &&& 0xFFFFFFF8 = 0 ∧
      decide (fl &&& 4 ≠ 0) = (els.exprBit == 4) ∧
      (fl &&& 3 ≠ 0 ↔ (Enc.encodeMode mode els).2 = true) ∧
      ((Enc.encodeMode mode els).2 = false → els.isFuncref = true) := by
  have hx : els.exprBit = 0 ∨ els.exprBit = 4 := by cases els <;> simp [Enc.Elements.exprBit]
  cases mode with
  | passive =>
    refine ⟨1 ||| els.exprBit, [], by simp [Enc.encodeMode], ?_, ?_⟩
    · unfold readElementKind
      rcases hx with hx | hx <;> rw [hx, if_pos (by decide), if_neg (by decide)] <;>
        exact .pure trivial
    · rcases hx with hx | hx <;> rw [hx] <;> simp [Enc.encodeMode]
  | declared =>
    refine ⟨3 ||| els.exprBit, [], by simp [Enc.encodeMode], ?_, ?_⟩
    · unfold readElementKind
      rcases hx with hx | hx <;> rw [hx, if_pos (by decide), if_pos (by decide)] <;>
        exact .pure trivial
    · rcases hx with hx | hx <;> rw [hx] <;> simp [Enc.encodeMode]
  | active t c =>
    have hc := decP_const h
    simp only [Enc.encodeMode]
    split
    · next hn =>
      obtain ⟨hn, hfr⟩ := hn
      have ht : t = none := by simpa using hn
      subst ht
      refine ⟨els.exprBit, c.encode, rfl, ?_, ?_⟩
      · unfold readElementKind
        have hk : DecP (do
            let tableIndex ← readOpt false readVarU32
            let offset ← readConstExpr f
            pure (ElementKind.active tableIndex offset)) c.encode
            (ElementKindIs f · (.active none c)) :=
          Dec.bindP (b1 := []) (a := none) (.pure _) (hc.bind_nil fun _ hc => .pure ⟨.inl rfl, hc⟩)
        rcases hx with hx | hx <;> rw [hx, if_neg (by decide)] <;> exact hk
      · rcases hx with hx | hx <;> rw [hx] <;> simp [hfr]
    · next hn =>
      refine ⟨2 ||| els.exprBit, encodeU32 (t.getD 0) ++ c.encode, by simp, ?_, ?_⟩
      · unfold readElementKind
        have hk : DecP (do
            let tableIndex ← readOpt true readVarU32
            let offset ← readConstExpr f
            pure (ElementKind.active tableIndex offset)) (encodeU32 (t.getD 0) ++ c.encode)
            (ElementKindIs f · (.active t c)) := by
          refine Dec.bindP (a := some (t.getD 0)) ((Dec.u32 _).map)
            (hc.bind_nil fun _ hc => .pure ⟨?_, hc⟩)
          cases t with
          | none => exact .inr ⟨rfl, rfl⟩
          | some t => exact .inl rfl
        rcases hx with hx | hx <;> rw [hx, if_neg (by decide)] <;> exact hk
      · rcases hx with hx | hx <;> rw [hx] <;> simp

theorem refIs_funcref : RefIs RefType.funcref Enc.funcref := by
  unfold RefIs
  decide +kernel

theorem decP_u32s (fs : List (BitVec 32)) :
    DecP (readMany readVarU32 fs.length) (fs.flatMap encodeU32) (· = fs) :=
  (Dec.many fun x _ => Dec.u32 x).toP rfl

theorem readMany_units {item : R α} : ∀ {n : Nat} {r r' : Reader} {xs : List α},
    readMany item n r = .ok (xs, r') →
    ∃ us, readMany (do let _ ← item; pure () : R Unit) n r = .ok (us, r')
  | 0, r, r', xs, h => by cases h; exact ⟨[], rfl⟩
  | n + 1, r, r', xs, h => by
    unfold readMany at h ⊢
    obtain ⟨a, r1, h1, h2⟩ := bind_ok.1 h
    obtain ⟨as, r2, h3, h4⟩ := bind_ok.1 h2
    cases h4
    obtain ⟨us, h5⟩ := readMany_units h3
    refine ⟨() :: us, ?_⟩
    rw [bind_apply, bind_apply, h1]
    simp only [pure_apply]
    rw [bind_apply, h5]
    rfl

theorem DecP.units {item : R α} {n : Nat} {b : List UInt8} {P : List α → Prop}
    (h : DecP (readMany item n) b P) :
    DecP (readMany (do let _ ← item; pure () : R Unit) n) b (fun _ => True) := by
  intro r tail hr
  obtain ⟨xs, h1, -⟩ := h r tail hr
  obtain ⟨us, h2⟩ := readMany_units h1
  exact ⟨us, h2, trivial⟩

theorem decP_element {f : Instr.Features} {e : Enc.ElementSegment} (h : ElementFits f e) :
    ∃ b, e.encode = some b ∧ DecP (readElement f) b (ElementIs f · e) := by
  obtain ⟨mode, els⟩ := e
  obtain ⟨h1, h2⟩ := h
  dsimp only at h1 h2
  obtain ⟨fl, b, h3, h4, h5, h6, h7, h8⟩ := elementMode (els := els) h1
  suffices ∃ b2, els.encode (Enc.encodeMode mode els).2 = some b2 ∧
      ∀ k, ElementKindIs f k mode → ∀ start, DecP (do
        let ty ← readElementType fl (els.exprBit == 4)
        let data ← skip (skipElementItems f (els.exprBit == 4))
        let items ← elementItems (els.exprBit == 4) ty data
        let stop ← readPos
        pure (⟨k, items, (start, stop)⟩ : Element)) b2 (ElementIs f · ⟨mode, els⟩) by
    obtain ⟨b2, h9, h10⟩ := this
    refine ⟨encodeU32 fl ++ (b ++ b2), ?_, ?_⟩
    · simp only [Enc.ElementSegment.encode]
      rw [h9, h3]
      simp
    · refine DecP.readPos fun start => (Dec.u32 fl).bindP (DecP.readPos fun pos => ?_)
      rw [if_neg (fun h => h h5)]
      refine h4.bind fun k hk => ?_
      rw [h6]
      exact h10 k hk start
  cases els with
  | functions fs =>
    have hx : (Enc.Elements.exprBit (.functions fs) == 4) = false := rfl
    rw [hx]
    generalize Enc.encodeMode mode (.functions fs) = em at *
    have hl : fs.length < 2 ^ 32 := h2
    refine ⟨(if em.2 then [0x00] else []) ++ (encodeU32 (BitVec.ofNat 32 fs.length) ++
      fs.flatMap encodeU32), ?_, ?_⟩
    · simp only [Enc.Elements.encode]
      rw [encodeUsize_eq hl]
      simp
    · intro k hk start
      have ht : Dec (readElementType fl false) (if em.2 then [0x00] else []) none := by
        unfold readElementType
        cases he : em.2 with
        | false =>
          rw [if_neg (by rw [h7, he]; simp)]
          exact .pure _
        | true =>
          rw [if_pos (h7.2 he)]
          exact (dec_kind (b := 0) (k := .func) rfl).bind_nil
            (Dec.readPos fun _ => .ite_pos rfl (.pure _))
      refine ht.bindP ?_
      have := decP_bind_skip (b2 := []) (Q := (ElementIs f · ⟨mode, .functions fs⟩))
        (g := fun data => (do
          let items ← elementItems false none data
          let stop ← readPos
          pure (⟨k, items, (start, stop)⟩ : Element)))
        (f := skipElementItems f false)
        (dec_skipItems hl (DecP.units (decP_u32s fs))) fun r hr => ?_
      · rwa [List.append_nil] at this
      · have h9 : DecP (elementItems false none r) [] (ElementItemsIs f · (.functions fs)) := by
          exact decP_bind_limited hl (decP_u32s fs) hr fun s xs hs hx => .pure (hx ▸ hs)
        exact h9.bind_nil fun items hit => DecP.readPos fun stop => .pure ⟨hk, hit⟩
  | expressions ty es =>
    have hx : (Enc.Elements.exprBit (.expressions ty es) == 4) = true := rfl
    rw [hx]
    obtain ⟨hr, hl, hf⟩ := h2
    generalize Enc.encodeMode mode (.expressions ty es) = em at *
    refine ⟨(if em.2 then ty.encode else []) ++ (encodeU32 (BitVec.ofNat 32 es.length) ++
      es.flatMap Enc.ConstExpr.encode), ?_, ?_⟩
    · simp only [Enc.Elements.encode]
      rw [encodeUsize_eq hl]
      simp
    · intro k hk start
      have ht : DecP (readElementType fl true) (if em.2 then ty.encode else [])
          (fun o => RefIs (o.getD RefType.funcref) ty) := by
        unfold readElementType
        cases he : em.2 with
        | false =>
          rw [if_neg (by rw [h7, he]; simp)]
          have := h8 he
          simp only [Enc.Elements.isFuncref, beq_iff_eq] at this
          exact .pure (this ▸ refIs_funcref)
        | true =>
          rw [if_pos (h7.2 he)]
          exact (decP_refType ty hr).map fun a ha => ha
      refine ht.bind fun o ho => ?_
      have hm : DecP (readMany (readConstExpr f) es.length) (es.flatMap Enc.ConstExpr.encode)
          (List.Forall₂ (ConstIs f) · es) := DecP.many fun e he => decP_const (hf e he)
      have hs : DecP (readMany (skipConstExpr f) es.length) (es.flatMap Enc.ConstExpr.encode)
          (List.Forall₂ (fun _ _ => True) · es) :=
        DecP.many fun e he => (dec_skipConst (hf e he)).toP trivial
      have := decP_bind_skip (b2 := []) (Q := (ElementIs f · ⟨mode, .expressions ty es⟩))
        (g := fun data => (do
          let items ← elementItems true o data
          let stop ← readPos
          pure (⟨k, items, (start, stop)⟩ : Element)))
        (f := skipElementItems f true)
        (dec_skipItems hl hs) fun r hr => ?_
      · rwa [List.append_nil] at this
      · have h9 : DecP (elementItems true o r) [] (ElementItemsIs f · (.expressions ty es)) := by
          exact decP_bind_limited hl hm hr fun s xs hs hx => .pure ⟨ho, xs, hs, hx⟩
        exact h9.bind_nil fun items hit => DecP.readPos fun stop => .pure ⟨hk, hit⟩

/-! ### Sections -/

/-- What a section builder holds after adding the items, and what reading it gives. -/
theorem decP_items {item : R α} {enc : β → Option (List UInt8)} {P : α → β → Prop} {es : List β}
    (hl : es.length < 2 ^ 32) (h : ∀ e ∈ es, ∃ b, enc e = some b ∧ DecP item b (P · e)) :
    ∃ b, Enc.buildFrom enc {} es = some b ∧ b.numAdded = BitVec.ofNat 32 es.length ∧
      ∀ r : Reader, r.rest = b.bytes →
      ∃ xs, SectionLimited.collect item ⟨r, b.numAdded⟩ = .ok xs ∧ List.Forall₂ P xs es := by
  obtain ⟨bs, h1, h2⟩ := decP_all h
  refine ⟨_, buildFrom_eq h1, by simp, fun r hr => ?_⟩
  unfold SectionLimited.collect
  simp only [List.nil_append, BitVec.zero_add] at hr ⊢
  rw [show (0 + BitVec.ofNat 32 es.length).toNat = es.length by
    rw [show (0 : BitVec 32) + BitVec.ofNat 32 es.length = BitVec.ofNat 32 es.length by simp]
    exact toNat_ofNat32 hl]
  exact decP_collect h2 hr

theorem section_items (f : Feats) (e : Enc.Section) (h : SectionFits f e) :
    ∃ b, e.build = some b ∧ ∀ r : Reader, r.rest = b.bytes →
      ∃ xs, collectItems f e.id ⟨r, b.numAdded⟩ = some (.ok xs) ∧ ItemsIs f.toFeatures xs e := by
  cases e with
  | types es =>
    obtain ⟨b, h1, -, h2⟩ := decP_items h.1 fun e he => decP_typeEntry (h.2 e he)
    refine ⟨b, h1, fun r hr => ?_⟩
    obtain ⟨xs, h3, h4⟩ := h2 r hr
    exact ⟨.types xs, by simp [collectItems, Enc.Section.id, h3], h4⟩
  | imports es =>
    obtain ⟨b, h1, -, h2⟩ := decP_items h.1 fun e he => decP_imports (h.2 e he)
    refine ⟨b, h1, fun r hr => ?_⟩
    obtain ⟨xs, h3, h4⟩ := h2 r hr
    exact ⟨.imports xs, by simp [collectItems, Enc.Section.id, h3], h4⟩
  | functions es =>
    obtain ⟨b, h1, -, h2⟩ := decP_items (item := readVarU32) (P := fun a b => a = b) h
      fun e he => ⟨_, rfl, (Dec.u32 e).toP rfl⟩
    refine ⟨b, h1, fun r hr => ?_⟩
    obtain ⟨xs, h3, h4⟩ := h2 r hr
    rw [List.forall₂_eq_eq_eq] at h4
    exact ⟨.functions xs, by simp [collectItems, Enc.Section.id, h3], h4⟩
  | tables es =>
    obtain ⟨b, h1, -, h2⟩ := decP_items h.1 fun e he => ⟨_, rfl, decP_table (h.2 e he)⟩
    refine ⟨b, h1, fun r hr => ?_⟩
    obtain ⟨xs, h3, h4⟩ := h2 r hr
    exact ⟨.tables xs, by simp [collectItems, Enc.Section.id, h3], h4⟩
  | memories es =>
    obtain ⟨b, h1, -, h2⟩ := decP_items h.1 fun e he => ⟨_, rfl, decP_memoryType (h.2 e he)⟩
    refine ⟨b, h1, fun r hr => ?_⟩
    obtain ⟨xs, h3, h4⟩ := h2 r hr
    exact ⟨.memories xs, by simp [collectItems, Enc.Section.id, h3], h4⟩
  | tags es =>
    obtain ⟨b, h1, -, h2⟩ := decP_items h fun e he => ⟨_, rfl, decP_tagType e⟩
    refine ⟨b, h1, fun r hr => ?_⟩
    obtain ⟨xs, h3, h4⟩ := h2 r hr
    exact ⟨.tags xs, by simp [collectItems, Enc.Section.id, h3], h4⟩
  | globals es =>
    obtain ⟨b, h1, -, h2⟩ := decP_items h.1 fun e he => ⟨_, rfl, decP_global (h.2 e he)⟩
    refine ⟨b, h1, fun r hr => ?_⟩
    obtain ⟨xs, h3, h4⟩ := h2 r hr
    exact ⟨.globals xs, by simp [collectItems, Enc.Section.id, h3], h4⟩
  | exports es =>
    obtain ⟨b, h1, -, h2⟩ := decP_items h.1 fun e he => decP_export (h.2 e he)
    refine ⟨b, h1, fun r hr => ?_⟩
    obtain ⟨xs, h3, h4⟩ := h2 r hr
    exact ⟨.exports xs, by simp [collectItems, Enc.Section.id, h3], h4⟩
  | elements es =>
    obtain ⟨b, h1, -, h2⟩ := decP_items h.1 fun e he => decP_element (h.2 e he)
    refine ⟨b, h1, fun r hr => ?_⟩
    obtain ⟨xs, h3, h4⟩ := h2 r hr
    exact ⟨.elements xs, by simp [collectItems, Enc.Section.id, h3], h4⟩
  | data es =>
    obtain ⟨b, h1, -, h2⟩ := decP_items h.1 fun e he => decP_data (h.2 e he)
    refine ⟨b, h1, fun r hr => ?_⟩
    obtain ⟨xs, h3, h4⟩ := h2 r hr
    exact ⟨.data xs, by simp [collectItems, Enc.Section.id, h3], h4⟩

end Verif.Items
