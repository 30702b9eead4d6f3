import Verif.Gc.Prologue
/-! The result of `encode`, part by part. -/
namespace Verif.Gc
open Verif.Reader Verif.Instr Verif.Items Verif.Reenc Verif.Reenc.Spec Spec

variable {f : Instr.Features} {m : Module} {main : Option (List UInt8)} {L : Live}

/-! ### The small steps -/

theorem forall₂_len {α β : Type} {R : α → β → Prop} {xs : List α} {ys : List β}
    (h : List.Forall₂ R xs ys) : xs.length = ys.length := by
  induction h with
  | nil => rfl
  | cons _ _ ih => simp [ih]

/-- Type `ty` of the list is `t`. -/
def TyAt (types : List Types.Enc.FuncType) (ty : BitVec 32) (t : Types.Enc.FuncType) : Prop :=
  types[ty.toNat]? = some t

theorem TyAt.mono {types types' : List Types.Enc.FuncType} {ty : BitVec 32} {t : Types.Enc.FuncType}
    (h : TyAt types ty t) : TyAt (types ++ types') ty t := by
  unfold TyAt
  rw [List.getElem?_append_left (List.getElem?_eq_some_iff.1 h).1]
  exact h

theorem tyAt_last {types : List Types.Enc.FuncType} (hl : types.length < 2 ^ 32)
    (t : Types.Enc.FuncType) : TyAt (types ++ [t]) (BitVec.ofNat 32 types.length) t := by
  unfold TyAt
  rw [BitVec.toNat_ofNat, Nat.mod_eq_of_lt hl, List.getElem?_concat_length]

theorem addReallocImport_eq (sp : Option (BitVec 32)) (s : St) :
    ∃ (ex : List OutFunc) (r : Remap) (tys : List Types.Enc.FuncType) (ri : Option Nat)
      (names : List (BitVec 32 × List UInt8)),
      addReallocImport main sp s = { s with
        map := { s.map with funcs := r }
        reallocIndex := ri
        out := { s.out with types := s.out.types ++ tys
                            imports := s.out.imports ++ ex.filterMap fImp
                            funcNames := names }
        numFuncImports := s.numFuncImports + ex.length } ∧
      (∀ i, r.get? i = s.map.funcs.get? i) ∧ r.next = s.map.funcs.next + ex.length ∧
      tys.length ≤ 1 ∧ (∀ t ∈ tys, t = reallocType ∨ t = emptyFuncType) ∧
      (ex = [] ∧ ri = s.reallocIndex ∧ (main = none ∨ sp = none ∨ ri.isSome) ∨
        ∃ n ty, ex = [.imp mainModule n ty] ∧ main = some n ∧ ri = some s.numFuncImports ∧
          (s.out.types.length < 2 ^ 32 → TyAt (s.out.types ++ tys) ty reallocType)) := by
  have triv : (main = none ∨ sp = none ∨ s.reallocIndex.isSome) →
      ∃ (ex : List OutFunc) (r : Remap) (tys : List Types.Enc.FuncType) (ri : Option Nat)
      (names : List (BitVec 32 × List UInt8)),
      s = { s with
        map := { s.map with funcs := r }
        reallocIndex := ri
        out := { s.out with types := s.out.types ++ tys
                            imports := s.out.imports ++ ex.filterMap fImp
                            funcNames := names }
        numFuncImports := s.numFuncImports + ex.length } ∧
      (∀ i, r.get? i = s.map.funcs.get? i) ∧ r.next = s.map.funcs.next + ex.length ∧
      tys.length ≤ 1 ∧ (∀ t ∈ tys, t = reallocType ∨ t = emptyFuncType) ∧
      (ex = [] ∧ ri = s.reallocIndex ∧ (main = none ∨ sp = none ∨ ri.isSome) ∨
        ∃ n ty, ex = [.imp mainModule n ty] ∧ main = some n ∧ ri = some s.numFuncImports ∧
          (s.out.types.length < 2 ^ 32 → TyAt (s.out.types ++ tys) ty reallocType)) := fun h =>
    ⟨[], s.map.funcs, [], s.reallocIndex, s.out.funcNames, by simp, fun _ => rfl, rfl,
      Nat.zero_le _, nofun, .inl ⟨rfl, rfl, h⟩⟩
  unfold addReallocImport
  cases main with
  | none => exact triv (.inl rfl)
  | some realloc =>
    cases sp with
    | none => exact triv (.inr (.inl rfl))
    | some sp =>
      cases hri : s.reallocIndex with
      | some k =>
        have := triv (.inr (.inr (by rw [hri]; rfl)))
        rw [hri] at this
        exact this
      | none =>
        refine ⟨[.imp mainModule realloc (BitVec.ofNat 32 s.out.types.length)], s.map.funcs.skip,
          [reallocType], some s.numFuncImports, _, rfl, fun _ => rfl, rfl, Nat.le_refl _, ?_, ?_⟩
        · intro t ht
          exact .inl (List.mem_singleton.1 ht)
        · exact .inr ⟨_, _, rfl, rfl, rfl, fun hl => tyAt_last hl _⟩

theorem lazyInit_eq {sp state : Option (BitVec 32)} {s s' : St} {si : Option Nat}
    (h : lazyInit main sp state s = (s', si)) :
    ∃ (r : Remap) (tys : List Types.Enc.FuncType) (b : List (BitVec 32)),
      s' = { s with
        map := { s.map with funcs := r }
        out := { s.out with types := s.out.types ++ tys, funcs := s.out.funcs ++ b } } ∧
      (∀ i, r.get? i = s.map.funcs.get? i) ∧ tys.length ≤ 1 ∧
      (∀ t ∈ tys, t = reallocType ∨ t = emptyFuncType) ∧
      (si = none ∧ b = [] ∧ ¬ (sp.isSome ∧ state.isSome ∧ main.isSome) ∨
        (sp.isSome ∧ state.isSome ∧ main.isSome) ∧
        si = some (s.numFuncImports + s.out.funcs.length) ∧ ∃ ty, b = [ty] ∧
          (s.out.types.length < 2 ^ 32 → TyAt (s.out.types ++ tys) ty emptyFuncType)) := by
  unfold lazyInit at h
  split at h
  · next hc =>
    cases h
    refine ⟨s.map.funcs.skip, [emptyFuncType], [BitVec.ofNat 32 s.out.types.length], rfl,
      fun _ => rfl, Nat.le_refl _, ?_, .inr ⟨hc, rfl, _, rfl, fun hl => tyAt_last hl _⟩⟩
    intro t ht
    exact .inr (List.mem_singleton.1 ht)
  · next hc =>
    cases h
    exact ⟨s.map.funcs, [], [], by simp, fun _ => rfl, Nat.zero_le _, nofun, .inl ⟨rfl, rfl, hc⟩⟩

theorem unwrap_ok {α : Type} {x : Option α} {a : α} (h : unwrap x = .ok a) : x = some a := by
  cases x with
  | none => cases h
  | some b => cases h; rfl

theorem addLazy_ok {si : Option Nat} {sp state : Option (BitVec 32)} {s s' : St}
    (h : addLazy si sp state s = .ok s') : ∃ c,
      s' = { s with out := { s.out with code := s.out.code ++ c } } ∧
      (si = none ∧ c = [] ∨ si.isSome ∧ ∃ b r p, c = [b] ∧ s.reallocIndex = some r ∧
        sp = some p ∧ stackFunction (BitVec.ofNat 32 r) p state = .ok b) := by
  unfold addLazy at h
  split at h
  · cases h
    exact ⟨[], by simp, .inl ⟨rfl, rfl⟩⟩
  · obtain ⟨r, h1, h⟩ := ebind_ok h
    obtain ⟨p, h2, h⟩ := ebind_ok h
    obtain ⟨b, h3, h⟩ := ebind_ok h
    cases h
    exact ⟨[b], rfl, .inr ⟨rfl, b, r, p, rfl, unwrap_ok h1, unwrap_ok h2, h3⟩⟩

theorem addRealloc_ok {sp state : Option (BitVec 32)} {s s' : St}
    (h : addRealloc sp state s = .ok s') : ∃ tys b c ri,
      s' = { s with
        reallocIndex := ri
        out := { s.out with types := s.out.types ++ tys, funcs := s.out.funcs ++ b
                            code := s.out.code ++ c } } ∧
      tys.length ≤ 1 ∧ (∀ t ∈ tys, t = reallocType ∨ t = emptyFuncType) ∧
      (b = [] ∧ c = [] ∧ ri = s.reallocIndex ∧ (sp = none ∨ ri.isSome) ∨
        ∃ ty, b = [ty] ∧ c = [reallocBody] ∧ sp.isSome ∧
          ri = some (s.numFuncImports + s.out.funcs.length) ∧
          (s.out.types.length < 2 ^ 32 → TyAt (s.out.types ++ tys) ty reallocType)) := by
  unfold addRealloc at h
  split at h
  · next hc =>
    obtain ⟨b, h1, h⟩ := ebind_ok h
    rw [reallocFunction_eq] at h1
    cases h1
    cases h
    refine ⟨[reallocType], [BitVec.ofNat 32 s.out.types.length], [reallocBody], _, rfl,
      Nat.le_refl _, ?_, .inr ⟨_, rfl, rfl, hc.1, rfl, fun hl => tyAt_last hl _⟩⟩
    intro t ht
    exact .inl (List.mem_singleton.1 ht)
  · next hc =>
    cases h
    refine ⟨[], [], [], s.reallocIndex, by simp, Nat.zero_le _, nofun, .inl ⟨rfl, rfl, rfl, ?_⟩⟩
    cases sp with
    | none => exact .inl rfl
    | some p =>
      right
      cases hr : s.reallocIndex with
      | some k => rfl
      | none => exact (hc ⟨rfl, .inl hr⟩).elim

theorem startType_eq (s : St) (het : ∀ t, s.emptyType = some t → TyAt s.out.types t emptyFuncType) :
    ∃ tys, (startType s).1 = { s.out with types := s.out.types ++ tys } ∧
    (∀ t ∈ tys, t = reallocType ∨ t = emptyFuncType) ∧
    (s.out.types.length < 2 ^ 32 → TyAt (s.out.types ++ tys) (startType s).2 emptyFuncType) := by
  unfold startType
  split
  · next t h => exact ⟨[], by simp, nofun, fun _ => (het t h).mono⟩
  · refine ⟨[emptyFuncType], rfl, ?_, fun hl => tyAt_last hl _⟩
    intro t ht
    exact .inr (List.mem_singleton.1 ht)

theorem addStart_ok {si : Option Nat} {sp state : Option (BitVec 32)} {s s' : St}
    (het : ∀ t, s.emptyType = some t → TyAt s.out.types t emptyFuncType)
    (h : addStart si sp state s = .ok s') : ∃ tys b c names st,
      s' = { s with
        out := { s.out with types := s.out.types ++ tys, funcs := s.out.funcs ++ b
                            code := s.out.code ++ c, funcNames := names, start := st } } ∧
      (∀ t ∈ tys, t = reallocType ∨ t = emptyFuncType) ∧
      (b = [] ∧ c = [] ∧ st = s.out.start ∧ (sp = none ∨ si.isSome ∨ s.numMemories = 0) ∨
        ∃ ty x p p' r, b = [ty] ∧ c = [x] ∧ si = none ∧ sp = some p ∧ s.numMemories = 1 ∧
          s.map.globals.get? p = some p' ∧ s.reallocIndex = some r ∧
          st = some (BitVec.ofNat 32 (s.numFuncImports + s.out.funcs.length)) ∧
          stackFunction (BitVec.ofNat 32 r) p' state = .ok x ∧
          (s.out.types.length < 2 ^ 32 → TyAt (s.out.types ++ tys) ty emptyFuncType)) := by
  have triv : (sp = none ∨ si.isSome ∨ s.numMemories = 0) → ∃ tys b c names st,
      s = { s with
        out := { s.out with types := s.out.types ++ tys, funcs := s.out.funcs ++ b
                            code := s.out.code ++ c, funcNames := names, start := st } } ∧
      (∀ t ∈ tys, t = reallocType ∨ t = emptyFuncType) ∧
      (b = [] ∧ c = [] ∧ st = s.out.start ∧ (sp = none ∨ si.isSome ∨ s.numMemories = 0) ∨
        ∃ ty x p p' r, b = [ty] ∧ c = [x] ∧ si = none ∧ sp = some p ∧ s.numMemories = 1 ∧
          s.map.globals.get? p = some p' ∧ s.reallocIndex = some r ∧
          st = some (BitVec.ofNat 32 (s.numFuncImports + s.out.funcs.length)) ∧
          stackFunction (BitVec.ofNat 32 r) p' state = .ok x ∧
          (s.out.types.length < 2 ^ 32 → TyAt (s.out.types ++ tys) ty emptyFuncType)) := fun h =>
    ⟨[], [], [], s.out.funcNames, s.out.start, by simp, nofun, .inl ⟨rfl, rfl, rfl, h⟩⟩
  unfold addStart at h
  cases sp with
  | none => cases h; exact triv (.inl rfl)
  | some p =>
    cases si with
    | some k => cases h; exact triv (.inr (.inl rfl))
    | none =>
      dsimp only at h
      split at h
      · next h0 => cases h; exact triv (.inr (.inr h0))
      · split at h
        · cases h
        · next h0 h1' =>
          obtain ⟨p', h1, h⟩ := ebind_ok h
          obtain ⟨tys, k1, k2, k3⟩ := startType_eq s het
          generalize startType s = q at h k1 k3
          obtain ⟨out, ty⟩ := q
          subst k1
          obtain ⟨r, h2, h⟩ := ebind_ok h
          obtain ⟨b, h3, h⟩ := ebind_ok h
          cases h
          exact ⟨tys, [ty], [b], _, _, rfl, k2, .inr ⟨ty, b, p, p', r, rfl, rfl, rfl, rfl,
            Classical.not_not.1 h1', remap_ok h1, unwrap_ok h2, rfl, h3, k3⟩⟩

/-! ### All together -/

/-- The lists that the result is made of. -/
structure Lists where
  tys : List Types.Enc.FuncType
  moreTys : List Types.Enc.FuncType
  outs : List OutGlobal
  fs : List OutFunc
  ex : List OutFunc
  ltys : List (BitVec 32)
  bodies : List (List UInt8)
  moreFuncs : List (BitVec 32)
  moreCode : List (List UInt8)
  sp : Option (BitVec 32)
  state : Option (BitVec 32)
  ri : Option Nat
  ri' : Option Nat
  lz : List OutFunc
  rl : List OutFunc
  st : List OutFunc

/-- Functions that are imported by the result. -/
abbrev impFuncs (m : Module) (main : Option (List UInt8)) (L : Live) : List (BitVec 32 × Func) :=
  (liveIter L.funcs m.funcs).filter fun p => staysImport main p.2

/-- Functions that are defined in the result. -/
abbrev locFuncs (m : Module) (main : Option (List UInt8)) (L : Live) : List (BitVec 32 × Func) :=
  (liveIter L.funcs m.funcs).filter fun p => !staysImport main p.2

structure Shape (f : Instr.Features) (m : Module) (main : Option (List UInt8)) (L : Live) (o : Out)
    (e : Encoder) (si : Option Nat) (x : Lists) : Prop where
  types : e.types = ({} : Remap).pushAll ((liveIter L.types m.types).map (·.1))
  memories : e.memories = ({} : Remap).pushAll ((liveIter L.memories m.memories).map (·.1))
  globals : e.globals = ({} : Remap).pushAll ((liveIter L.globals m.globals).map (·.1))
  tables : e.tables = {}
  noTables : liveIter L.tables m.tables = []
  otypes : o.types = x.tys ++ x.moreTys
  tyEnc : List.Forall₂ (TypeEnc e) (liveIter L.types m.types) x.tys
  moreTys : ∀ t ∈ x.moreTys, t = reallocType ∨ t = emptyFuncType
  imports : o.imports = (liveIter L.memories m.memories).filterMap memImp ++
    x.outs.filterMap gImp ++ x.fs.filterMap fImp ++ x.ex.filterMap fImp
  noMems : o.memories = []
  mems : (liveIter L.memories m.memories).filterMap memLoc = []
  otables : o.tables = []
  oglobals : o.globals = x.outs.filterMap gLoc
  gEnc : List.Forall₂ (GlobalEnc f e) (liveIter L.globals m.globals) x.outs
  fEnc : List.Forall₂ (ImpEnc e.types main) (impFuncs m main L) x.fs
  ex : x.ex = [] ∨ ∃ n ty, x.ex = [.imp mainModule n ty] ∧ main = some n ∧
    TyAt o.types ty reallocType
  lEnc : List.Forall₂ (fun p ty => e.types.get? p.2.ty = some ty) (locFuncs m main L) x.ltys
  funcs : o.funcs = x.ltys ++ x.moreFuncs
  code : o.code = ((locFuncs m main L).filter fun p => !isLoc p).map (fun _ => reallocBody) ++
    x.bodies ++ x.moreCode
  bEnc : List.Forall₂ (CodeEnc f m e si) ((liveIter L.funcs m.funcs).filter isLoc) x.bodies
  moreLen : x.moreFuncs.length = x.moreCode.length
  more : List.zipWith OutFunc.loc x.moreFuncs x.moreCode = x.lz ++ x.rl ++ x.st
  spFound : findGlobal m L stackPointer = .ok x.sp
  stateFound : findGlobal m L allocationState = .ok x.state
  ri : ∀ k, x.ri = some k → (∃ p, (impFuncs m main L)[k]? = some p ∧ IsRealloc p) ∨
    (k = (impFuncs m main L).length ∧ x.ex ≠ []) ∨
    ∃ j p, (locFuncs m main L)[j]? = some p ∧ isLoc p = false ∧
      k = (impFuncs m main L).length + x.ex.length + j
  lz : si = none ∧ x.lz = [] ∧ ¬ (x.sp.isSome ∧ x.state.isSome ∧ main.isSome) ∨
    (x.sp.isSome ∧ x.state.isSome ∧ main.isSome) ∧
    si = some ((impFuncs m main L).length + x.ex.length + x.ltys.length) ∧ ∃ ty b r p,
      x.lz = [.loc ty b] ∧ x.ri = some r ∧ x.sp = some p ∧
      stackFunction (BitVec.ofNat 32 r) p x.state = .ok b ∧ TyAt o.types ty emptyFuncType
  rl : x.rl = [] ∧ x.ri' = x.ri ∧ (x.sp = none ∨ x.ri'.isSome) ∨ ∃ ty, x.sp.isSome ∧
    x.rl = [.loc ty reallocBody] ∧ TyAt o.types ty reallocType ∧
    x.ri' = some ((impFuncs m main L).length + x.ex.length + x.ltys.length + x.lz.length)
  st : x.st = [] ∧ o.start = none ∧
      (x.sp = none ∨ si.isSome ∨ (liveIter L.memories m.memories).length = 0) ∨
    ∃ ty b p p' r, x.st = [.loc ty b] ∧ si = none ∧ x.sp = some p ∧
      (liveIter L.memories m.memories).length = 1 ∧
      e.globals.get? p = some p' ∧ x.ri' = some r ∧
      o.start = some (BitVec.ofNat 32 ((impFuncs m main L).length + x.ex.length + x.ltys.length +
        x.lz.length + x.rl.length)) ∧
      stackFunction (BitVec.ofNat 32 r) p' x.state = .ok b ∧ TyAt o.types ty emptyFuncType
  mapImp : ∀ (k : Nat) (i : BitVec 32), ((impFuncs m main L).map (·.1))[k]? = some i →
    e.funcs.get? i = some (BitVec.ofNat 32 k)
  mapLoc : ∀ (k : Nat) (i : BitVec 32), ((locFuncs m main L).map (·.1))[k]? = some i →
    e.funcs.get? i = some (BitVec.ofNat 32 ((impFuncs m main L).length + x.ex.length + k))
  mapMem : ∀ i, (e.funcs.get? i).isSome → i ∈ (liveIter L.funcs m.funcs).map (·.1)
  exports : List.Forall₂ (fun a b => encodeExport e a = .ok b) m.exports o.exports

theorem emapM_forall₂ {ε α β : Type} {g : α → Except ε β} : ∀ {xs : List α} {ys : List β},
    xs.mapM g = .ok ys → List.Forall₂ (fun a b => g a = .ok b) xs ys
  | [], ys, h => by cases h; exact .nil
  | x :: xs, ys, h => by
    rw [List.mapM_cons] at h
    obtain ⟨y, h1, h⟩ := ebind_ok h
    obtain ⟨zs, h2, h⟩ := ebind_ok h
    cases h
    exact .cons h1 (emapM_forall₂ h2)

theorem empty_sub (r : Remap) : ({} : Remap).Sub r := fun _ _ h => nomatch h

set_option maxHeartbeats 800000 in
theorem encode_shape (hp : Parsed f m) {o : Out} (h : encode f m main L = .ok o) :
    ∃ e si x, Shape f m main L o e si x := by
  obtain ⟨s4, h1, h⟩ := ebind_ok h
  obtain ⟨sp, h2, h⟩ := ebind_ok h
  obtain ⟨state, h3, h⟩ := ebind_ok h
  obtain ⟨⟨s8, si⟩, h4, h⟩ := ebind_ok h
  obtain ⟨s12, h5, h⟩ := ebind_ok h
  obtain ⟨u, h6, h⟩ := ebind_ok h
  obtain ⟨exports, h7, h⟩ := ebind_ok h
  obtain ⟨fn, h8, h⟩ := ebind_ok h
  obtain ⟨gn, h9, h⟩ := ebind_ok h
  have hT : (liveIter L.types m.types).map (·.1) |>.Nodup := liveIter_nodup (by have := hp.types; omega)
  have hG : (liveIter L.globals m.globals).map (·.1) |>.Nodup := liveIter_nodup hp.numGlobals
  have hF : (liveIter L.funcs m.funcs).map (·.1) |>.Nodup :=
    liveIter_nodup (by have := hp.numFuncs; omega)
  -- the checks
  have hshape : liveIter L.tables m.tables = [] ∧ s12.out.memories = [] := by
    unfold checkShape at h6
    split at h6
    · cases h6
    · next g1 =>
      split at h6
      · cases h6
      · split at h6
        · cases h6
        · next g2 => exact ⟨Classical.not_not.1 g1, Classical.not_not.1 g2⟩
  -- items
  obtain ⟨s1, i1, h1⟩ := ebind_ok h1
  obtain ⟨s2, i2, h1⟩ := ebind_ok h1
  obtain ⟨s3, i3, h1⟩ := ebind_ok h1
  rw [hshape.1] at i3
  cases i3
  rw [memories_fold] at i2
  cases i2
  obtain ⟨tys, et, k1, k2, ket⟩ := types_fold i1 hT (fun _ _ => rfl)
  obtain ⟨outs, k3, k4⟩ := globals_fold h1 hG (by rw [k1]; exact fun _ _ => rfl)
  -- functions
  obtain ⟨s5, j1, h4⟩ := ebind_ok h4
  obtain ⟨s7, j2, h4⟩ := ebind_ok h4
  obtain ⟨fs, ri, k5, k6, kri⟩ := imports_fold j1
  obtain ⟨ex, r, xtys, ri', names, k7, k8, k9, kx, k12, kex⟩ := addReallocImport_eq (main := main) sp s5
  generalize addReallocImport main sp s5 = s6 at k7 j2
  obtain ⟨ltys, ri2, k13, k14, kri2⟩ := locals_fold j2
  obtain ⟨r', ytys, lb, k15, k16, ky, k17, k18⟩ := lazyInit_eq (Except.ok.inj h4)
  -- code
  obtain ⟨s9, l1, h5⟩ := ebind_ok h5
  obtain ⟨s10, l2, h5⟩ := ebind_ok h5
  obtain ⟨s11, l3, h5⟩ := ebind_ok h5
  obtain ⟨bodies, k19, k20⟩ := codes_fold l1
  obtain ⟨c1, k21, k22⟩ := addLazy_ok l2
  obtain ⟨tys3, b3, c3, ri3, k23, k3l, k24, krl⟩ := addRealloc_ok l3
  have types_s1 : s1.out.types = tys := congrArg (·.out.types) k1
  have imports_s1 : s1.out.imports = [] := congrArg (·.out.imports) k1
  have memories_s1 : s1.out.memories = [] := congrArg (·.out.memories) k1
  have tables_s1 : s1.out.tables = [] := congrArg (·.out.tables) k1
  have globals_s1 : s1.out.globals = [] := congrArg (·.out.globals) k1
  have funcs_s1 : s1.out.funcs = [] := congrArg (·.out.funcs) k1
  have code_s1 : s1.out.code = [] := congrArg (·.out.code) k1
  have types_s4 : s4.out.types = s1.out.types := congrArg (·.out.types) k3
  have imports_s4 : s4.out.imports = s1.out.imports ++ (liveIter L.memories m.memories).filterMap memImp ++ outs.filterMap gImp := congrArg (·.out.imports) k3
  have memories_s4 : s4.out.memories = s1.out.memories ++ (liveIter L.memories m.memories).filterMap memLoc := congrArg (·.out.memories) k3
  have tables_s4 : s4.out.tables = s1.out.tables := congrArg (·.out.tables) k3
  have globals_s4 : s4.out.globals = s1.out.globals ++ outs.filterMap gLoc := congrArg (·.out.globals) k3
  have funcs_s4 : s4.out.funcs = s1.out.funcs := congrArg (·.out.funcs) k3
  have code_s4 : s4.out.code = s1.out.code := congrArg (·.out.code) k3
  have types_s5 : s5.out.types = s4.out.types := congrArg (·.out.types) k5
  have imports_s5 : s5.out.imports = s4.out.imports ++ fs.filterMap fImp := congrArg (·.out.imports) k5
  have memories_s5 : s5.out.memories = s4.out.memories := congrArg (·.out.memories) k5
  have tables_s5 : s5.out.tables = s4.out.tables := congrArg (·.out.tables) k5
  have globals_s5 : s5.out.globals = s4.out.globals := congrArg (·.out.globals) k5
  have funcs_s5 : s5.out.funcs = s4.out.funcs := congrArg (·.out.funcs) k5
  have code_s5 : s5.out.code = s4.out.code := congrArg (·.out.code) k5
  have types_s6 : s6.out.types = s5.out.types ++ xtys := congrArg (·.out.types) k7
  have imports_s6 : s6.out.imports = s5.out.imports ++ ex.filterMap fImp := congrArg (·.out.imports) k7
  have memories_s6 : s6.out.memories = s5.out.memories := congrArg (·.out.memories) k7
  have tables_s6 : s6.out.tables = s5.out.tables := congrArg (·.out.tables) k7
  have globals_s6 : s6.out.globals = s5.out.globals := congrArg (·.out.globals) k7
  have funcs_s6 : s6.out.funcs = s5.out.funcs := congrArg (·.out.funcs) k7
  have code_s6 : s6.out.code = s5.out.code := congrArg (·.out.code) k7
  have types_s7 : s7.out.types = s6.out.types := congrArg (·.out.types) k13
  have imports_s7 : s7.out.imports = s6.out.imports := congrArg (·.out.imports) k13
  have memories_s7 : s7.out.memories = s6.out.memories := congrArg (·.out.memories) k13
  have tables_s7 : s7.out.tables = s6.out.tables := congrArg (·.out.tables) k13
  have globals_s7 : s7.out.globals = s6.out.globals := congrArg (·.out.globals) k13
  have funcs_s7 : s7.out.funcs = s6.out.funcs ++ ltys := congrArg (·.out.funcs) k13
  have code_s7 : s7.out.code = s6.out.code ++ ((locFuncs m main L).filter fun p => !isLoc p).map (fun _ => reallocBody) := congrArg (·.out.code) k13
  have types_s8 : s8.out.types = s7.out.types ++ ytys := congrArg (·.out.types) k15
  have imports_s8 : s8.out.imports = s7.out.imports := congrArg (·.out.imports) k15
  have memories_s8 : s8.out.memories = s7.out.memories := congrArg (·.out.memories) k15
  have tables_s8 : s8.out.tables = s7.out.tables := congrArg (·.out.tables) k15
  have globals_s8 : s8.out.globals = s7.out.globals := congrArg (·.out.globals) k15
  have funcs_s8 : s8.out.funcs = s7.out.funcs ++ lb := congrArg (·.out.funcs) k15
  have code_s8 : s8.out.code = s7.out.code := congrArg (·.out.code) k15
  have types_s9 : s9.out.types = s8.out.types := congrArg (·.out.types) k19
  have imports_s9 : s9.out.imports = s8.out.imports := congrArg (·.out.imports) k19
  have memories_s9 : s9.out.memories = s8.out.memories := congrArg (·.out.memories) k19
  have tables_s9 : s9.out.tables = s8.out.tables := congrArg (·.out.tables) k19
  have globals_s9 : s9.out.globals = s8.out.globals := congrArg (·.out.globals) k19
  have funcs_s9 : s9.out.funcs = s8.out.funcs := congrArg (·.out.funcs) k19
  have code_s9 : s9.out.code = s8.out.code ++ bodies := congrArg (·.out.code) k19
  have types_s10 : s10.out.types = s9.out.types := congrArg (·.out.types) k21
  have imports_s10 : s10.out.imports = s9.out.imports := congrArg (·.out.imports) k21
  have memories_s10 : s10.out.memories = s9.out.memories := congrArg (·.out.memories) k21
  have tables_s10 : s10.out.tables = s9.out.tables := congrArg (·.out.tables) k21
  have globals_s10 : s10.out.globals = s9.out.globals := congrArg (·.out.globals) k21
  have funcs_s10 : s10.out.funcs = s9.out.funcs := congrArg (·.out.funcs) k21
  have code_s10 : s10.out.code = s9.out.code ++ c1 := congrArg (·.out.code) k21
  have types_s11 : s11.out.types = s10.out.types ++ tys3 := congrArg (·.out.types) k23
  have imports_s11 : s11.out.imports = s10.out.imports := congrArg (·.out.imports) k23
  have memories_s11 : s11.out.memories = s10.out.memories := congrArg (·.out.memories) k23
  have tables_s11 : s11.out.tables = s10.out.tables := congrArg (·.out.tables) k23
  have globals_s11 : s11.out.globals = s10.out.globals := congrArg (·.out.globals) k23
  have funcs_s11 : s11.out.funcs = s10.out.funcs ++ b3 := congrArg (·.out.funcs) k23
  have code_s11 : s11.out.code = s10.out.code ++ c3 := congrArg (·.out.code) k23
  have et11 : s11.emptyType = et :=
    (congrArg (·.emptyType) k23).trans ((congrArg (·.emptyType) k21).trans
    ((congrArg (·.emptyType) k19).trans ((congrArg (·.emptyType) k15).trans
    ((congrArg (·.emptyType) k13).trans ((congrArg (·.emptyType) k7).trans
    ((congrArg (·.emptyType) k5).trans ((congrArg (·.emptyType) k3).trans
    (congrArg (·.emptyType) k1))))))))
  have tylen : tys.length + 3 < 2 ^ 32 := by
    have := liveIter_length L.types m.types
    have := hp.types
    have := forall₂_len k2
    omega
  have types11 : s11.out.types = tys ++ (xtys ++ (ytys ++ tys3)) := by
    rw [types_s11, types_s10, types_s9, types_s8, types_s7, types_s6, types_s5, types_s4, types_s1]
    simp
  have het : ∀ t, s11.emptyType = some t → TyAt s11.out.types t emptyFuncType := by
    intro t ht
    rw [et11] at ht
    rw [types11]
    refine TyAt.mono ?_
    rcases ket with rfl | ⟨k, h1, rfl⟩
    · cases ht
    · cases ht
      unfold TyAt
      have := (List.getElem?_eq_some_iff.1 h1).1
      rw [BitVec.toNat_ofNat, Nat.mod_eq_of_lt
        (show 0 + k < 2 ^ 32 by omega)]
      show tys[0 + k]? = _
      rw [Nat.zero_add, h1]
  obtain ⟨tys4, b4, c4, names4, st4, k28, k29, kst⟩ := addStart_ok het h5
  cases h
  have types_s12 : s12.out.types = s11.out.types ++ tys4 := congrArg (·.out.types) k28
  have imports_s12 : s12.out.imports = s11.out.imports := congrArg (·.out.imports) k28
  have memories_s12 : s12.out.memories = s11.out.memories := congrArg (·.out.memories) k28
  have tables_s12 : s12.out.tables = s11.out.tables := congrArg (·.out.tables) k28
  have globals_s12 : s12.out.globals = s11.out.globals := congrArg (·.out.globals) k28
  have funcs_s12 : s12.out.funcs = s11.out.funcs ++ b4 := congrArg (·.out.funcs) k28
  have code_s12 : s12.out.code = s11.out.code ++ c4 := congrArg (·.out.code) k28
  have n4 : s4.numFuncImports = 0 := (congrArg (·.numFuncImports) k3).trans
    (show s1.numFuncImports = 0 from congrArg (·.numFuncImports) k1)
  have n5 : s5.numFuncImports = s4.numFuncImports + (impFuncs m main L).length :=
    congrArg (·.numFuncImports) k5
  have n6 : s6.numFuncImports = s5.numFuncImports + ex.length := congrArg (·.numFuncImports) k7
  have n7 : s7.numFuncImports = s6.numFuncImports := congrArg (·.numFuncImports) k13
  have n10 : s10.numFuncImports = s7.numFuncImports := (congrArg (·.numFuncImports) k21).trans
    ((congrArg (·.numFuncImports) k19).trans (congrArg (·.numFuncImports) k15))
  have n11 : s11.numFuncImports = s10.numFuncImports := congrArg (·.numFuncImports) k23
  have r4 : s4.reallocIndex = none := (congrArg (·.reallocIndex) k3).trans
    (congrArg (·.reallocIndex) k1)
  have r5 : s5.reallocIndex = ri := congrArg (·.reallocIndex) k5
  have r6 : s6.reallocIndex = ri' := congrArg (·.reallocIndex) k7
  have r9 : s9.reallocIndex = ri2 := (congrArg (·.reallocIndex) k19).trans
    ((congrArg (·.reallocIndex) k15).trans (congrArg (·.reallocIndex) k13))
  have r10 : s10.reallocIndex = ri2 := (congrArg (·.reallocIndex) k21).trans r9
  have r11 : s11.reallocIndex = ri3 := congrArg (·.reallocIndex) k23
  have m11 : s11.numMemories = (liveIter L.memories m.memories).length :=
    (congrArg (·.numMemories) k23).trans ((congrArg (·.numMemories) k21).trans
    ((congrArg (·.numMemories) k19).trans ((congrArg (·.numMemories) k15).trans
    ((congrArg (·.numMemories) k13).trans ((congrArg (·.numMemories) k7).trans
    ((congrArg (·.numMemories) k5).trans ((congrArg (·.numMemories) k3).trans
    (show s1.numMemories + _ = _ by
      rw [show s1.numMemories = 0 from congrArg (·.numMemories) k1, Nat.zero_add]))))))))
  have st11 : s11.out.start = none :=
    (congrArg (·.out.start) k23).trans ((congrArg (·.out.start) k21).trans
    ((congrArg (·.out.start) k19).trans ((congrArg (·.out.start) k15).trans
    ((congrArg (·.out.start) k13).trans ((congrArg (·.out.start) k7).trans
    ((congrArg (·.out.start) k5).trans ((congrArg (·.out.start) k3).trans
    (congrArg (·.out.start) k1))))))))
  have st12 : s12.out.start = st4 := congrArg (·.out.start) k28
  -- maps
  have e1 : s1.map = { types := ({} : Remap).pushAll ((liveIter L.types m.types).map (·.1)) } :=
    congrArg (·.map) k1
  have e4' : s4.map = { s1.map with
      memories := s1.map.memories.pushAll ((liveIter L.memories m.memories).map (·.1))
      globals := s1.map.globals.pushAll ((liveIter L.globals m.globals).map (·.1)) } :=
    congrArg (·.map) k3
  have e5 : s5.map = { s4.map with
      funcs := s4.map.funcs.pushAll ((impFuncs m main L).map (·.1)) } := congrArg (·.map) k5
  have e6 : s6.map = { s5.map with funcs := r } := congrArg (·.map) k7
  have e7 : s7.map = { s6.map with
      funcs := s6.map.funcs.pushAll ((locFuncs m main L).map (·.1)) } := congrArg (·.map) k13
  have e8' : s8.map = { s7.map with funcs := r' } := congrArg (·.map) k15
  have e9 : s9.map = s8.map := congrArg (·.map) k19
  have e10 : s10.map = s9.map := congrArg (·.map) k21
  have e11 : s11.map = s10.map := congrArg (·.map) k23
  have e12' : s12.map = s11.map := congrArg (·.map) k28
  have e12 : s12.map = s8.map := by rw [e12', e11, e10, e9]
  have e8 : s8.map = { s4.map with funcs := r'} := by rw [e8', e7, e6, e5]
  have e4 : s4.map.types = ({} : Remap).pushAll ((liveIter L.types m.types).map (·.1)) := by
    rw [e4', e1]
  have e4f : s4.map.funcs = {} := by rw [e4', e1]
  have sub4 : s4.map.Sub s8.map := by
    rw [e8]
    exact ⟨.refl _, e4f ▸ empty_sub _, .refl _, .refl _, .refl _⟩
  have sub1 : s1.map.Sub s8.map := by
    refine Encoder.Sub.trans ?_ sub4
    rw [e4', e1]
    exact ⟨.refl _, .refl _, empty_sub _, empty_sub _, .refl _⟩
  have hget : ∀ i, r'.get? i = ((r.pushAll ((locFuncs m main L).map (·.1))).get? i) := by
    intro i
    rw [k16, e7, e6]
  have hr : ∀ i, r.get? i = (({} : Remap).pushAll ((impFuncs m main L).map (·.1))).get? i := by
    intro i
    rw [k8, e5, e4f]
  have hnext : r.next = (impFuncs m main L).length + ex.length := by
    rw [k9, e5, e4f, pushAll_next]
    simp
  have hI : ((impFuncs m main L).map (·.1)).Nodup := (List.filter_sublist.map _).nodup hF
  have hLc : ((locFuncs m main L).map (·.1)).Nodup := (List.filter_sublist.map _).nodup hF
  have hdisj : ∀ i ∈ (impFuncs m main L).map (·.1), i ∉ (locFuncs m main L).map (·.1) := by
    intro i hi hi'
    obtain ⟨p, hp1, rfl⟩ := List.mem_map.1 hi
    obtain ⟨q, hq1, hq2⟩ := List.mem_map.1 hi'
    have hpq : q = p := by
      have a1 := (List.mem_filter.1 hp1).1
      have a2 := (List.mem_filter.1 hq1).1
      rw [liveIter_mem (by have := hp.numFuncs; omega)] at a1 a2
      rw [hq2, a1.1] at a2
      exact Prod.ext hq2 (Option.some.inj a2.1).symm
    subst hpq
    have a1 := (List.mem_filter.1 hp1).2
    have a2 := (List.mem_filter.1 hq1).2
    rw [a1] at a2
    cases a2
  have lx : s5.out.types.length < 2 ^ 32 := by
    rw [types_s5, types_s4, types_s1]; omega
  have ly : s7.out.types.length < 2 ^ 32 := by
    rw [types_s7, types_s6, types_s5, types_s4, types_s1, List.length_append]; omega
  have l3 : s10.out.types.length < 2 ^ 32 := by
    rw [types_s10, types_s9, types_s8, types_s7, types_s6, types_s5, types_s4, types_s1,
      List.length_append, List.length_append]
    omega
  have l4 : s11.out.types.length < 2 ^ 32 := by
    rw [types11]; simp only [List.length_append]; omega
  have funcs7 : s7.out.funcs = ltys := by
    rw [funcs_s7, funcs_s6, funcs_s5, funcs_s4, funcs_s1, List.nil_append]
  have nfi7 : s7.numFuncImports = (impFuncs m main L).length + ex.length := by
    rw [n7, n6, n5, n4]; omega
  have funcs10 : s10.out.funcs = ltys ++ lb := by rw [funcs_s10, funcs_s9, funcs_s8, funcs7]
  have ty3 : s12.out.types = s10.out.types ++ tys3 ++ tys4 := by rw [types_s12, types_s11]
  have ty2 : s12.out.types = s7.out.types ++ ytys ++ (tys3 ++ tys4) := by
    rw [ty3, types_s10, types_s9, types_s8]; simp
  have ty1 : s12.out.types = s5.out.types ++ xtys ++ (ytys ++ (tys3 ++ tys4)) := by
    rw [ty2, types_s7, types_s6]; simp
  have hlc : lb.length = c1.length := by
    rcases k18 with ⟨a1, a2, -⟩ | ⟨-, a1, ty, a2, -⟩ <;>
      rcases k22 with ⟨a3, a4⟩ | ⟨a3, b, _, _, a4, _⟩
    · rw [a2, a4]; rfl
    · rw [a1] at a3; cases a3
    · rw [a3] at a1; cases a1
    · rw [a2, a4]; rfl
  have h3c : b3.length = c3.length := by
    rcases krl with ⟨a1, a2, -⟩ | ⟨ty, a1, a2, -⟩ <;> rw [a1, a2] <;> rfl
  have h4c : b4.length = c4.length := by
    rcases kst with ⟨a1, a2, -⟩ | ⟨ty, b, _, _, _, a1, a2, -⟩ <;> rw [a1, a2] <;> rfl
  refine ⟨s8.map, si, ⟨tys, xtys ++ ytys ++ tys3 ++ tys4, outs, fs, ex, ltys, bodies,
    lb ++ b3 ++ b4, c1 ++ c3 ++ c4, sp, state, ri2, ri3, List.zipWith OutFunc.loc lb c1,
    List.zipWith OutFunc.loc b3 c3, List.zipWith OutFunc.loc b4 c4⟩, ?_⟩
  refine {
    types := by rw [e8]; exact e4
    memories := by rw [e8, e4', e1]
    globals := by rw [e8, e4', e1]
    tables := by rw [e8, e4', e1]
    noTables := hshape.1
    otypes := ?_
    tyEnc := ?_
    moreTys := ?_
    imports := ?_
    noMems := hshape.2
    mems := ?_
    otables := ?_
    oglobals := ?_
    gEnc := k4 _ sub4
    fEnc := ?_
    ex := ?_
    lEnc := ?_
    funcs := ?_
    code := ?_
    bEnc := k20
    moreLen := ?_
    more := ?_
    spFound := h2
    stateFound := h3
    ri := ?_
    lz := ?_
    rl := ?_
    st := ?_
    mapImp := ?_
    mapLoc := ?_
    mapMem := ?_
    exports := ?_ }
  · show s12.out.types = _
    rw [types_s12, types_s11, types_s10, types_s9, types_s8, types_s7, types_s6, types_s5, types_s4, types_s1]
    simp
  · refine k2.imp ?_
    rintro p t ⟨e, g1, g2⟩
    exact ⟨e, g1.trans sub1, g2⟩
  · intro t ht
    simp only [List.mem_append] at ht
    rcases ht with ((ht | ht) | ht) | ht
    · exact k12 t ht
    · exact k17 t ht
    · exact k24 t ht
    · exact k29 t ht
  · show s12.out.imports = _
    rw [imports_s12, imports_s11, imports_s10, imports_s9, imports_s8, imports_s7, imports_s6, imports_s5, imports_s4, imports_s1]
    simp
  · have := hshape.2
    rw [memories_s12, memories_s11, memories_s10, memories_s9, memories_s8, memories_s7, memories_s6, memories_s5, memories_s4, memories_s1] at this
    simpa using this
  · show s12.out.tables = _
    rw [tables_s12, tables_s11, tables_s10, tables_s9, tables_s8, tables_s7, tables_s6, tables_s5, tables_s4, tables_s1]
  · show s12.out.globals = _
    rw [globals_s12, globals_s11, globals_s10, globals_s9, globals_s8, globals_s7, globals_s6, globals_s5, globals_s4, globals_s1]
    simp
  · rw [e8]; exact k6
  · rcases kex with ⟨a1, -⟩ | ⟨n, ty, a1, a2, -, a3⟩
    · exact .inl a1
    · refine .inr ⟨n, ty, a1, a2, ?_⟩
      show TyAt s12.out.types ty reallocType
      rw [ty1]
      exact (a3 lx).mono
  · rw [e8]
    refine k14.imp ?_
    intro p t ht
    rw [e6, e5] at ht
    exact ht
  · show s12.out.funcs = _
    rw [funcs_s12, funcs_s11, funcs_s10, funcs_s9, funcs_s8, funcs_s7, funcs_s6, funcs_s5, funcs_s4, funcs_s1]
    simp
  · show s12.out.code = _
    rw [code_s12, code_s11, code_s10, code_s9, code_s8, code_s7, code_s6, code_s5, code_s4, code_s1]
    simp
  · simp only [List.length_append]; omega
  · show List.zipWith OutFunc.loc (lb ++ b3 ++ b4) (c1 ++ c3 ++ c4) = _
    rw [List.zipWith_append (by simp only [List.length_append]; omega), List.zipWith_append hlc]
  · intro k hk
    replace hk : ri2 = some k := hk
    rcases kri2 with ⟨a1, -⟩ | ⟨j, p, a1, a2, a3⟩
    · rw [a1, r6] at hk
      rcases kex with ⟨-, a2, -⟩ | ⟨n, ty, a2, -, a3, -⟩
      · rw [a2, r5] at hk
        rcases kri with ⟨a4, -⟩ | ⟨j, p, a4, a5, a6⟩
        · rw [a4, r4] at hk; cases hk
        · rw [a6, n4, Nat.zero_add] at hk
          cases hk
          exact .inl ⟨p, a4, a5⟩
      · rw [a3, n5, n4, Nat.zero_add] at hk
        cases hk
        refine .inr (.inl ⟨rfl, ?_⟩)
        show ex ≠ []
        rw [a2]
        exact List.cons_ne_nil _ _
    · rw [a3] at hk
      refine .inr (.inr ⟨j, p, a1, a2, ?_⟩)
      rw [← Option.some.inj hk, ← n7, nfi7, funcs_s6, funcs_s5, funcs_s4, funcs_s1]
      rfl
  · rcases k18 with ⟨a1, a2, a3⟩ | ⟨a0, a1, ty, a2, a3⟩
    · refine .inl ⟨a1, ?_, a3⟩
      show List.zipWith _ lb c1 = []
      rw [a2]; rfl
    · refine .inr ⟨a0, ?_, ?_⟩
      · rw [a1, nfi7, funcs7]
      · rcases k22 with ⟨b1, -⟩ | ⟨-, b, r0, p, b1, b2, b3, b4⟩
        · rw [a1] at b1; cases b1
        · refine ⟨ty, b, r0, p, ?_, ?_, b3, b4, ?_⟩
          · show List.zipWith _ lb c1 = _
            rw [a2, b1]; rfl
          · rw [← b2, r9]
          · show TyAt s12.out.types ty _
            rw [ty2]
            exact (a3 ly).mono
  · rcases krl with ⟨a1, a2, a3, a4⟩ | ⟨ty, a1, a2, a3, a4, a5⟩
    · refine .inl ⟨?_, ?_, a4⟩
      · show List.zipWith _ b3 c3 = []
        rw [a1]; rfl
      · rw [a3, r10]
    · refine .inr ⟨ty, a3, ?_, ?_, ?_⟩
      · show List.zipWith _ b3 c3 = _
        rw [a1, a2]; rfl
      · show TyAt s12.out.types ty _
        rw [ty3]
        exact (a5 l3).mono
      · show ri3 = some (_ + ex.length + ltys.length + (List.zipWith OutFunc.loc lb c1).length)
        rw [a4, n10, nfi7, funcs10, List.length_zipWith, List.length_append, hlc, Nat.min_self]
        congr 1
        omega
  · rcases kst with ⟨a1, a2, a3, a4⟩ | ⟨ty, b, p, p', r0, a1, a2, a3, a4, a5, a6, a7, a8, a9, a10⟩
    · refine .inl ⟨?_, ?_, ?_⟩
      · show List.zipWith _ b4 c4 = []
        rw [a1]; rfl
      · show s12.out.start = none
        rw [st12, a3, st11]
      · rw [← m11]; exact a4
    · refine .inr ⟨ty, b, p, p', r0, ?_, a3, a4, ?_, ?_, ?_, ?_, a9, ?_⟩
      · show List.zipWith _ b4 c4 = _
        rw [a1, a2]; rfl
      · rw [← m11]; exact a5
      · rw [← e9, ← e10, ← e11]; exact a6
      · rw [← a7, r11]
      · show s12.out.start = some (BitVec.ofNat 32 (_ + ex.length + ltys.length +
          (List.zipWith OutFunc.loc lb c1).length + (List.zipWith OutFunc.loc b3 c3).length))
        rw [st12, a8, n11, n10, nfi7, funcs_s11, funcs10, List.length_zipWith, List.length_zipWith,
          List.length_append, List.length_append, hlc, h3c, Nat.min_self, Nat.min_self]
        congr 2
        omega
      · show TyAt s12.out.types ty _
        rw [types_s12]
        exact a10 l4
  · intro k i hi
    have hm := List.mem_of_getElem? hi
    rw [e8]
    show r'.get? i = _
    rw [hget, pushAll_get_other (hdisj i hm), hr, pushAll_get hI hi]
    simp
  · intro k i hi
    rw [e8]
    show r'.get? i = _
    rw [hget, pushAll_get hLc hi, hnext]
  · intro i hi
    rw [e8] at hi
    replace hi : (r'.get? i).isSome := hi
    rw [hget] at hi
    rcases pushAll_mem hi with hi | hi
    · exact (List.filter_sublist.map _).subset hi
    · rw [hr] at hi
      rcases pushAll_mem hi with hi | hi
      · exact (List.filter_sublist.map _).subset hi
      · cases hi
  · rw [← e12]
    exact emapM_forall₂ h7

end Verif.Gc
