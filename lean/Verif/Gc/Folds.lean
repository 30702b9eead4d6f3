import Verif.Gc.Maps
/-! The loops of `encode`. -/
namespace Verif.Gc
open Verif.Reader Verif.Instr Verif.Items Verif.Reenc Verif.Reenc.Spec Spec

variable {f : Instr.Features} {m : Module}

theorem ebind_ok {ε α β : Type} {x : Except ε α} {g : α → Except ε β} {b : β}
    (h : (x >>= g) = .ok b) : ∃ a, x = .ok a ∧ g a = .ok b := by
  cases x with
  | error e => cases h
  | ok a => exact ⟨a, rfl, h⟩

theorem orErr_ok {α : Type} {x : Option α} {a : α} (h : orErr x = .ok a) : x = some a := by
  cases x with
  | none => cases h
  | some b => cases h; rfl

theorem Encoder.Sub.refl (e : Encoder) : e.Sub e := ⟨.refl _, .refl _, .refl _, .refl _, .refl _⟩

theorem Encoder.Sub.trans {a b c : Encoder} (h : a.Sub b) (h' : b.Sub c) : a.Sub c :=
  ⟨h.1.trans h'.1, h.2.trans h'.2, h.3.trans h'.3, h.4.trans h'.4, h.5.trans h'.5⟩

/-! ### Types -/

theorem encodeType_ok {s s' : St} {p : BitVec 32 × Types.FuncType}
    (h : encodeType s p = .ok s') : ∃ u ty et,
      Encoder.check { s.map with types := s.map.types.push p.1 } (funcTypeCalls p.2) = .ok u ∧
      Types.Reenc.funcType
        (Encoder.maps { s.map with types := s.map.types.push p.1 }).type p.2 = some ty ∧
      s' = { s with map := { s.map with types := s.map.types.push p.1 }, emptyType := et
                    out := { s.out with types := s.out.types ++ [ty] } } ∧
      (et = s.emptyType ∨ ty = emptyFuncType ∧ et = some (BitVec.ofNat 32 s.map.types.next)) := by
  obtain ⟨u, h1, h⟩ := ebind_ok h
  obtain ⟨ty, h2, h⟩ := ebind_ok h
  obtain ⟨et, h3, h⟩ := ebind_ok h
  cases h
  refine ⟨u, ty, et, h1, orErr_ok h2, rfl, ?_⟩
  unfold emptyTypeOf at h3
  split at h3
  · next e =>
    obtain ⟨j, h4, h5⟩ := ebind_ok h3
    cases h5
    have := remap_ok h4
    rw [push_get, if_pos rfl] at this
    cases this
    exact .inr ⟨by cases ty; simp only at e; rw [e.1, e.2]; rfl, rfl⟩
  · cases h3; exact .inl rfl

def TypeEnc (e' : Encoder) (p : BitVec 32 × Types.FuncType) (ty : Types.Enc.FuncType) : Prop :=
  ∃ e : Encoder, e.Sub e' ∧ ∃ u, e.check (funcTypeCalls p.2) = .ok u ∧
    Types.Reenc.funcType e.maps.type p.2 = some ty

theorem types_fold : ∀ {xs : List (BitVec 32 × Types.FuncType)} {s s' : St},
    xs.foldlM encodeType s = .ok s' → (xs.map (·.1)).Nodup →
    (∀ p ∈ xs, s.map.types.get? p.1 = none) → ∃ tys et,
      s' = { s with map := { s.map with types := s.map.types.pushAll (xs.map (·.1)) }
                    emptyType := et, out := { s.out with types := s.out.types ++ tys } } ∧
      List.Forall₂ (TypeEnc s'.map) xs tys ∧ (et = s.emptyType ∨
        ∃ k, tys[k]? = some emptyFuncType ∧ et = some (BitVec.ofNat 32 (s.map.types.next + k))) := by
  intro xs
  induction xs with
  | nil =>
    intro s s' h _ _
    cases h
    exact ⟨[], s.emptyType, by simp [Remap.pushAll], .nil, .inl rfl⟩
  | cons p xs ih =>
    intro s s' h hn hf
    rw [List.foldlM_cons] at h
    obtain ⟨s1, h1, h⟩ := ebind_ok h
    obtain ⟨u, ty, et, g1, g2, rfl, g4⟩ := encodeType_ok h1
    have hn' := List.nodup_cons.1 hn
    have hfresh : ∀ q ∈ xs, (s.map.types.push p.1).get? q.1 = none := by
      intro q hq
      rw [push_get, if_neg]
      · exact hf q (List.mem_cons_of_mem _ hq)
      · intro e
        exact hn'.1 (List.mem_map.2 ⟨q, hq, e⟩)
    obtain ⟨tys, et', k1, k2, k3⟩ := ih h hn'.2 hfresh
    refine ⟨ty :: tys, et', ?_, .cons ?_ k2, ?_⟩
    · rw [k1]; simp [Remap.pushAll]
    · refine ⟨_, ?_, u, g1, g2⟩
      rw [k1]
      refine ⟨sub_pushAll hn'.2 ?_, .refl _, .refl _, .refl _, .refl _⟩
      intro i hi
      obtain ⟨q, hq, rfl⟩ := List.mem_map.1 hi
      exact hfresh q hq
    · rcases k3 with k3 | ⟨k, k3, k4⟩
      · rcases g4 with g4 | ⟨rfl, g4⟩
        · exact .inl (k3.trans g4)
        · exact .inr ⟨0, rfl, k3.trans g4⟩
      · refine .inr ⟨k + 1, k3, k4.trans ?_⟩
        simp only [Remap.push]
        congr 2
        omega

/-! ### Memories -/

def memImp (p : BitVec 32 × Memory) : Option OutImport :=
  match p.2.dfn with
  | .imp m n => some (m, n, .memory (Remod.memoryType p.2.ty))
  | .loc _ => none

def memLoc (p : BitVec 32 × Memory) : Option Items.Enc.MemoryType :=
  match p.2.dfn with
  | .imp _ _ => none
  | .loc _ => some (Remod.memoryType p.2.ty)

theorem memories_fold : ∀ (xs : List (BitVec 32 × Memory)) (s : St),
    xs.foldlM encodeMemory s = .ok { s with
      map := { s.map with memories := s.map.memories.pushAll (xs.map (·.1)) }
      out := { s.out with imports := s.out.imports ++ xs.filterMap memImp
                          memories := s.out.memories ++ xs.filterMap memLoc }
      numMemories := s.numMemories + xs.length } := by
  intro xs
  induction xs with
  | nil => intro s; simp [Remap.pushAll, pure, Except.pure]
  | cons p xs ih =>
    intro s
    rw [List.foldlM_cons]
    show (List.foldlM encodeMemory _ xs : Except Fail St) = _
    rw [ih]
    obtain ⟨i, d, t⟩ := p
    cases d with
    | imp a b =>
      rw [List.filterMap_cons_some (by rfl : memImp (i, ⟨.imp a b, t⟩) = _),
        List.filterMap_cons_none (by rfl : memLoc (i, ⟨.imp a b, t⟩) = none)]
      simp [addMemory, Remap.pushAll]
      omega
    | loc a =>
      rw [List.filterMap_cons_none (by rfl : memImp (i, ⟨.loc a, t⟩) = none),
        List.filterMap_cons_some (by rfl : memLoc (i, ⟨.loc a, t⟩) = _)]
      simp [addMemory, Remap.pushAll]
      omega

/-! ### Globals -/

def gImp : OutGlobal → Option OutImport
  | .imp m n t => some (m, n, .global t)
  | .loc _ => none

def gLoc : OutGlobal → Option Items.Enc.Global
  | .imp _ _ _ => none
  | .loc g => some g

def GlobalEnc (f : Instr.Features) (e' : Encoder) (p : BitVec 32 × Global) (g' : OutGlobal) : Prop :=
  ∃ e : Encoder, e.Sub e' ∧ ∃ u, e.check (valCalls p.2.ty.contentType) = .ok u ∧
    ∃ t, Remod.globalType e.maps p.2.ty = some t ∧
      match p.2.dfn with
      | .imp m n => g' = .imp m n t
      | .loc c => ∃ u i, e.check (constCalls f c) = .ok u ∧ constExpr e.maps f c = some i ∧
          g' = .loc ⟨t, i⟩

theorem encodeGlobal_ok {s s' : St} {p : BitVec 32 × Global} (h : encodeGlobal f s p = .ok s') :
    ∃ g', s' = { s with
        map := { s.map with globals := s.map.globals.push p.1 }
        out := { s.out with imports := s.out.imports ++ [g'].filterMap gImp
                            globals := s.out.globals ++ [g'].filterMap gLoc } } ∧
      ∀ e', s'.map.Sub e' → GlobalEnc f e' p g' := by
  obtain ⟨u, h1, h⟩ := ebind_ok h
  obtain ⟨t, h2, h⟩ := ebind_ok h
  obtain ⟨o, h3, h⟩ := ebind_ok h
  cases h
  obtain ⟨i, d, ty⟩ := p
  cases d with
  | imp a b =>
    cases h3
    exact ⟨.imp a b t, by simp [gImp, gLoc], fun e' he => ⟨_, he, u, h1, t, orErr_ok h2, rfl⟩⟩
  | loc c =>
    obtain ⟨u', h4, h3⟩ := ebind_ok h3
    obtain ⟨x, h5, h3⟩ := ebind_ok h3
    cases h3
    exact ⟨.loc ⟨t, x⟩, by simp [gImp, gLoc],
      fun e' he => ⟨_, he, u, h1, t, orErr_ok h2, u', x, h4, orErr_ok h5, rfl⟩⟩

theorem globals_fold : ∀ {xs : List (BitVec 32 × Global)} {s s' : St},
    xs.foldlM (encodeGlobal f) s = .ok s' → (xs.map (·.1)).Nodup →
    (∀ p ∈ xs, s.map.globals.get? p.1 = none) → ∃ outs,
      s' = { s with
        map := { s.map with globals := s.map.globals.pushAll (xs.map (·.1)) }
        out := { s.out with imports := s.out.imports ++ outs.filterMap gImp
                            globals := s.out.globals ++ outs.filterMap gLoc } } ∧
      ∀ e', s'.map.Sub e' → List.Forall₂ (GlobalEnc f e') xs outs := by
  intro xs
  induction xs with
  | nil =>
    intro s s' h _ _
    cases h
    exact ⟨[], by simp [Remap.pushAll], fun _ _ => .nil⟩
  | cons p xs ih =>
    intro s s' h hn hf
    rw [List.foldlM_cons] at h
    obtain ⟨s1, h1, h⟩ := ebind_ok h
    obtain ⟨g', rfl, g2⟩ := encodeGlobal_ok h1
    have hn' := List.nodup_cons.1 hn
    have hfresh : ∀ q ∈ xs, (s.map.globals.push p.1).get? q.1 = none := by
      intro q hq
      rw [push_get, if_neg]
      · exact hf q (List.mem_cons_of_mem _ hq)
      · intro e
        exact hn'.1 (List.mem_map.2 ⟨q, hq, e⟩)
    obtain ⟨outs, k1, k2⟩ := ih h hn'.2 hfresh
    refine ⟨g' :: outs, ?_, ?_⟩
    · rw [k1]
      rw [show g' :: outs = [g'] ++ outs from rfl, List.filterMap_append, List.filterMap_append]
      simp [Remap.pushAll]
    · intro e' he
      refine .cons (g2 e' (Encoder.Sub.trans ?_ he)) (k2 e' he)
      rw [k1]
      refine ⟨.refl _, .refl _, .refl _, sub_pushAll hn'.2 ?_, .refl _⟩
      intro i hi
      obtain ⟨q, hq, rfl⟩ := List.mem_map.1 hi
      exact hfresh q hq

/-! ### Functions -/

def fImp : OutFunc → Option OutImport
  | .imp m n t => some (m, n, .function t)
  | .loc _ _ => none

def ImpEnc (types : Remap) (main : Option (List UInt8)) (p : BitVec 32 × Func) (fn' : OutFunc) :
    Prop :=
  ∃ mm n ty, p.2.dfn = .imp mm n ∧ types.get? p.2.ty = some ty ∧
    fn' = .imp mm (if isRealloc mm n then main.getD n else n) ty

/-- An import of `cabi_realloc`. -/
def IsRealloc (p : BitVec 32 × Func) : Prop := ∃ mm n, p.2.dfn = .imp mm n ∧ isRealloc mm n = true

theorem imports_fold {main : Option (List UInt8)} : ∀ {xs : List (BitVec 32 × Func)} {s s' : St},
    xs.foldlM (encodeImport main) s = .ok s' → ∃ fs ri,
      s' = { s with
        map := { s.map with funcs := s.map.funcs.pushAll (xs.map (·.1)) }
        out := { s.out with imports := s.out.imports ++ fs.filterMap fImp }
        numFuncImports := s.numFuncImports + xs.length, reallocIndex := ri } ∧
      List.Forall₂ (ImpEnc s.map.types main) xs fs ∧
      (ri = s.reallocIndex ∧ (∀ p ∈ xs, ¬ IsRealloc p) ∨
        ∃ k p, xs[k]? = some p ∧ IsRealloc p ∧ ri = some (s.numFuncImports + k)) := by
  intro xs
  induction xs with
  | nil =>
    intro s s' h
    cases h
    exact ⟨[], s.reallocIndex, by simp [Remap.pushAll], .nil, .inl ⟨rfl, nofun⟩⟩
  | cons p xs ih =>
    intro s s' h
    rw [List.foldlM_cons] at h
    obtain ⟨s1, h1, h⟩ := ebind_ok h
    obtain ⟨ty, h2, h1⟩ := ebind_ok h1
    obtain ⟨i, d, t⟩ := p
    cases d with
    | loc b => cases h1
    | imp mm n =>
      cases h1
      obtain ⟨fs, ri, k1, k2, k3⟩ := ih h
      refine ⟨.imp mm (if isRealloc mm n then main.getD n else n) ty :: fs, ri, ?_,
        .cons ⟨mm, n, ty, rfl, remap_ok h2, rfl⟩ k2, ?_⟩
      · rw [k1, List.filterMap_cons_some (by rfl : fImp (.imp _ _ _) = _)]
        simp [Remap.pushAll]
        omega
      · rcases k3 with ⟨k3, k4⟩ | ⟨k, q, k3, k4, k5⟩
        · by_cases hr : isRealloc mm n = true
          · refine .inr ⟨0, _, rfl, ⟨mm, n, rfl, hr⟩, ?_⟩
            rw [k3]
            simp [hr]
          · refine .inl ⟨?_, ?_⟩
            · rw [k3]; simp [hr]
            · intro q hq
              rcases List.mem_cons.1 hq with rfl | hq
              · rintro ⟨a, b, e, g⟩
                cases e
                exact hr g
              · exact k4 q hq
        · refine .inr ⟨k + 1, q, k3, k4, k5.trans ?_⟩
          show some (s.numFuncImports + 1 + k) = _
          congr 1
          omega

/-- The bytes of `realloc_via_memory_grow`. -/
def reallocBody : List UInt8 :=
  match reallocFunction with
  | .ok b => b
  | .error _ => []

theorem reallocFunction_eq : reallocFunction = .ok reallocBody := by decide +kernel

def isLoc (p : BitVec 32 × Func) : Bool := !Def.isImp p.2.dfn

theorem locals_fold : ∀ {xs : List (BitVec 32 × Func)} {s s' : St},
    xs.foldlM encodeLocal s = .ok s' → ∃ tys ri,
      s' = { s with
        map := { s.map with funcs := s.map.funcs.pushAll (xs.map (·.1)) }
        out := { s.out with
          funcs := s.out.funcs ++ tys
          code := s.out.code ++ (xs.filter fun p => !isLoc p).map fun _ => reallocBody }
        reallocIndex := ri } ∧
      List.Forall₂ (fun p ty => s.map.types.get? p.2.ty = some ty) xs tys ∧
      (ri = s.reallocIndex ∧ (∀ p ∈ xs, isLoc p = true) ∨ ∃ k p, xs[k]? = some p ∧
        isLoc p = false ∧ ri = some (s.numFuncImports + s.out.funcs.length + k)) := by
  intro xs
  induction xs with
  | nil =>
    intro s s' h
    cases h
    exact ⟨[], s.reallocIndex, by simp [Remap.pushAll], .nil, .inl ⟨rfl, nofun⟩⟩
  | cons p xs ih =>
    intro s s' h
    rw [List.foldlM_cons] at h
    obtain ⟨s1, h1, h⟩ := ebind_ok h
    obtain ⟨ty, h2, h1⟩ := ebind_ok h1
    obtain ⟨i, d, t⟩ := p
    cases d with
    | loc b =>
      cases h1
      obtain ⟨tys, ri, k1, k2, k3⟩ := ih h
      refine ⟨ty :: tys, ri, ?_, .cons (remap_ok h2) k2, ?_⟩
      · rw [k1, List.filter_cons_of_neg (by simp [isLoc, Def.isImp])]
        simp [Remap.pushAll]
      · rcases k3 with ⟨k3, k4⟩ | ⟨k, q, k3, k4, k5⟩
        · refine .inl ⟨k3, ?_⟩
          intro q hq
          rcases List.mem_cons.1 hq with rfl | hq
          · rfl
          · exact k4 q hq
        · refine .inr ⟨k + 1, q, k3, k4, k5.trans ?_⟩
          simp only [List.length_append, List.length_singleton]
          congr 1
          omega
    | imp mm n =>
      obtain ⟨b, h3, h1⟩ := ebind_ok h1
      rw [reallocFunction_eq] at h3
      cases h3
      cases h1
      obtain ⟨tys, ri, k1, k2, k3⟩ := ih h
      refine ⟨ty :: tys, ri, ?_, .cons (remap_ok h2) k2, ?_⟩
      · rw [k1, List.filter_cons_of_pos (by simp [isLoc, Def.isImp])]
        simp [Remap.pushAll]
      · rcases k3 with ⟨k3, k4⟩ | ⟨k, q, k3, k4, k5⟩
        · exact .inr ⟨0, _, rfl, rfl, k3⟩
        · refine .inr ⟨k + 1, q, k3, k4, k5.trans ?_⟩
          simp only [List.length_append, List.length_singleton]
          congr 1
          omega

def CodeEnc (f : Instr.Features) (m : Module) (map : Encoder) (si : Option Nat)
    (p : BitVec 32 × Func) (b : List UInt8) : Prop :=
  ∃ body, p.2.dfn = .loc body ∧
    encodeBody f map si ((exportedFuncs m).contains p.1) body = .ok b

theorem codes_fold {si : Option Nat} : ∀ {xs : List (BitVec 32 × Func)} {s s' : St},
    xs.foldlM (encodeCode f m si) s = .ok s' → ∃ bs,
      s' = { s with out := { s.out with code := s.out.code ++ bs } } ∧
      List.Forall₂ (CodeEnc f m s.map si) (xs.filter isLoc) bs := by
  intro xs
  induction xs with
  | nil => intro s s' h; cases h; exact ⟨[], by simp, .nil⟩
  | cons p xs ih =>
    intro s s' h
    rw [List.foldlM_cons] at h
    obtain ⟨s1, h1, h⟩ := ebind_ok h
    obtain ⟨i, d, t⟩ := p
    cases d with
    | imp mm n =>
      cases h1
      rw [List.filter_cons_of_neg (by simp [isLoc, Def.isImp])]
      exact ih h
    | loc body =>
      obtain ⟨b, h2, h1⟩ := ebind_ok h1
      cases h1
      rw [List.filter_cons_of_pos (by simp [isLoc, Def.isImp])]
      obtain ⟨bs, k1, k2⟩ := ih h
      refine ⟨b :: bs, ?_, .cons ⟨body, rfl, h2⟩ k2⟩
      rw [k1]
      simp

end Verif.Gc
