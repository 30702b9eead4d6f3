import Verif.Abi.Flat
/-!
# C29, C30: sizes, alignments and flattening agree with the Canonical ABI

`Spec.unfold types d ty` is the tree of a type, `Spec.size w`, `Spec.align w` and `Spec.flatten w`
are the ABI with pointers of `w` bytes.
-/
namespace Verif.Abi.Props
open Verif.Abi Verif.Abi.Spec

/-- A record, a variant that mixes pointers and 64-bit integers, flags and a tuple of them. -/
def sample : List Kind :=
  [.record [.u8, .string, .u16], .variant [none, some (.id 0), some .u64], .flags 12,
   .tuple [.id 2, .f32, .id 1]]

def sampleTree : VT :=
  .record [.flags 12, .f32,
    .variant [none, some (.record [.int 1, .string, .int 2]), some (.int 8)]]

example : unfold sample 4 (.id 3) = some sampleTree := rfl
example : ((size 4 sampleTree, align 4 sampleTree), size 8 sampleTree, align 8 sampleTree)
    = ((32, 8), 48, 8) := by decide +kernel

/-- **C29** `fill` succeeds when definitions mention only earlier ones. (Lists of fixed length are
left out: their size can overflow, which is a panic.) -/
theorem c29_fill {types : List Kind} (ho : Ordered types) (hf : FewCases types)
    (hu : ∀ k ∈ types, k ≠ .unknown ∧ ∀ t n, k ≠ .fixedLengthList t n) :
    ∃ m, fill types = some m := by
  have key : ∀ (ks : List Kind) (pre : Infos) (off : List Kind), types = off ++ ks → pre.length = off.length →
      ∃ m, ks.foldlM fillStep pre = some m := by
    intro ks
    induction ks with
    | nil => intro pre off _ _; exact ⟨pre, by simp⟩
    | cons k ks ih =>
      intro pre off e hl
      have hmem : k ∈ types := by rw [e]; simp
      obtain ⟨u1, u2⟩ := hu k hmem
      obtain ⟨f1, f2⟩ := hf k hmem
      have hk : types[off.length]? = some k := by rw [e]; simp
      obtain ⟨r, hr⟩ := calculate_some (m := pre) (fun j hj => hl ▸ ho off.length k hk j hj) u1 u2 f1 f2
      obtain ⟨m, hm⟩ := ih (pre ++ [r]) (off ++ [k]) (by simp [e]) (by simp [hl])
      refine ⟨m, ?_⟩
      rw [List.foldlM_cons]
      simp only [fillStep, hr]
      exact hm
  exact key types [] [] rfl rfl

/-- **C29** After `fill` every value type has the size and the alignment that the Canonical ABI
gives it, with 32-bit and with 64-bit pointers. -/
theorem c29_size_align {types : List Kind} {m : Infos} (hm : fill types = some m) (d : Nat)
    (ty : Ty) (v : VT) (hv : unfold types d ty = some v) :
    ∃ i, infoOf m ty = some i ∧
      i.size.size32 = size 4 v ∧ i.align.align32 = align 4 v ∧
      i.size.size64 = size 8 v ∧ i.align.align64 = align 8 v := by
  obtain ⟨i, hi, _, _, hg⟩ := good_fill hm d ty v hv
  obtain ⟨a4, s4⟩ := hg 4 (.inl rfl)
  obtain ⟨a8, s8⟩ := hg 8 (.inr rfl)
  rw [Alignment.at_four] at a4
  rw [Alignment.at_eight] at a8
  exact ⟨i, hi, s4, a4, s8, a8⟩

example : fill sample = some [⟨⟨0, 4⟩, .pointer⟩, ⟨⟨8, 4⟩, .bytes 8⟩, ⟨⟨2, 0⟩, .bytes 2⟩,
    ⟨⟨16, 4⟩, .bytes 8⟩] := by decide +kernel

/-- **C29** `field_offsets` gives the offsets of the fields of a record. -/
theorem c29_field_offsets {types : List Kind} {m : Infos} (hm : fill types = some m) (d : Nat)
    (ts : List Ty) (vs : List VT) (hv : ts.mapM (unfold types d) = some vs) :
    ∃ os, fieldOffsets m ts = some os ∧
      os.map (·.size32) = offsets 4 0 vs ∧ os.map (·.size64) = offsets 8 0 vs := by
  obtain ⟨os, cur, e, h⟩ := offsets_fold (m := m) ((mapM_forall hv).imp fun t v h => good_fill hm d t v h) [] {}
  refine ⟨os, ?_, ?_, ?_⟩
  · unfold fieldOffsets; rw [e]; rfl
  · exact h 4 (.inl rfl)
  · exact h 8 (.inr rfl)

example : offsets 4 0 [.flags 12, .f32, .string, .int 8] = [0, 4, 8, 16]
    ∧ offsets 8 0 [.flags 12, .f32, .string, .int 8] = [0, 4, 8, 24] := by decide +kernel

/-- **C29** `payload_offset` gives the offset of the payload of a variant. -/
theorem c29_payload_offset {types : List Kind} {m : Infos} (hm : fill types = some m) (d : Nat)
    (cs : List (Option Ty)) (vs : List (Option VT)) (tag : Int')
    (hv : cs.mapM (unfold.optional (unfold types d)) = some vs)
    (ht : discriminantType cs.length = some tag) :
    ∃ o, payloadOffset m tag cs = some o ∧
      o.size32 = alignUp (discBytes vs.length) (maxCaseAlign 4 vs) ∧
      o.size64 = alignUp (discBytes vs.length) (maxCaseAlign 8 vs) := by
  obtain ⟨a, e, ho, h⟩ := payload_fold (m := m) (ts := cs) (vs := vs) ((mapM_forall hv).imp fun t v h => by
      cases t with
      | none => simp [unfold.optional] at h; exact .inl ⟨rfl, h.symm⟩
      | some t =>
        cases hx : unfold types d t with
        | none => simp [unfold.optional, hx] at h
        | some x =>
          simp [unfold.optional, hx] at h
          obtain ⟨i, hi, hg⟩ := good_fill hm d t x hx
          exact .inr ⟨t, x, i, rfl, h.symm, hi, hg⟩) .default Alignment.default_ok
  refine ⟨alignToArch (intInfo tag).size a, by unfold payloadOffset; rw [e]; rfl, ?_⟩
  have hl : cs.length = vs.length := (mapM_forall hv).length_eq
  have hd := (tagOk ht).1
  rw [hl] at hd
  have key : ∀ w, (w = 4 ∨ w = 8) → (alignToArch (intInfo tag).size a).at w
      = alignUp (discBytes vs.length) (maxCaseAlign w vs) := by
    intro w hw
    have hp := maxCaseAlign_pos w vs
    rw [alignToArch_at _ _ ho w hw, hd, h w hw]
    have e1 : (ASize.mk (discBytes vs.length) 0).at w = discBytes vs.length := by simp [ASize.at]
    have e2 : max (Alignment.default.at w) (maxCaseAlign w vs) = maxCaseAlign w vs := by
      simp only [Alignment.default, Alignment.at]; omega
    rw [e1, e2]
  exact ⟨key 4 (.inl rfl), key 8 (.inr rfl)⟩

/-! ## Flattening -/

/-- **C30** `push_flat` appends types that stand for the flattening of the type, with 32-bit and
with 64-bit pointers, if they fit, and reports an overflow otherwise. -/
theorem c30_push_flat {types : List Kind} (hfew : FewCases types) (d : Nat) (ty : Ty) (v : VT)
    (hv : unfold types d ty = some v) :
    ∃ l : List WasmType, l.map (core 4) = flatten 4 v ∧ l.map (core 8) = flatten 8 v ∧
      ∀ f : Flat, f.cur ≤ f.types.length →
        (f.cur + l.length ≤ f.types.length → ∃ g, pushFlat types d ty f = some (true, g) ∧
          g.toVec = f.toVec ++ l ∧ g.types.length = f.types.length ∧ g.overflow = f.overflow) ∧
        (f.types.length < f.cur + l.length → ∃ g, pushFlat types d ty f = some (false, g) ∧
          g.overflow = true) := by
  refine ⟨sym v, sym_core 4 (.inl rfl) v, sym_core 8 (.inr rfl) v, fun f hf => ?_⟩
  obtain ⟨h1, h2⟩ := pushFlat_pushes hfew d ty v hv (f.types.take f.cur) (f.types.drop f.cur) f.overflow
  simp only [List.take_append_drop, List.length_take, Nat.min_eq_left hf, List.length_drop] at h1 h2
  constructor
  · intro h
    refine ⟨_, h1 (by omega), ?_, ?_, rfl⟩
    · simp only [Flat.toVec]
      rw [← List.append_assoc, List.take_left' (by simp; omega)]
    · simp; omega
  · intro h
    obtain ⟨g, g1, g2, _⟩ := h2 (by omega)
    exact ⟨g, g1, g2⟩

example : FewCases sample := by
  intro k hk
  simp only [sample, List.mem_cons, List.not_mem_nil, or_false] at hk
  rcases hk with rfl | rfl | rfl | rfl <;> constructor <;> intro x hx <;> cases hx <;> decide

example : pushFlat sample 4 (.id 3) ⟨List.replicate 8 .i32, 0, false⟩
    = some (true, ⟨[.i32, .f32, .i32, .i64, .pointer, .length, .i32, .i32], 7, false⟩) := rfl

/-- **C30** The signature of an imported or exported function is the flattening of its type, with
parameters and results passed through memory when there are too many, for both pointer widths.
The one difference is deliberate: the first parameter of an exported method, which the ABI passes
as the representation of the resource, is given the type of a pointer. -/
theorem c30_signature {types : List Kind} (hfew : FewCases types) (d : Nat) (v : AbiVariant) (f : Func)
    (ps : List VT) (r : Option VT) (hp : f.params.mapM (unfold types d) = some ps)
    (hr : unfold.optional (unfold types d) f.result = some r)
    (hm : f.method = true → ∃ rest, ps = .word :: rest) :
    ∃ s, wasmSignature types d v f = some s ∧
      (s.indirectParams = true ↔ maxParams (canon v) < (flattenAll 4 ps).length) ∧
      (s.retptr = true ↔
        (v = .guestImportAsync ∧ f.result ≠ none) ∨
        ((v = .guestImport ∨ v = .guestExport) ∧ 1 < (flattenAll 4 r.toList).length)) ∧
      ∀ w, (w = 4 ∨ w = 8) →
        s.results.map (core w) = (flattenFunc w (canon v) ps r).2 ∧
        s.params.map (core w) =
          if exportedMethod v f ∧ s.indirectParams = false then
            ptr w :: (flattenFunc w (canon v) ps r).1.tail
          else (flattenFunc w (canon v) ps r).1 := by
  have hL : Pushes (pushList (f.params.map (pushFlat types d))) (symAll ps) := by
    rw [symAll_flatten]
    refine pushes_list ?_
    rw [List.forall₂_map_left_iff, List.forall₂_map_right_iff]
    exact (mapM_forall hp).imp fun t u hu => pushFlat_pushes hfew d t u hu
  have hmL : f.method = true → ∃ l, symAll ps = .i32 :: l := by
    intro h
    obtain ⟨rest, rfl⟩ := hm h
    exact ⟨symAll rest, by simp [symAll, sym]⟩
  have hres : match f.result with
      | none => symAll r.toList = []
      | some ty => Pushes (pushFlat types d ty) (symAll r.toList) ∧ symAll r.toList ≠ [] := by
    cases hf : f.result with
    | none => rw [hf] at hr; simp [unfold.optional] at hr; subst hr; simp [symAll]
    | some ty =>
      rw [hf] at hr
      cases hx : unfold types d ty with
      | none => simp [unfold.optional, hx] at hr
      | some x =>
        simp [unfold.optional, hx] at hr
        subst hr
        have e : symAll (some x).toList = sym x := by simp [symAll]
        rw [e]
        exact ⟨pushFlat_pushes hfew d ty x hx, sym_ne_nil d ty x hx⟩
  have hnil : symAll r.toList = [] ↔ f.result = none := by
    cases hf : f.result with
    | none => rw [hf] at hres; simpa using hres
    | some ty => rw [hf] at hres; simpa using hres.2
  have hps : ∀ w, (w = 4 ∨ w = 8) → flattenAll w ps = (symAll ps).map (core w) :=
    fun w hw => (symAll_core w hw ps).symm
  have hrs : ∀ w, (w = 4 ∨ w = 8) → flattenAll w r.toList = (symAll r.toList).map (core w) :=
    fun w hw => (symAll_core w hw _).symm
  refine ⟨_, wasmSignature_ok hL hmL hres, ?_⟩
  rw [hps 4 (.inl rfl), hrs 4 (.inl rfl)]
  simp only [List.length_map]
  have hpar : ∀ w n, (if n < (symAll ps).length then [WasmType.pointer] else symAll ps).map (core w)
      = if n < (symAll ps).length then [ptr w] else (symAll ps).map (core w) := by
    intro w n; split <;> rfl
  generalize symAll ps = L at *
  generalize symAll r.toList = R at *
  refine ⟨?_, ?_, fun w hw => ?_⟩
  · cases v <;> simp only [canon, maxParams, maxOf, reduceCtorEq, if_false, if_true] <;> (try split) <;> simp
  · cases v <;> simp only [] <;> (try split) <;> simp_all
  · unfold flattenFunc
    rw [hps w hw, hrs w hw]
    simp only [List.length_map]
    cases v with
    | guestImport =>
      have he : exportedMethod .guestImport f = false := by simp [exportedMethod]
      simp only [canon, he, paramsOf, maxOf, reduceCtorEq, if_false, Bool.false_eq_true, false_and]
      by_cases hR : 1 < R.length <;> simp [hpar, hR, core]
    | guestImportAsync =>
      have he : exportedMethod .guestImportAsync f = false := by simp [exportedMethod]
      simp only [canon, he, paramsOf, maxOf, if_true, Bool.false_eq_true, if_false, false_and]
      cases R <;> simp [hpar, core]
    | guestExport =>
      simp only [canon, paramsOf, maxOf, reduceCtorEq, if_false]
      by_cases he : exportedMethod .guestExport f = true <;> by_cases hl : 16 < L.length <;>
        by_cases hR : 1 < R.length <;> simp [he, hl, hR, core]
    | guestExportAsync =>
      simp only [canon, paramsOf, maxOf, reduceCtorEq, if_false]
      by_cases he : exportedMethod .guestExportAsync f = true <;> by_cases hl : 16 < L.length <;>
        simp [he, hl, core]
    | guestExportAsyncStackful =>
      simp only [canon, paramsOf, maxOf, reduceCtorEq, if_false]
      by_cases he : exportedMethod .guestExportAsyncStackful f = true <;> by_cases hl : 16 < L.length <;>
        simp [he, hl, core]

/-- A method that takes its resource and the tuple of the sample, and gives a string. -/
def sampleFunc : Func := ⟨true, [.id 4, .id 3], some .string⟩

def sample2 : List Kind := sample ++ [.handle]

example : wasmSignature sample2 5 .guestImport sampleFunc
    = some ⟨[.i32, .i32, .f32, .i32, .i64, .pointer, .length, .i32, .pointer], [], false, true⟩ := rfl
example : wasmSignature sample2 5 .guestExport sampleFunc
    = some ⟨[.pointer, .i32, .f32, .i32, .i64, .pointer, .length, .i32], [.pointer], false, true⟩ := rfl
example : wasmSignature sample2 5 .guestImportAsync sampleFunc
    = some ⟨[.pointer, .pointer], [.i32], true, true⟩ := rfl

/-- **C30** With 32-bit pointers the signature is exactly the flattening of the function type. -/
theorem c30_signature_32 {types : List Kind} (hfew : FewCases types) (d : Nat) (v : AbiVariant)
    (f : Func) (ps : List VT) (r : Option VT) (hp : f.params.mapM (unfold types d) = some ps)
    (hr : unfold.optional (unfold types d) f.result = some r)
    (hm : f.method = true → ∃ rest, ps = .word :: rest) :
    ∃ s, wasmSignature types d v f = some s ∧
      (s.params.map (core 4), s.results.map (core 4)) = flattenFunc 4 (canon v) ps r := by
  obtain ⟨s, hs, hi, _, h⟩ := c30_signature hfew d v f ps r hp hr hm
  obtain ⟨h1, h2⟩ := h 4 (.inl rfl)
  refine ⟨s, hs, ?_⟩
  rw [h1, h2]
  split
  · rename_i hc
    obtain ⟨he, hind⟩ := hc
    have hlen : ¬ maxParams (canon v) < (flattenAll 4 ps).length := by
      intro hl; rw [hi.2 hl] at hind; cases hind
    have hfm : f.method = true := by
      unfold exportedMethod at he; rw [Bool.and_eq_true] at he; exact he.1
    obtain ⟨rest, rfl⟩ := hm hfm
    have hfl : flattenAll 4 (.word :: rest) = .i32 :: flattenAll 4 rest := by simp [flattenAll, flatten]
    have hfst : (flattenFunc 4 (canon v) (.word :: rest) r).1 = .i32 :: flattenAll 4 rest := by
      rw [hfl] at hlen
      cases v with
      | guestImport => simp [exportedMethod] at he
      | guestImportAsync => simp [exportedMethod] at he
      | _ =>
        simp only [canon, maxParams] at hlen
        simp only [canon, flattenFunc, hfl, gt_iff_lt, hlen, if_false]
    have : ptr 4 :: (flattenFunc 4 (canon v) (.word :: rest) r).1.tail
        = (flattenFunc 4 (canon v) (.word :: rest) r).1 := by rw [hfst]; rfl
    rw [this]
  · rfl

example : (flattenFunc 4 (canon .guestExport) [.word, sampleTree] (some .string)).1
    = [.i32, .i32, .f32, .i32, .i64, .i32, .i32, .i32] := by decide +kernel

end Verif.Abi.Props
