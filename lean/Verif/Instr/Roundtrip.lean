import Verif.Instr.Lemmas
/-! Reading an encoded instruction. -/
namespace Verif.Instr
open Verif.Reader Verif.Leb Verif.Framing Verif.Types Spec Enc

/-- An instruction whose opcode is one byte. -/
theorem decP_one {f : Features} {k : FrameKind} (c : UInt8) {b : List UInt8} {P : Operator → Prop}
    (h : ∀ pos, DecP (visitCode f k pos c.toNat) b P) :
    DecP (visitOperator f (some k)) ([c] ++ b) P :=
  decP_dispatch (o := .one c) trivial h

theorem decP_one_nil {f : Features} {k : FrameKind} (c : UInt8) {P : Operator → Prop}
    (h : ∀ pos, DecP (visitCode f k pos c.toNat) [] P) :
    DecP (visitOperator f (some k)) [c] P :=
  decP_dispatch (o := .one c) trivial h

theorem decP_requireLegacy {f : Features} {what : String} {pos : Nat}
    (h : f.legacyExceptions = true) : Dec (requireLegacyExceptions f what pos) [] () := by
  unfold requireLegacyExceptions
  rw [if_pos h]; exact .pure ()

theorem decP_instr (f : Features) (k : FrameKind) (i : Instr) (bytes : List UInt8)
    (h : i.encode = some bytes) (hf : Fits f i) (hk : FrameOk k (tok i)) :
    DecP (visitOperator f (some k)) bytes (Corr i ·) := by
  cases i with
  | plain o =>
    obtain rfl := Option.some.inj h
    have := decP_dispatch (f := f) (k := k) (b := []) (P := fun x => Corr (.plain o) x) (ok_plain o)
      (fun pos => by rw [dispatch_plain]; exact .pure rfl)
    rwa [List.append_nil] at this
  | else_ =>
    obtain rfl := Option.some.inj h
    obtain rfl := hk.1 rfl
    exact decP_one_nil _ fun pos => .congr (f := pure .else_)
      (DecP.pure (P := fun x => Corr .else_ x) (a := Operator.else_) trivial) (by rfl)
  | end_ =>
    obtain rfl := Option.some.inj h
    exact decP_one_nil _ fun pos => .congr (f := pure .end_)
      (DecP.pure (P := fun x => Corr .end_ x) (a := Operator.end_) trivial) (by rfl)
  | catchAll =>
    obtain rfl := Option.some.inj h
    refine decP_one_nil _ fun pos => ?_
    refine .congr (f := do
      requireLegacyExceptions f "catch_all" pos
      expectCatchFrame k "catch_all"
      pure .catchAll) ?_ (by rfl)
    exact Dec.bindP (b1 := []) (decP_requireLegacy hf)
      (Dec.bindP (b1 := []) (decP_expectCatch _ (hk.2.1 (.inr rfl))) (.pure trivial))
  | atomicFence =>
    obtain rfl := Option.some.inj h
    refine decP_dispatch (o := .raw 0xfe 0x03) (b := [0]) (by decide) fun pos => ?_
    refine .congr (f := do
      if (← readU8) ≠ 0 then R.fail "nonzero byte after `atomic.fence`" pos
      else pure .atomicFence) ?_ (by rfl)
    exact ((Dec.readU8 0).bind_nil (c := Operator.atomicFence)
      (g := fun x => if x ≠ 0 then R.fail "nonzero byte after `atomic.fence`" pos
        else pure .atomicFence) (.ite_neg (by decide) (.pure _))).toP (P := fun x => Corr .atomicFence x) trivial
  | block o t =>
    obtain rfl := Option.some.inj h
    refine decP_dispatch (ok_blk o) fun pos => ?_
    have hb := (decP_blockType t hf.1).fmap (g := Operator.block o)
      (Q := fun x => Corr (.block o t) x) fun _ ha => ⟨rfl, ha⟩
    cases o with
    | block => exact hb
    | loop => exact hb
    | if_ => exact hb
    | try_ =>
      refine .congr (f := do
        requireLegacyExceptions f "try" pos
        .block .try_ <$> readBlockType) ?_ (by rfl)
      exact Dec.bindP (b1 := []) (decP_requireLegacy (hf.2 rfl)) hb
  | tryTable t cs =>
    obtain ⟨h1, h2⟩ := hf
    simp only [Instr.encode, encodeVec_eq _ (show cs.length < 2 ^ 32 by omega)] at h
    obtain rfl := Option.some.inj h
    exact decP_one _ fun pos => decP_tryTable t cs h1 h2
  | idx o i =>
    obtain rfl := Option.some.inj h
    refine decP_dispatch (ok_idx o) fun pos => ?_
    rw [dispatch_idx]
    exact ((Dec.u32 i).fmap (g := Operator.idx o)).toP ⟨rfl, rfl⟩
  | catch_ t =>
    obtain rfl := Option.some.inj h
    refine decP_one _ fun pos => ?_
    refine .congr (f := do
      requireLegacyExceptions f "catch" pos
      expectCatchFrame k "catch"
      .catch_ <$> readVarU32) ?_ (by rfl)
    exact Dec.bindP (b1 := []) (decP_requireLegacy hf)
      (Dec.bindP (b1 := []) (decP_expectCatch _ (hk.2.1 (.inl rfl)))
        (((Dec.u32 t).fmap (g := Operator.catch_)).toP rfl))
  | delegate l =>
    obtain rfl := Option.some.inj h
    obtain rfl := hk.2.2 rfl
    refine decP_one _ fun pos => ?_
    exact .congr (f := .delegate <$> readVarU32)
      (((Dec.u32 l).fmap (g := Operator.delegate)).toP (P := fun y => Corr (.delegate l) y) rfl) (by rfl)
  | memorySize i =>
    obtain rfl := Option.some.inj h
    refine decP_one _ fun pos => ?_
    exact .congr (f := .memorySize <$> readMemoryIndexOrZero f)
      (((dec_memoryIndex f i hf).fmap (g := Operator.memorySize)).toP (P := fun y => Corr (.memorySize i) y) rfl) (by rfl)
  | memoryGrow i =>
    obtain rfl := Option.some.inj h
    refine decP_one _ fun pos => ?_
    exact .congr (f := .memoryGrow <$> readMemoryIndexOrZero f)
      (((dec_memoryIndex f i hf).fmap (g := Operator.memoryGrow)).toP (P := fun y => Corr (.memoryGrow i) y) rfl) (by rfl)
  | idx2 o i j =>
    simp only [Instr.encode, List.append_assoc] at h
    obtain rfl := Option.some.inj h
    refine decP_dispatch (ok_idx2 o) fun pos => ?_
    rw [dispatch_idx2]
    exact (dec_read2 (.idx2 o) i j).toP ⟨rfl, rfl, rfl⟩
  | callIndirect t y =>
    simp only [Instr.encode, List.append_assoc] at h
    obtain rfl := Option.some.inj h
    refine decP_one _ fun pos => ?_
    refine .congr (f := do
      let index ← readVarU32
      let table ← readCallIndirectTable f
      pure (.callIndirect index table)) ?_ (by rfl)
    exact (Dec.u32 y).bindP
      (((dec_callIndirectTable f t hf).map (g := Operator.callIndirect y)).toP ⟨rfl, rfl⟩)
  | returnCallIndirect t y =>
    simp only [Instr.encode, List.append_assoc] at h
    obtain rfl := Option.some.inj h
    exact decP_one _ fun pos => (dec_read2 .returnCallIndirect y t).toP ⟨rfl, rfl⟩
  | memoryInit m d =>
    simp only [Instr.encode, List.append_assoc] at h
    obtain rfl := Option.some.inj h
    exact decP_dispatch (o := .raw 0xfc 0x08) (by decide) fun pos =>
      (dec_read2 .memoryInit d m).toP ⟨rfl, rfl⟩
  | tableInit m d =>
    simp only [Instr.encode, List.append_assoc] at h
    obtain rfl := Option.some.inj h
    exact decP_dispatch (o := .raw 0xfc 0x0c) (by decide) fun pos =>
      (dec_read2 .tableInit d m).toP ⟨rfl, rfl⟩
  | brTable ls l =>
    have hf : ls.length ≤ 7654321 := hf
    simp only [Instr.encode, encodeVec_eq _ (show ls.length < 2 ^ 32 by omega)] at h
    obtain rfl := Option.some.inj h
    rw [List.append_assoc]
    refine decP_one _ fun pos => ?_
    exact .congr (f := .brTable <$> readBrTable)
      ((decP_brTable ls l hf).fmap (g := Operator.brTable)
        (Q := fun x => Corr (.brTable ls l) x) fun _ ha => ha) (by rfl)
  | mem o m =>
    obtain rfl := Option.some.inj h
    refine decP_dispatch (ok_mem o) fun pos => ?_
    rw [dispatch_mem]
    exact (decP_memarg f _ m hf _ (maxAlignOf_spec o)).fmap fun _ ha => ⟨rfl, ha⟩
  | memLane o m l =>
    simp only [Instr.encode, List.append_assoc] at h
    obtain rfl := Option.some.inj h
    refine decP_dispatch (ok_memLane o) fun pos => ?_
    rw [dispatch_memLane]
    refine (decP_memarg f _ m hf _ (maxAlignOfLane_spec o)).bind fun m' hm => ?_
    exact ((Dec.readU8 l).map (g := Operator.memLane o m')).toP ⟨rfl, hm, rfl⟩
  | lane o l =>
    obtain rfl := Option.some.inj h
    refine decP_dispatch (ok_lane o) fun pos => ?_
    rw [dispatch_lane]
    exact ((Dec.readU8 l).fmap (g := Operator.lane o)).toP ⟨rfl, rfl⟩
  | i8x16Shuffle ls =>
    obtain rfl := Option.some.inj h
    have hf : ls.length = 16 := hf
    refine decP_dispatch (o := .leb 0xfd 0x0d) (by decide) fun pos => ?_
    refine .congr (f := .i8x16Shuffle <$> readMany readU8 16) ?_ (by rfl)
    have hm := Dec.many (f := readU8) (enc := fun x => [x]) (xs := ls) fun x _ => Dec.readU8 x
    rw [hf, List.flatMap_singleton'] at hm
    exact (hm.fmap (g := Operator.i8x16Shuffle)).toP rfl
  | heap o h' =>
    obtain rfl := Option.some.inj h
    refine decP_dispatch (ok_heap o) fun pos => ?_
    rw [dispatch_heap]
    exact ((dec_heapType h' (by cases h' <;> exact hf)).fmap (g := Operator.heap o)).toP ⟨rfl, rfl⟩
  | cast o d a b =>
    obtain rfl := Option.some.inj h
    refine decP_dispatch (ok_cast o) fun pos => ?_
    rw [dispatch_cast]
    refine (decP_cast (.cast o) d a b hf.1 hf.2).mono ?_
    rintro _ ⟨a', b', h1, h2, rfl⟩
    exact ⟨rfl, rfl, h1, h2⟩
  | atomic o x i =>
    simp only [Instr.encode, List.append_assoc] at h
    obtain rfl := Option.some.inj h
    refine decP_dispatch (ok_atomic o) fun pos => ?_
    rw [dispatch_atomic]
    refine (decP_atomic (.atomic o) x i).mono ?_
    rintro _ ⟨x', h1, rfl⟩
    exact ⟨rfl, h1, rfl⟩
  | atomic2 o x i j =>
    obtain rfl := Option.some.inj h
    rw [List.append_assoc, List.append_assoc]
    refine decP_dispatch (ok_atomic2 o) fun pos => ?_
    rw [dispatch_atomic2, ← List.append_assoc]
    refine (decP_atomic2 (.atomic2 o) x i j).mono ?_
    rintro _ ⟨x', h1, rfl⟩
    exact ⟨rfl, h1, rfl, rfl⟩
  | i32Const x =>
    obtain rfl := Option.some.inj h
    refine decP_one _ fun pos => ?_
    exact .congr (f := .i32Const <$> readVarI32)
      (((Dec.i32 x).fmap (g := Operator.i32Const)).toP (P := fun y => Corr (.i32Const x) y) rfl) (by rfl)
  | i64Const x =>
    obtain rfl := Option.some.inj h
    refine decP_one _ fun pos => ?_
    exact .congr (f := .i64Const <$> readVarI64)
      (((Dec.i64 x).fmap (g := Operator.i64Const)).toP (P := fun y => Corr (.i64Const x) y) rfl) (by rfl)
  | f32Const x =>
    obtain rfl := Option.some.inj h
    refine decP_one _ fun pos => ?_
    exact .congr (f := .f32Const <$> readU32)
      (((dec_f32 x).fmap (g := Operator.f32Const)).toP (P := fun y => Corr (.f32Const x) y) rfl) (by rfl)
  | f64Const x =>
    obtain rfl := Option.some.inj h
    refine decP_one _ fun pos => ?_
    exact .congr (f := .f64Const <$> readU64)
      (((dec_f64 x).fmap (g := Operator.f64Const)).toP (P := fun y => Corr (.f64Const x) y) rfl) (by rfl)
  | v128Const x =>
    obtain rfl := Option.some.inj h
    refine decP_dispatch (o := .leb 0xfd 0x0c) (by decide) fun pos => ?_
    refine .congr (f := .v128Const <$> readBytes 16)
      (((dec_leBytes 16 x.toNat).fmap (g := Operator.v128Const)).toP ?_) (by rfl)
    exact ⟨leBytes_length _ _, leValue_leBytes _ _ (by have := x.isLt; omega)⟩
  | typedSelect t =>
    simp only [Instr.encode, encodeVec_eq _ (show [t].length < 2 ^ 32 by simp)] at h
    obtain rfl := Option.some.inj h
    refine decP_one _ fun pos => ?_
    have := decP_typedSelect t hf
    rw [show [t].flatMap (fun x => x.encode) = t.encode by simp]
    exact this
  | typedSelectMulti ts =>
    obtain ⟨h1, h2, h3⟩ := hf
    simp only [Instr.encode, encodeVec_eq _ (show ts.length < 2 ^ 32 by omega)] at h
    obtain rfl := Option.some.inj h
    exact decP_one _ fun pos => decP_typedSelectMulti ts h1 h2 h3
  | resume t hs =>
    have hf : hs.length ≤ 10000 := hf
    simp only [Instr.encode, encodeVec_eq _ (show hs.length < 2 ^ 32 by omega),
      List.append_assoc] at h
    obtain rfl := Option.some.inj h
    refine decP_one _ fun pos => ?_
    refine .congr (f := do
      let t ← readVarU32
      .resume t <$> readResumeTable) ?_ (by rfl)
    exact (Dec.u32 t).bindP ((decP_resumeTable hs hf).fmap fun _ ha => ⟨rfl, ha⟩)
  | resumeThrow t e hs =>
    have hf : hs.length ≤ 10000 := hf
    simp only [Instr.encode, encodeVec_eq _ (show hs.length < 2 ^ 32 by omega),
      List.append_assoc] at h
    obtain rfl := Option.some.inj h
    refine decP_one _ fun pos => ?_
    refine .congr (f := do
      let t ← readVarU32
      let e ← readVarU32
      .resumeThrow t e <$> readResumeTable) ?_ (by rfl)
    exact (Dec.u32 t).bindP ((Dec.u32 e).bindP
      ((decP_resumeTable hs hf).fmap fun _ ha => ⟨rfl, rfl, ha⟩))
  | resumeThrowRef t hs =>
    have hf : hs.length ≤ 10000 := hf
    simp only [Instr.encode, encodeVec_eq _ (show hs.length < 2 ^ 32 by omega),
      List.append_assoc] at h
    obtain rfl := Option.some.inj h
    refine decP_one _ fun pos => ?_
    refine .congr (f := do
      let t ← readVarU32
      .resumeThrowRef t <$> readResumeTable) ?_ (by rfl)
    exact (Dec.u32 t).bindP ((decP_resumeTable hs hf).fmap fun _ ha => ⟨rfl, ha⟩)

end Verif.Instr
