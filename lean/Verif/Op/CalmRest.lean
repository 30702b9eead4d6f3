import Verif.Op.CalmVisit
import Verif.Types.Props
/-! The methods of the operators do not panic: those with indices and types. -/
namespace Verif.Op.Calm
open Verif.Types (AbsHeap UnpackedIndex HeapType RefType ValType)
open Verif.Instr (FrameKind BlockType MemArg Catch Handle BrTable Operator)
open Verif.TypeList.Spec (Field Storage Comp SubT)

variable {α β : Type} {E : Env} {n : Nat} {A : Answers}

/-! ## Locals -/

theorem opOnly_inits {m : M α} (h : OpOnly m) {S S' : St} {a : α} (hm : m S = (.ok a, S')) :
    S'.inits = S.inits := by
  obtain ⟨r, ops, d, _, h⟩ := h.spec S
  have := h S.log
  rw [show m { S with log := S.log } = m S from rfl, hm] at this
  cases this
  rfl

theorem trip_popLocal (hs : Same E.R n A) {i : BitVec 32} {t : Val} :
    Trip (fun S => Wf E n S ∧ ValIn n t ∧ i.toNat < S.inits.localInits.length) (popT E t)
      (popT (alt E A) t)
      fun _ S => Wf E n S ∧ ValIn n t ∧ i.toNat < S.inits.localInits.length := by
  rintro S ⟨hS, ht, hi⟩
  obtain ⟨h1, h2, h3⟩ := calm_popT hs ht S hS
  refine ⟨h1, h2, fun a S' h => ⟨(h3 a S' h).1, ht, ?_⟩⟩
  rw [opOnly_inits inferInstance h]
  exact hi

theorem calm_visitLocalSet (hs : Same E.R n A) {i : BitVec 32} :
    CalmU E n (visitLocalSet E i) (visitLocalSet (alt E A) i) :=
  Trip.bind calm_localTy fun _ => Trip.bind (trip_popLocal hs) fun _ =>
    Trip.weaken setInit_calm fun _ _ h => ⟨h.1, trivial⟩

theorem calm_visitLocalTee (hs : Same E.R n A) {i : BitVec 32} :
    CalmU E n (visitLocalTee E i) (visitLocalTee (alt E A) i) :=
  Trip.bind calm_localTy fun _ => Trip.bind (trip_popLocal hs) fun _ => Trip.bind setInit_calm
    fun _ => Trip.of fun _ h0 => Trip.pre (calm_push h0.2) (by rintro _ rfl; exact h0.1)

/-! ## References -/

theorem concrete_in {b : Bool} {i : Nat} (h : i < n) : RefIn n ⟨b, .concrete i⟩ := by
  intro j hj
  rw [List.mem_singleton.1 hj]
  exact h

theorem exact_in {b : Bool} {i : Nat} (h : i < n) : RefIn n ⟨b, .exact i⟩ := by
  intro j hj
  rw [List.mem_singleton.1 hj]
  exact h

theorem calm_visitRefFunc (hf : Fine E.R n) {i : BitVec 32} :
    CalmU E n (visitRefFunc E i) (visitRefFunc (alt E A) i) := by
  refine Calm.bind (P := fun id => id < n) (Calm.orError fun id h => hf.func i id h) fun id h => ?_
  refine Calm.bind (Calm.require rfl) fun _ _ => Calm.bind (calm_orErrorRef ?_) fun _ h =>
    calm_pushRef h
  split
  · exact exact_in (b := true) h
  · exact concrete_in (b := true) h

theorem calm_visitRefNull (hf : Fine E.R n) {h : HeapType} (hm : Modular h) :
    CalmU E n (visitRefNull E h) (visitRefNull (alt E A) h) := by
  have h2 : CalmU E n (lift (E.R.checkHeapType h) >>= fun h => orPanic (mkRef true h) >>= fun r =>
      pushRef r) (lift ((alt E A).R.checkHeapType h) >>= fun h => orPanic (mkRef true h) >>=
      fun r => pushRef r) :=
    Calm.bind (calm_checkHeapType hf hm) fun _ h => Calm.bind (calm_orPanicRef hf h.1) fun _ h =>
      calm_pushRef h
  rcases Types.c12_new true h with ⟨_, t, h3, _, h4, _⟩ | ⟨_, h3⟩
  · have h5 := mild_checkRefType (f := E.f.types) (r := t) (by rw [h4]; rfl)
    unfold visitRefNull
    rw [h3]
    exact Calm.bind (featuresCheck_calm h5) fun _ _ => h2
  · unfold visitRefNull
    rw [h3]
    exact h2

theorem calm_visitHeap (hf : Fine E.R n) (hs : Same E.R n A) {o : Instr.Heap} {h : HeapType}
    (hm : Modular h) : CalmU E n (visitHeap E o h) (visitHeap (alt E A) o h) := by
  cases o with
  | refNull => exact calm_visitRefNull hf hm
  | refTestNonNull => exact calm_checkRefTest hf hs hm
  | refTestNullable => exact calm_checkRefTest hf hs hm
  | refCastNonNull => exact calm_checkRefCast hf hs hm
  | refCastNullable => exact calm_checkRefCast hf hs hm
  | refCastDescEqNonNull => exact calm_checkRefCastDescEq hf hs hm
  | refCastDescEqNullable => exact calm_checkRefCastDescEq hf hs hm

theorem calm_castTypes (hf : Fine E.R n) (hs : Same E.R n A) {a b : RefType} (ha : ModularRef a)
    (hb : ModularRef b) : Calm E n (castTypes E a b) (castTypes (alt E A) a b)
      fun p => RefIn n p.1 ∧ RefIn n p.2 :=
  Calm.bind (calm_checkRefType hf ha) fun _ h1 => Calm.bind (calm_checkRefType hf hb) fun _ h2 =>
    Calm.bind (calm_checkBrOnCastTypeHierarchy hf hs h1 h2) fun _ _ => Calm.pure ⟨h1, h2⟩

theorem calm_castBranch (hf : Fine E.R n) (hs : Same E.R n A) {d : BitVec 32} {f s k : Ref}
    (h1 : RefIn n f) (h2 : RefIn n s) (h3 : RefIn n k) :
    CalmU E n (castBranch E d f s k) (castBranch (alt E A) d f s k) :=
  Calm.bind (calm_jumpTypes hf) fun _ hj => Calm.bind (P := ValIn n)
    (Calm.orError fun v hv => hj v (List.mem_of_getLast? hv)) fun l hl =>
      Calm.bind (Calm.require (hs.sub (.ref s) l h2 hl)) fun _ _ =>
        Calm.bind (calm_popT hs (t := .ref f) h1) fun _ _ =>
          Calm.bind (calm_popPushLabelTypes hs (dropLast_in hj)) fun _ _ => calm_pushRef h3

theorem calm_visitCast (hf : Fine E.R n) (hs : Same E.R n A) {o : Instr.Cast} {d : BitVec 32}
    {a b : RefType} (ha : ModularRef a) (hb : ModularRef b) :
    CalmU E n (visitCast E o d a b) (visitCast (alt E A) o d a b) := by
  cases o with
  | brOnCast =>
    exact Calm.bind (calm_castTypes hf hs ha hb) fun _ h => calm_castBranch hf hs h.1 h.2 h.1
  | brOnCastFail =>
    exact Calm.bind (calm_castTypes hf hs ha hb) fun _ h => calm_castBranch hf hs h.1 h.1 h.2
  | brOnCastDescEq =>
    obtain ⟨h, h1, h2⟩ := hb
    exact Calm.bind (P := Modular) (Calm.orPanic ⟨h, h1, h2⟩) fun _ h3 =>
      Calm.bind (calm_castTypes hf hs ha ⟨h, h1, h2⟩) fun _ h =>
        Calm.bind (calm_checkMaybeExactDescriptorRef hf hs h3) fun _ _ =>
          calm_castBranch hf hs h.1 h.2 h.1
  | brOnCastDescEqFail =>
    obtain ⟨h, h1, h2⟩ := hb
    exact Calm.bind (P := Modular) (Calm.orPanic ⟨h, h1, h2⟩) fun _ h3 =>
      Calm.bind (calm_castTypes hf hs ha ⟨h, h1, h2⟩) fun _ h =>
        Calm.bind (calm_checkMaybeExactDescriptorRef hf hs h3) fun _ _ =>
          calm_castBranch hf hs h.1 h.1 h.2

theorem calm_visitTypedSelect (hf : Fine E.R n) (hs : Same E.R n A) {t : ValType}
    (ht : ModularVal t) : CalmU E n (visitTypedSelect E t) (visitTypedSelect (alt E A) t) :=
  Calm.bind (calm_checkValueType hf ht) fun _ h => Calm.bind (calm_popT hs (numeric_in rfl))
    fun _ _ => Calm.bind (calm_popT hs h) fun _ _ => Calm.bind (calm_popT hs h) fun _ _ =>
      calm_push h

/-! ## Continuations -/

theorem nil_in : ValsIn n [] := fun _ h => (List.not_mem_nil h).elim

theorem isFuncSubtype_same (hs : Same E.R n A) {p1 r1 p2 r2 : List Val} (h1 : ValsIn n p1)
    (h2 : ValsIn n r1) (h3 : ValsIn n p2) (h4 : ValsIn n r2) :
    isFuncSubtype (alt E A) p1 r1 p2 r2 = isFuncSubtype E p1 r1 p2 r2 := by
  unfold isFuncSubtype
  have e1 := zip_all (f := fun a b => A.sub b a) (g := fun a b => E.R.isSubtype b a)
    (fun a b ha hb => hs.sub b a hb ha) h1 h3
  have e2 := zip_all (f := fun a b => A.sub a b) (g := fun a b => E.R.isSubtype a b)
    (fun a b ha hb => hs.sub a b ha hb) h2 h4
  show (_ && ((p1.zip p2).all fun (a, b) => A.sub b a) && _ &&
    ((r1.zip r2).all fun (a, b) => A.sub a b)) = _
  rw [e1, e2]

theorem lastRefId_in {ts : List Val} (h : ValsIn n ts) {i : Nat} (hr : lastRefId ts = some i) :
    i < n := by
  unfold lastRefId at hr
  split at hr
  · next r hx =>
    have h1 := h _ (List.mem_of_getLast? hx)
    unfold refId at hr
    split at hr
    · next j hh =>
      cases hr
      exact h1 i (by show i ∈ r.heap.refs; rw [hh]; simp [Verif.TypeList.Spec.Heap.refs])
    · next j hh =>
      cases hr
      exact h1 i (by show i ∈ r.heap.refs; rw [hh]; simp [Verif.TypeList.Spec.Heap.refs])
    · cases hr
  · cases hr

theorem calm_checkHandle (hf : Fine E.R n) (hs : Same E.R n A) {old : FuncTy} (ho : FuncIn n old)
    {h : Handle} : CalmU E n (checkHandle E old h) (checkHandle (alt E A) old h) := by
  cases h with
  | onLabel t l =>
    refine Calm.bind (calm_tagAt hf) fun tt ht => Calm.bind (calm_jumpTypes hf) fun ls hl => ?_
    refine Calm.bind (P := fun i => i < n) (Calm.orError fun _ h => lastRefId_in hl h) fun c hc => ?_
    refine Calm.bind (Calm.require ?_) fun _ _ => ?_
    · have e2 := zip_all (f := fun a b => A.sub a b) (g := fun a b => E.R.isSubtype a b)
        (fun a b ha hb => hs.sub a b ha hb) ht.1 (dropLast_in hl)
      show (_ && ((tt.params.zip ls.dropLast).all fun (a, b) => A.sub a b)) = _
      rw [e2]
    · exact Calm.bind (calm_contAtId hf hc) fun _ h => Calm.bind (calm_funcTypeOfContType hf h)
        fun _ h => (Calm.require (isFuncSubtype_same hs ht.2 ho.2 h.1 h.2)).unit
  | onSwitch t =>
    refine Calm.bind (calm_tagAt hf) fun tt ht => (Calm.require ?_).unit
    rw [isFuncSubtype_same hs ht.1 ht.2 nil_in ho.2, isFuncSubtype_same hs nil_in ho.2 ht.1 ht.2]

theorem calm_checkResumeTable (hf : Fine E.R n) (hs : Same E.R n A) {hd : List Handle}
    {i : BitVec 32} : Calm E n (checkResumeTable E hd i) (checkResumeTable (alt E A) hd i)
      (FuncIn n) :=
  Calm.bind (calm_contTypeAt hf) fun _ h => Calm.bind (calm_funcTypeOfContType hf h) fun _ h =>
    Calm.bind (Calm.each fun _ _ => calm_checkHandle hf hs h) fun _ _ => Calm.pure h

theorem calm_visitResume (hf : Fine E.R n) (hs : Same E.R n A) {hd : List Handle}
    {i : BitVec 32} : CalmU E n (visitResume E i hd) (visitResume (alt E A) i hd) :=
  Calm.bind (calm_checkResumeTable hf hs) fun _ h => Calm.bind (calm_popConcreteRef hf hs)
    fun _ _ => Calm.bind (calm_popAll hs h.1) fun _ _ => calm_pushAll h.2

theorem calm_visitResumeThrow (hf : Fine E.R n) (hs : Same E.R n A) {hd : List Handle}
    {i j : BitVec 32} :
    CalmU E n (visitResumeThrow E i j hd) (visitResumeThrow (alt E A) i j hd) :=
  Calm.bind (calm_checkResumeTable hf hs) fun _ h => Calm.bind (calm_exceptionTagAt hf)
    fun _ h1 => Calm.bind (calm_popConcreteRef hf hs)
    fun _ _ => Calm.bind (calm_popAll hs h1.1) fun _ _ => calm_pushAll h.2

theorem calm_visitResumeThrowRef (hf : Fine E.R n) (hs : Same E.R n A) {hd : List Handle}
    {i : BitVec 32} : CalmU E n (visitResumeThrowRef E i hd) (visitResumeThrowRef (alt E A) i hd) :=
  Calm.bind (calm_checkResumeTable hf hs) fun _ h => Calm.bind (calm_popConcreteRef hf hs)
    fun _ _ => Calm.bind (calm_popT hs abs_in) fun _ _ => calm_pushAll h.2

theorem calm_visitContNew (hf : Fine E.R n) (hs : Same E.R n A) {i : BitVec 32} :
    CalmU E n (visitContNew E i) (visitContNew (alt E A) i) :=
  Calm.bind (calm_contTypeAt hf) fun _ h => Calm.bind (calm_popRefSome hs (concrete_in h.1))
    fun _ _ => calm_pushConcreteRef hf

theorem take_in {ts : List Val} (h : ValsIn n ts) {k : Nat} : ValsIn n (ts.take k) :=
  fun v hv => h v (List.mem_of_mem_take hv)
theorem drop_in {ts : List Val} (h : ValsIn n ts) {k : Nat} : ValsIn n (ts.drop k) :=
  fun v hv => h v (List.mem_of_mem_drop hv)

theorem calm_visitContBind (hf : Fine E.R n) (hs : Same E.R n A) {i j : BitVec 32} :
    CalmU E n (visitContBind E i j) (visitContBind (alt E A) i j) :=
  Calm.bind (calm_contTypeAt hf) fun _ h => Calm.bind (calm_funcTypeOfContType hf h) fun _ h1 =>
    Calm.bind (calm_contTypeAt hf) fun _ h => Calm.bind (calm_funcTypeOfContType hf h) fun _ h2 =>
      Calm.bind (Calm.require rfl) fun _ _ => Calm.bind
        (Calm.require (isFuncSubtype_same hs (drop_in h1.1) h1.2 h2.1 h2.2)) fun _ _ =>
          Calm.bind (calm_popConcreteRef hf hs) fun _ _ => Calm.bind (calm_popAll hs (take_in h1.1))
            fun _ _ => calm_pushConcreteRef hf

theorem calm_visitSwitch (hf : Fine E.R n) (hs : Same E.R n A) {i j : BitVec 32} :
    CalmU E n (visitSwitch E i j) (visitSwitch (alt E A) i j) :=
  Calm.bind (calm_contTypeAt hf) fun _ h => Calm.bind (calm_funcTypeOfContType hf h) fun _ h1 =>
    Calm.bind (calm_tagAt hf) fun _ ht => Calm.bind (Calm.require rfl) fun _ _ =>
      Calm.bind (P := fun i => i < n) (Calm.orError fun _ h => lastRefId_in h1.1 h) fun _ hc =>
        Calm.bind (calm_contAtId hf hc) fun _ h => Calm.bind (calm_funcTypeOfContType hf h)
          fun _ h2 => Calm.bind (Calm.require (isFuncSubtype_same hs ht.2 ht.2 h1.2 h2.2))
            fun _ _ => Calm.bind (calm_popConcreteRef hf hs) fun _ _ =>
              Calm.bind (calm_popAll hs (dropLast_in h1.1)) fun _ _ => calm_pushAll h2.1

/-! ## Fields -/

theorem fields_in {fs : List (Field Nat)} (h : ∀ f ∈ fs, FieldIn n f) :
    ValsIn n (fs.map fun f => unpack f.storage) := by
  intro v hv
  obtain ⟨f, hf, rfl⟩ := List.mem_map.1 hv
  exact h f hf

theorem calm_subDesc (hf : Fine E.R n) {i : BitVec 32} {k k' : Nat → M Unit}
    (hk : ∀ d, d < n → CalmU E n (k d) (k' d)) :
    CalmU E n (subTypeAt E i >>= fun s => orError s.descriptor >>= k)
      (subTypeAt (alt E A) i >>= fun s => orError s.descriptor >>= k') :=
  Calm.bind (calm_subTypeAt hf) fun _ hs => Calm.bind (P := fun d => d < n)
    (Calm.orError fun _ hd => hs.desc hd) fun d h => hk d h

macro_rules | `(tactic| calm_in) => `(tactic| exact fields_in (by assumption))

theorem calm_visitStructNewDesc (hf : Fine E.R n) (hs : Same E.R n A) {i : BitVec 32} :
    CalmU E n (visitStructNewDesc E i) (visitStructNewDesc (alt E A) i) :=
  calm_subDesc hf fun _ hd => Calm.bind (calm_popT hs (exact_in (b := true) hd)) fun _ _ =>
    Calm.bind (calm_structTypeAt hf) fun _ h => Calm.bind (calm_popAll hs (fields_in h)) fun _ _ =>
      calm_pushExactRefIfAvailable hf

theorem calm_visitStructNewDefaultDesc (hf : Fine E.R n) (hs : Same E.R n A) {i : BitVec 32} :
    CalmU E n (visitStructNewDefaultDesc E i) (visitStructNewDefaultDesc (alt E A) i) :=
  calm_subDesc hf fun _ hd => Calm.bind (calm_popT hs (exact_in (b := true) hd)) fun _ _ =>
    Calm.bind (calm_structTypeAt hf) fun _ _ => Calm.bind (Calm.require rfl) fun _ _ =>
      calm_pushExactRefIfAvailable hf

theorem calm_visitRefGetDesc (hf : Fine E.R n) (hs : Same E.R n A) {i : BitVec 32} :
    CalmU E n (visitRefGetDesc E i) (visitRefGetDesc (alt E A) i) := by
  refine Calm.bind (calm_popConcreteOrExactRef hf hs) ?_
  rintro ⟨t, b⟩ _
  refine calm_subDesc hf fun d hd => calm_pushRef ?_
  cases b
  · exact concrete_in (b := true) hd
  · exact exact_in (b := true) hd

theorem calm_visitArrayNewFixed (hf : Fine E.R n) (hs : Same E.R n A) {i j : BitVec 32} :
    CalmU E n (visitArrayNewFixed E i j) (visitArrayNewFixed (alt E A) i j) :=
  Calm.bind (calm_arrayTypeAt hf) fun _ h => Calm.bind (Calm.each fun x hx => by
    rw [(List.mem_replicate.1 hx).2]
    exact calm_popT hs h) fun _ _ => calm_pushExactRefIfAvailable hf

theorem asRef_in {v : Val} (h : ValIn n v) {r : Ref} (hr : asRef v = some r) : RefIn n r := by
  cases v with
  | ref => cases hr; exact h
  | _ => cases hr

theorem calm_visitArrayNewElem (hf : Fine E.R n) (hs : Same E.R n A) {i j : BitVec 32} :
    CalmU E n (visitArrayNewElem E i j) (visitArrayNewElem (alt E A) i j) :=
  Calm.bind (calm_arrayTypeAt hf) fun _ h => Calm.bind (P := RefIn n)
    (Calm.orError fun _ hr => asRef_in h hr) fun r hr => Calm.bind (calm_elementTypeAt hf) fun e he =>
      Calm.bind (Calm.require (hs.sub (.ref e) (.ref r) he hr)) fun _ _ =>
        Calm.bind (calm_popT hs (numeric_in rfl)) fun _ _ =>
          Calm.bind (calm_popT hs (numeric_in rfl)) fun _ _ => calm_pushExactRefIfAvailable hf

theorem calm_visitArrayInitElem (hf : Fine E.R n) (hs : Same E.R n A) {i j : BitVec 32} :
    CalmU E n (visitArrayInitElem E i j) (visitArrayInitElem (alt E A) i j) :=
  Calm.bind (calm_mutableArrayTypeAt hf) fun _ h => Calm.bind (P := RefIn n)
    (Calm.orError fun _ hr => asRef_in h hr) fun r hr => Calm.bind (calm_elementTypeAt hf) fun e he =>
      Calm.bind (Calm.require (hs.sub (.ref e) (.ref r) he hr)) fun _ _ =>
        Calm.bind (calm_popT hs (numeric_in rfl)) fun _ _ =>
          Calm.bind (calm_popT hs (numeric_in rfl)) fun _ _ =>
            Calm.bind (calm_popT hs (numeric_in rfl)) fun _ _ =>
              Calm.bind (calm_popConcreteRef hf hs) fun _ _ => Calm.pure trivial

theorem copyMatches_same (hs : Same E.R n A) {d s : Storage Nat} (hd : ValIn n (unpack d))
    (h : ValIn n (unpack s)) : copyMatches (alt E A) d s = copyMatches E d s := by
  cases d <;> cases s <;> first | rfl | exact hs.sub _ _ h hd

theorem calm_visitArrayCopy (hf : Fine E.R n) (hs : Same E.R n A) {i j : BitVec 32} :
    CalmU E n (visitArrayCopy E i j) (visitArrayCopy (alt E A) i j) := by
  refine Calm.bind (calm_mutableArrayTypeAt hf) fun _ hd => Calm.bind (calm_arrayTypeAt hf)
    fun _ h => Calm.bind (Calm.require (copyMatches_same hs hd h)) fun _ _ => ?_
  calm

theorem calm_visitTableInit (hf : Fine E.R n) (hs : Same E.R n A) {i j : BitVec 32} :
    CalmU E n (visitTableInit E i j) (visitTableInit (alt E A) i j) := by
  refine Calm.bind (calm_tableTypeAt hf) fun t ht => Calm.bind (calm_elementTypeAt hf) fun e he =>
    Calm.bind (Calm.require (hs.sub (.ref e) (.ref t.elem) he ht)) fun _ _ => ?_
  calm

theorem lenType_in {a b : Val} (hb : ValIn n b) : ValIn n (lenType a b) := by
  unfold lenType
  split
  · exact numeric_in rfl
  · exact hb

theorem calm_visitTableCopy (hf : Fine E.R n) (hs : Same E.R n A) {i j : BitVec 32} :
    CalmU E n (visitTableCopy E i j) (visitTableCopy (alt E A) i j) := by
  refine Calm.bind (calm_tableTypeAt hf) fun s h1 => Calm.bind (calm_tableTypeAt hf) fun d h2 =>
    Calm.bind (Calm.require (hs.sub (.ref s.elem) (.ref d.elem) h1 h2)) fun _ _ =>
      Calm.bind (calm_popT hs (lenType_in (indexType_in _))) fun _ _ => ?_
  calm

theorem calm_visitMemoryCopy (hs : Same E.R n A) {i j : BitVec 32} :
    CalmU E n (visitMemoryCopy E i j) (visitMemoryCopy (alt E A) i j) :=
  Calm.bind (Calm.require rfl) fun _ _ => Calm.bind calm_checkMemoryIndex fun _ h1 =>
    Calm.bind calm_checkMemoryIndex fun _ h2 => Calm.bind (calm_popT hs (lenType_in h1)) fun _ _ =>
      Calm.bind (calm_popT hs h2) fun _ _ => calm_popT hs h1

theorem calm_visitStructGet (hf : Fine E.R n) (hs : Same E.R n A) {b : Bool} {i j : BitVec 32} :
    CalmU E n (visitStructGet E b i j) (visitStructGet (alt E A) b i j) := by
  unfold visitStructGet
  calm

theorem calm_visitStructSet (hf : Fine E.R n) (hs : Same E.R n A) {i j : BitVec 32} :
    CalmU E n (visitStructSet E i j) (visitStructSet (alt E A) i j) := by
  unfold visitStructSet
  calm

theorem calm_visitArrayGet (hf : Fine E.R n) (hs : Same E.R n A) {b : Bool} {i : BitVec 32} :
    CalmU E n (visitArrayGet E b i) (visitArrayGet (alt E A) b i) := by
  unfold visitArrayGet
  calm

theorem calm_visitArraySet (hf : Fine E.R n) (hs : Same E.R n A) {i : BitVec 32} :
    CalmU E n (visitArraySet E i) (visitArraySet (alt E A) i) := by
  unfold visitArraySet
  calm

theorem calm_visitTableGet (hf : Fine E.R n) (hs : Same E.R n A) {i : BitVec 32} :
    CalmU E n (visitTableGet E i) (visitTableGet (alt E A) i) := by
  unfold visitTableGet
  calm

theorem calm_visitTableSet (hf : Fine E.R n) (hs : Same E.R n A) {i : BitVec 32} :
    CalmU E n (visitTableSet E i) (visitTableSet (alt E A) i) := by
  unfold visitTableSet
  calm

theorem calm_visitGlobalGet (hf : Fine E.R n) {i : BitVec 32} :
    CalmU E n (visitGlobalGet E i) (visitGlobalGet (alt E A) i) := by
  unfold visitGlobalGet
  calm

theorem calm_visitGlobalSet (hf : Fine E.R n) (hs : Same E.R n A) {i : BitVec 32} :
    CalmU E n (visitGlobalSet E i) (visitGlobalSet (alt E A) i) := by
  unfold visitGlobalSet
  calm

/-! ## Operators with one index -/

set_option maxHeartbeats 1000000 in
theorem calm_visitIdx (hf : Fine E.R n) (hs : Same E.R n A) {o : Instr.Idx} {i : BitVec 32} :
    CalmU E n (visitIdx E o i) (visitIdx (alt E A) o i) := by
  cases o
  case brOnNonNull => exact calm_visitBrOnNonNull hf hs
  case rethrow => exact calm_visitRethrow
  case localGet => exact calm_visitLocalGet
  case localSet => exact calm_visitLocalSet hs
  case localTee => exact calm_visitLocalTee hs
  case refFunc => exact calm_visitRefFunc hf
  case structNewDesc => exact calm_visitStructNewDesc hf hs
  case structNewDefaultDesc => exact calm_visitStructNewDefaultDesc hf hs
  case contNew => exact calm_visitContNew hf hs
  case refGetDesc => exact calm_visitRefGetDesc hf hs
  case arrayGet => exact calm_visitArrayGet hf hs
  case arrayGetS => exact calm_visitArrayGet hf hs
  case arrayGetU => exact calm_visitArrayGet hf hs
  case arraySet => exact calm_visitArraySet hf hs
  case dataDrop => exact calm_checkDataSegment
  case elemDrop => exact Calm.bind (calm_elementTypeAt hf) fun _ _ => Calm.pure trivial
  all_goals
    dsimp only [visitIdx, visitBr, visitBrIf, visitBrOnNull, visitCall, visitCallRef,
      visitReturnCallRef, visitReturnCall, visitThrow, visitGlobalGet, visitGlobalSet,
      visitMemoryFill, visitMemoryDiscard, visitStructNew, visitStructNewDefault, visitArrayNew,
      visitArrayNewDefault, visitArrayFill, visitTableFill, visitTableSet, visitTableGet,
      visitTableGrow, visitTableSize, visitSuspend]
    calm

set_option maxHeartbeats 1000000 in
theorem calm_visitIdx2 (hf : Fine E.R n) (hs : Same E.R n A) {o : Instr.Idx2} {i j : BitVec 32} :
    CalmU E n (visitIdx2 E o i j) (visitIdx2 (alt E A) o i j) := by
  cases o
  case memoryCopy => exact calm_visitMemoryCopy hs
  case structGet => exact calm_visitStructGet hf hs
  case structGetS => exact calm_visitStructGet hf hs
  case structGetU => exact calm_visitStructGet hf hs
  case structSet => exact calm_visitStructSet hf hs
  case arrayNewFixed => exact calm_visitArrayNewFixed hf hs
  case arrayNewElem => exact calm_visitArrayNewElem hf hs
  case arrayInitElem => exact calm_visitArrayInitElem hf hs
  case arrayCopy => exact calm_visitArrayCopy hf hs
  case tableCopy => exact calm_visitTableCopy hf hs
  case contBind => exact calm_visitContBind hf hs
  case switch => exact calm_visitSwitch hf hs
  all_goals
    dsimp only [visitIdx2, visitArrayNewData, visitArrayInitData]
    calm

/-! ## Atomic operators -/

theorem atomicTy_same (hs : Same E.R n A) {sup t : Val} (h1 : ValIn n sup) (h2 : ValIn n t) :
    atomicTy (alt E A) sup t = atomicTy E sup t := by
  unfold atomicTy
  rw [show (alt E A).R.isSubtype t sup = E.R.isSubtype t sup from hs.sub _ _ h2 h1]

theorem atomicStorage_same (hs : Same E.R n A) {sup : Val} {t : Storage Nat} (h1 : ValIn n sup)
    (h2 : ValIn n (unpack t)) : atomicStorage (alt E A) sup t = atomicStorage E sup t := by
  cases t with
  | val v => exact atomicTy_same hs h1 h2
  | _ => rfl

theorem atomicStorageSet_same (hs : Same E.R n A) {sup : Val} {t : Storage Nat}
    (h1 : ValIn n sup) (h2 : ValIn n (unpack t)) :
    atomicStorageSet (alt E A) sup t = atomicStorageSet E sup t := by
  cases t with
  | val v => exact atomicTy_same hs h1 h2
  | _ => rfl

theorem rmw_in {s : Storage Nat} {t : Val} (h : rmwFieldTy s = some t) : ValIn n t := by
  unfold rmwFieldTy at h
  split at h <;> cases h <;> exact numeric_in rfl

theorem calm_rmw {s : Storage Nat} :
    Calm E n (orError (rmwFieldTy s)) (orError (rmwFieldTy s)) (ValIn n) :=
  Calm.orError fun _ h => rmw_in h

theorem anyref_in {b : Bool} : ValIn n (anyref b) := abs_in
theorem eqref_in {b : Bool} : ValIn n (eqref b) := abs_in

theorem calm_checkStructAtomicRmw (hf : Fine E.R n) (hs : Same E.R n A) {i j : BitVec 32} :
    CalmU E n (checkStructAtomicRmw E i j) (checkStructAtomicRmw (alt E A) i j) := by
  refine Calm.bind (calm_mutableStructFieldAt hf) fun _ _ => Calm.bind calm_rmw fun _ h => ?_
  calm

theorem calm_checkArrayAtomicRmw (hf : Fine E.R n) (hs : Same E.R n A) {i : BitVec 32} :
    CalmU E n (checkArrayAtomicRmw E i) (checkArrayAtomicRmw (alt E A) i) := by
  refine Calm.bind (calm_mutableArrayTypeAt hf) fun _ _ => Calm.bind calm_rmw fun _ h => ?_
  calm

theorem calm_checkAtomicGlobalRmwTy (hf : Fine E.R n) {i : BitVec 32} :
    Calm E n (checkAtomicGlobalRmwTy E i) (checkAtomicGlobalRmwTy (alt E A) i) (ValIn n) :=
  Calm.bind (calm_globalTypeAt hf) fun _ h => Calm.bind (Calm.require rfl) fun _ _ =>
    Calm.bind (Calm.require rfl) fun _ _ => Calm.pure h

theorem calm_tableElem (hf : Fine E.R n) (hs : Same E.R n A) {i : BitVec 32} {v : Val}
    (hv : ValIn n v) : CalmU E n
      (tableTypeAt E i >>= fun t => require (E.R.isSubtype (.ref t.elem) v))
      (tableTypeAt (alt E A) i >>= fun t => require ((alt E A).R.isSubtype (.ref t.elem) v)) :=
  Calm.bind (calm_tableTypeAt hf) fun t ht =>
    (Calm.require (hs.sub (.ref t.elem) v ht hv)).unit

theorem calm_visitAtomic (hf : Fine E.R n) (hs : Same E.R n A) {o : Instr.Atomic} {i : BitVec 32} :
    CalmU E n (visitAtomic E o i) (visitAtomic (alt E A) o i) := by
  have hg : ∀ b, CalmU E n (globalTypeAt E i >>= fun g => require (atomicTy E (anyref b) g.content))
      (globalTypeAt (alt E A) i >>= fun g => require (atomicTy (alt E A) (anyref b) g.content)) :=
    fun b => Calm.bind (calm_globalTypeAt hf) fun _ h =>
      (Calm.require (atomicTy_same hs anyref_in h)).unit
  have hr : CalmU E n (visitGlobalAtomicRmw E i) (visitGlobalAtomicRmw (alt E A) i) :=
    Calm.bind (calm_checkAtomicGlobalRmwTy hf) fun _ h => Calm.bind (calm_popT hs h) fun _ _ =>
      calm_push h
  cases o
  case globalAtomicGet => exact Calm.bind (calm_visitGlobalGet hf) fun _ _ => hg _
  case globalAtomicSet => exact Calm.bind (calm_visitGlobalSet hf hs) fun _ _ => hg _
  case globalAtomicRmwXchg =>
    refine Calm.bind (calm_globalTypeAt hf) fun _ h => Calm.bind (Calm.require rfl) fun _ _ =>
      Calm.bind (Calm.require (atomicTy_same hs anyref_in h)) fun _ _ => ?_
    exact Calm.bind (calm_popT hs h) fun _ _ => calm_push h
  case globalAtomicRmwCmpxchg =>
    refine Calm.bind (calm_globalTypeAt hf) fun _ h => Calm.bind (Calm.require rfl) fun _ _ =>
      Calm.bind (Calm.require (atomicTy_same hs eqref_in h)) fun _ _ => ?_
    exact Calm.bind (calm_popT hs h) fun _ _ => Calm.bind (calm_popT hs h) fun _ _ => calm_push h
  case tableAtomicGet =>
    exact Calm.bind (calm_visitTableGet hf hs) fun _ _ => calm_tableElem hf hs anyref_in
  case tableAtomicSet =>
    exact Calm.bind (calm_visitTableSet hf hs) fun _ _ => calm_tableElem hf hs anyref_in
  case tableAtomicRmwXchg =>
    refine Calm.bind (calm_tableTypeAt hf) fun t ht =>
      Calm.bind (Calm.require (hs.sub (.ref t.elem) _ ht anyref_in)) fun _ _ => ?_
    calm
  case tableAtomicRmwCmpxchg =>
    refine Calm.bind (calm_tableTypeAt hf) fun t ht =>
      Calm.bind (Calm.require (hs.sub (.ref t.elem) _ ht eqref_in)) fun _ _ => ?_
    calm
  case arrayAtomicGet =>
    exact Calm.bind (calm_visitArrayGet hf hs) fun _ _ => Calm.bind (calm_arrayTypeAt hf) fun _ h =>
      (Calm.require (atomicStorage_same hs anyref_in h)).unit
  case arrayAtomicSet =>
    exact Calm.bind (calm_visitArraySet hf hs) fun _ _ => Calm.bind (calm_arrayTypeAt hf) fun _ h =>
      (Calm.require (atomicStorageSet_same hs anyref_in h)).unit
  case arrayAtomicGetS => exact calm_visitArrayGet hf hs
  case arrayAtomicGetU => exact calm_visitArrayGet hf hs
  case arrayAtomicRmwXchg =>
    refine Calm.bind (calm_mutableArrayTypeAt hf) fun _ h =>
      Calm.bind (Calm.require (atomicStorage_same hs anyref_in h)) fun _ _ => ?_
    calm
  case arrayAtomicRmwCmpxchg =>
    refine Calm.bind (calm_mutableArrayTypeAt hf) fun _ h =>
      Calm.bind (Calm.require (atomicStorage_same hs eqref_in h)) fun _ _ => ?_
    calm
  all_goals first | exact hr | exact calm_checkArrayAtomicRmw hf hs

theorem calm_visitAtomic2 (hf : Fine E.R n) (hs : Same E.R n A) {o : Instr.Atomic2}
    {i j : BitVec 32} : CalmU E n (visitAtomic2 E o i j) (visitAtomic2 (alt E A) o i j) := by
  cases o
  case structAtomicGet =>
    exact Calm.bind (calm_visitStructGet hf hs) fun _ _ => Calm.bind (calm_structFieldAt hf)
      fun _ h => (Calm.require (atomicStorage_same hs anyref_in h)).unit
  case structAtomicSet =>
    exact Calm.bind (calm_visitStructSet hf hs) fun _ _ => Calm.bind (calm_structFieldAt hf)
      fun _ h => (Calm.require (atomicStorageSet_same hs anyref_in h)).unit
  case structAtomicGetS => exact calm_visitStructGet hf hs
  case structAtomicGetU => exact calm_visitStructGet hf hs
  case structAtomicRmwXchg =>
    refine Calm.bind (calm_mutableStructFieldAt hf) fun _ h =>
      Calm.bind (Calm.require (atomicStorage_same hs anyref_in h)) fun _ _ => ?_
    calm
  case structAtomicRmwCmpxchg =>
    refine Calm.bind (calm_mutableStructFieldAt hf) fun _ h =>
      Calm.bind (Calm.require (atomicStorage_same hs eqref_in h)) fun _ _ => ?_
    calm
  all_goals exact calm_checkStructAtomicRmw hf hs

/-! ## All operators -/

/-- An operator that comes from the bytes of a module: its types are those of a module. -/
def ModularOp : Operator → Prop
  | .block _ t | .tryTable t _ => ModularBlock t
  | .heap _ h => Modular h
  | .cast _ _ a b => ModularRef a ∧ ModularRef b
  | .typedSelect t => ModularVal t
  | _ => True

/-- An operator that fits the kind of the innermost frame. -/
def FitsKind (S : St) : Operator → Prop
  | .delegate _ => S.kinds.head? = some .legacyTry
  | _ => True

theorem CalmU.trip0 {m m' : M Unit} (h : CalmU E n m m') {J : St → Prop} :
    Trip (fun S => Wf E n S ∧ J S) m m' fun _ S => Wf0 E n S :=
  Trip.pre (Trip.weaken h fun _ _ h => h.1.toWf0) fun _ h => h.1

theorem calm_visit (hf : Fine E.R n) (hs : Same E.R n A) {o : Operator} (ho : ModularOp o) :
    Trip (fun S => Wf E n S ∧ FitsKind S o) (visit E o) (visit (alt E A) o)
      fun _ S => Wf0 E n S := by
  cases o with
  | plain o => exact CalmU.trip0 (calm_runPlain hf hs (plain_vals o))
  | else_ => exact CalmU.trip0 (calm_visitElse hf hs)
  | end_ => exact Trip.pre (calm_visitEnd hf hs) fun _ h => h.1
  | catchAll => exact CalmU.trip0 (trip_catchFrame hf hs (by decide))
  | atomicFence => exact CalmU.trip0 (Calm.pure trivial)
  | block o t => exact CalmU.trip0 (calm_visitBlk hf hs ho)
  | tryTable t cs => exact CalmU.trip0 (calm_visitTryTable hf hs ho)
  | idx o i => exact CalmU.trip0 (calm_visitIdx hf hs)
  | catch_ t => exact CalmU.trip0 (calm_visitCatch hf hs)
  | delegate d => exact Trip.weaken (calm_visitDelegate hf hs) fun _ _ h => h.1.toWf0
  | memorySize i =>
    exact CalmU.trip0 (Calm.bind calm_checkMemoryIndex fun _ h => calm_push h)
  | memoryGrow i =>
    exact CalmU.trip0 (Calm.bind calm_checkMemoryIndex fun _ h => Calm.bind (calm_popT hs h)
      fun _ _ => calm_push h)
  | idx2 o i j => exact CalmU.trip0 (calm_visitIdx2 hf hs)
  | callIndirect i j =>
    exact CalmU.trip0 (Calm.bind (calm_checkCallIndirectTy hf hs) fun _ h => calm_checkCallTy hs h)
  | returnCallIndirect i j =>
    exact CalmU.trip0 (Calm.bind (calm_checkCallIndirectTy hf hs) fun _ h =>
      calm_checkReturnCallTy hf hs h)
  | memoryInit i j =>
    exact CalmU.trip0 (Calm.bind calm_checkMemoryIndex fun _ h => Calm.bind calm_checkDataSegment
      fun _ _ => Calm.bind (calm_popT hs (numeric_in rfl)) fun _ _ =>
        Calm.bind (calm_popT hs (numeric_in rfl)) fun _ _ => calm_popT hs h)
  | tableInit i j => exact CalmU.trip0 (calm_visitTableInit hf hs)
  | brTable t => exact CalmU.trip0 (calm_visitBrTable hf hs)
  | mem o m => exact CalmU.trip0 (calm_runMem hs (mem_vals o))
  | memLane o m l => exact CalmU.trip0 (calm_runMemLane hs)
  | lane o l => exact CalmU.trip0 (calm_runLane hs (lane_vals o))
  | i8x16Shuffle ls =>
    exact CalmU.trip0 (Calm.bind (calm_popT hs (numeric_in rfl)) fun _ _ =>
      Calm.bind (calm_popT hs (numeric_in rfl)) fun _ _ =>
        Calm.bind (Calm.each fun _ _ => (Calm.require rfl).unit) fun _ _ =>
          calm_push (numeric_in rfl))
  | heap o h => exact CalmU.trip0 (calm_visitHeap hf hs ho)
  | cast o d f t => exact CalmU.trip0 (calm_visitCast hf hs ho.1 ho.2)
  | atomic o _ i => exact CalmU.trip0 (calm_visitAtomic hf hs)
  | atomic2 o _ i j => exact CalmU.trip0 (calm_visitAtomic2 hf hs)
  | i32Const _ => exact CalmU.trip0 (calm_push (numeric_in rfl))
  | i64Const _ => exact CalmU.trip0 (calm_push (numeric_in rfl))
  | f32Const _ =>
    exact CalmU.trip0 (Calm.bind calm_checkFloatsEnabled fun _ _ => calm_push (numeric_in rfl))
  | f64Const _ =>
    exact CalmU.trip0 (Calm.bind calm_checkFloatsEnabled fun _ _ => calm_push (numeric_in rfl))
  | v128Const _ => exact CalmU.trip0 (calm_push (numeric_in rfl))
  | typedSelect t => exact CalmU.trip0 (calm_visitTypedSelect hf hs ho)
  | typedSelectMulti _ => exact CalmU.trip0 Calm.fail
  | resume i h => exact CalmU.trip0 (calm_visitResume hf hs)
  | resumeThrow i t h => exact CalmU.trip0 (calm_visitResumeThrow hf hs)
  | resumeThrowRef i h => exact CalmU.trip0 (calm_visitResumeThrowRef hf hs)

theorem calm_op (hf : Fine E.R n) (hs : Same E.R n A) {o : Operator} (ho : ModularOp o) :
    Trip (fun S => Wf E n S ∧ FitsKind S o) (op E o) (op (alt E A) o) fun _ S => Wf0 E n S := by
  unfold op
  show Trip _ (require (E.f.has (proposal o)) >>= fun _ => _)
    (require (E.f.has (proposal o)) >>= fun _ => _) _
  cases E.f.has (proposal o) with
  | false => exact Trip.fail
  | true => exact calm_visit hf hs ho

end Verif.Op.Calm
