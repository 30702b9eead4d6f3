import Verif.Op.Gate
import Verif.Op.OpOnly
/-! Computations of the operator validator that do not panic.

Questions about types (`isSubtype`, `isShared`, `topType`) have answers for all arguments in the
model, but the code panics on identifiers that are not in the list of types. A computation is
therefore compared with one that gets other answers to those questions: what happens must not
depend on them. -/
namespace Verif.Op.Calm
open Verif.Types (AbsHeap UnpackedIndex HeapType RefType ValType)
open Verif.Instr (FrameKind BlockType MemArg Catch Handle BrTable Operator)
open Verif.TypeList.Spec (Field Storage Comp SubT)

/-! ## Types with small identifiers -/

/-- The identifiers are below `n`. -/
abbrev HeapIn (n : Nat) (h : Heap) : Prop := ∀ i ∈ h.refs, i < n
/-- The identifiers are below `n`. -/
abbrev ValIn (n : Nat) (v : Val) : Prop := ∀ i ∈ v.refs, i < n
/-- The identifiers are below `n`. -/
abbrev RefIn (n : Nat) (r : Ref) : Prop := HeapIn n r.heap
/-- The identifiers are below `n`. -/
abbrev ValsIn (n : Nat) (vs : List Val) : Prop := ∀ v ∈ vs, ValIn n v
/-- The identifiers are below `n`. -/
def MTIn (n : Nat) : MT → Prop
  | .known v => ValIn n v
  | _ => True
/-- The identifiers are below `n`. -/
def MRIn (n : Nat) : MR → Prop
  | .known r => RefIn n r
  | _ => True
/-- The identifiers are below `n`. -/
def BTIn (n : Nat) : BT → Prop
  | .type v => ValIn n v
  | _ => True
/-- The identifiers are below `n`. -/
abbrev FieldIn (n : Nat) (f : Field Nat) : Prop := ValIn n (unpack f.storage)
/-- The identifiers are below `n`. -/
abbrev FuncIn (n : Nat) (t : FuncTy) : Prop := ValsIn n t.params ∧ ValsIn n t.results

/-- A heap type that comes from the bytes of a module. -/
def Modular : HeapType → Prop
  | .abstract .. => True
  | .concrete u | .exact u => ∃ i, u = .module i

/-- A reference type that comes from the bytes of a module. -/
def ModularRef (r : RefType) : Prop := ∃ h, r.heapType = some h ∧ Modular h

/-- A value type that comes from the bytes of a module. -/
def ModularVal : ValType → Prop
  | .ref r => ModularRef r
  | _ => True

theorem numeric_in {n : Nat} {v : Val} (h : isNumericOrVector v = true) : ValIn n v := by
  cases v with
  | ref => cases h
  | _ => nofun

theorem abs_in {n : Nat} {b s : Bool} {a : AbsHeap} : ValIn n (.ref ⟨b, .abs s a⟩) := nofun

/-! ## Modules -/

/-- A type whose identifiers are below `n`; a continuation is one of a function. -/
structure SubFine (R : Resources) (n : Nat) (s : SubT Nat) : Prop where
  refs : ∀ i ∈ s.refs, i < n
  cont : ∀ c, s.comp = .cont c → ∃ t ps rs, R.subTypeAtId c = some t ∧ t.comp = .func ps rs

/-- The answers about a module have identifiers below `n`, for which there are types. -/
structure Fine (R : Resources) (n : Nat) : Prop where
  small : n ≤ 2 ^ 20
  sub : ∀ i s, R.subTypeAt i = some s → SubFine R n s
  subId : ∀ c s, R.subTypeAtId c = some s → SubFine R n s
  defined : ∀ c, c < n → (R.subTypeAtId c).isSome
  tag : ∀ i t, R.tagAt i = some t → FuncIn n t
  global : ∀ i g, R.globalAt i = some g → ValIn n g.content
  table : ∀ i t, R.tableAt i = some t → RefIn n t.elem
  elem : ∀ i r, R.elementTypeAt i = some r → RefIn n r
  func : ∀ i id, R.typeIdOfFunction i = some id → id < n
  abs : ∀ s a, R.checkHeapType (.abstract s a) = .ok (.abs s a)
  concrete : ∀ i, R.checkHeapType (.concrete (.module i)) = .error .error ∨
    ∃ id, id < n ∧ R.checkHeapType (.concrete (.module i)) = .ok (.concrete id)
  exact : ∀ i, R.checkHeapType (.exact (.module i)) = .error .error ∨
    ∃ id, id < n ∧ R.checkHeapType (.exact (.module i)) = .ok (.exact id)
  top : ∀ h, HeapIn n h → ∃ s a, R.topType h = .abs s a

/-- Other answers to the questions about types. -/
structure Answers where
  sub : Val → Val → Bool
  shared : Ref → Bool
  top : Heap → Heap

/-- The answers are the same on types with identifiers below `n`. -/
structure Same (R : Resources) (n : Nat) (A : Answers) : Prop where
  sub : ∀ a b, ValIn n a → ValIn n b → A.sub a b = R.isSubtype a b
  shared : ∀ r, RefIn n r → A.shared r = R.isShared r
  top : ∀ h, HeapIn n h → A.top h = R.topType h

/-- The environment with other answers. -/
def alt (E : Env) (A : Answers) : Env :=
  { E with R := { E.R with isSubtype := A.sub, isShared := A.shared, topType := A.top } }

/-! ## States -/

/-- Frames nest: heights go down, and are below the given numbers of operands and of
initialized locals. -/
def Nested : List Frame → Nat → Nat → Prop
  | [], _, _ => True
  | fr :: c, k, i => fr.height ≤ k ∧ fr.initHeight ≤ i ∧ Nested c fr.height fr.initHeight

/-- What holds of the states between two calls, but for a frame being there. -/
structure Wf0 (E : Env) (n : Nat) (S : St) : Prop where
  nested : Nested S.control S.operands.length S.inits.inits.length
  blocks : ∀ fr ∈ S.control, BTIn n fr.blockType
  operands : ∀ t ∈ S.operands, MTIn n t
  locals : ∀ i t, S.locals.get E.bs i = some t → ValIn n t ∧ i.toNat < S.inits.localInits.length
  bottom : ∀ fr, S.control.getLast? = some fr → fr.kind ≠ .legacyTry

/-- What holds of the states before each operator. -/
structure Wf (E : Env) (n : Nat) (S : St) : Prop extends Wf0 E n S where
  frame : S.control ≠ []

/-! ## Triples -/

/-- From states with `I`, the two computations do the same, do not panic, and if they succeed
they establish `Q`. -/
def Trip {α : Type} (I : St → Prop) (m m' : M α) (Q : α → St → Prop) : Prop :=
  ∀ S, I S → m' S = m S ∧ (m S).1 ≠ .error .panic ∧ ∀ a S', m S = (.ok a, S') → Q a S'

/-- A computation that keeps states as they should be, and whose result has `P`. -/
abbrev Calm {α : Type} (E : Env) (n : Nat) (m m' : M α) (P : α → Prop) : Prop :=
  Trip (Wf E n) m m' fun a S => Wf E n S ∧ P a

/-- A computation without a result. -/
abbrev CalmU (E : Env) (n : Nat) (m m' : M Unit) : Prop := Calm E n m m' fun _ => True

variable {α β : Type} {I : St → Prop}

theorem Trip.bind {m m' : M α} {k k' : α → M β} {P : α → St → Prop} {Q : β → St → Prop}
    (h : Trip I m m' P) (hk : ∀ a, Trip (P a) (k a) (k' a) Q) :
    Trip I (m >>= k) (m' >>= k') Q := by
  intro S hS
  obtain ⟨h1, h2, h3⟩ := h S hS
  rw [bind_def, bind_def, h1]
  rcases hm : m S with ⟨r, S1⟩
  rw [hm] at h2 h3
  cases r with
  | error e => exact ⟨rfl, fun he => h2 (by cases he; rfl), nofun⟩
  | ok a => exact hk a S1 (h3 a S1 rfl)

theorem Trip.weaken {m m' : M α} {P Q : α → St → Prop} (h : Trip I m m' P)
    (hq : ∀ a S, P a S → Q a S) : Trip I m m' Q := fun S hS =>
  let ⟨h1, h2, h3⟩ := h S hS
  ⟨h1, h2, fun a S' he => hq a S' (h3 a S' he)⟩

theorem Trip.pre {I' : St → Prop} {m m' : M α} {P : α → St → Prop} (h : Trip I m m' P)
    (hi : ∀ S, I' S → I S) : Trip I' m m' P := fun S hS => h S (hi S hS)

theorem Trip.pure {a : α} {Q : α → St → Prop} (h : ∀ S, I S → Q a S) :
    Trip I (pure a) (pure a) Q := fun S hS =>
  ⟨rfl, nofun, fun _ _ he => by cases he; exact h S hS⟩

theorem Trip.fail {Q : α → St → Prop} : Trip I (fail .error) (fail .error) Q := fun _ _ =>
  ⟨rfl, nofun, nofun⟩

/-- The precondition is what one has. -/
theorem Trip.of {m m' : M α} {Q : α → St → Prop} (h : ∀ S, I S → Trip (fun S' => S' = S) m m' Q) :
    Trip I m m' Q := fun S hS => h S hS S rfl

theorem Trip.getS {k k' : St → M β} {Q : β → St → Prop}
    (h : ∀ S, I S → k' S S = k S S ∧ (k S S).1 ≠ .error .panic ∧
      ∀ a S', k S S = (.ok a, S') → Q a S') : Trip I (getS >>= k) (getS >>= k') Q :=
  fun S hS => h S hS

variable {E : Env} {n : Nat} {A : Answers}

theorem Calm.bind {m m' : M α} {k k' : α → M β} {P : α → Prop} {Q : β → Prop}
    (h : Calm E n m m' P) (hk : ∀ a, P a → Calm E n (k a) (k' a) Q) :
    Calm E n (m >>= k) (m' >>= k') Q :=
  Trip.bind h fun a S hS => hk a hS.2 S hS.1

theorem Calm.bindU {m m' : M α} {k k' : α → M Unit} {P : α → Prop}
    (h : Calm E n m m' P) (hk : ∀ a, P a → CalmU E n (k a) (k' a)) :
    CalmU E n (m >>= k) (m' >>= k') := Calm.bind h hk

theorem Calm.weaken {m m' : M α} {P Q : α → Prop} (h : Calm E n m m' P) (hq : ∀ a, P a → Q a) :
    Calm E n m m' Q := Trip.weaken h fun a _ hs => ⟨hs.1, hq a hs.2⟩

theorem Calm.unit {m m' : M Unit} {P : Unit → Prop} (h : Calm E n m m' P) : CalmU E n m m' :=
  h.weaken fun _ _ => trivial

theorem Calm.pure {a : α} {P : α → Prop} (h : P a) : Calm E n (pure a) (pure a) P :=
  Trip.pure fun _ hS => ⟨hS, h⟩

theorem Calm.fail {P : α → Prop} : Calm E n (fail .error) (fail .error) P := Trip.fail

theorem Calm.ite {c : Prop} [Decidable c] {a b a' b' : M α} {P : α → Prop}
    (h1 : c → Calm E n a a' P) (h2 : ¬ c → Calm E n b b' P) :
    Calm E n (if c then a else b) (if c then a' else b') P := by
  split
  · next h => exact h1 h
  · next h => exact h2 h

theorem Calm.map {f : α → β} {m m' : M α} {P : α → Prop} {Q : β → Prop} (h : Calm E n m m' P)
    (hq : ∀ a, P a → Q (f a)) : Calm E n (f <$> m) (f <$> m') Q :=
  Calm.bind h fun _ ha => Calm.pure (hq _ ha)

theorem Calm.require {b b' : Bool} (h : b' = b) :
    Calm E n (require b) (require b') fun _ => b = true := by
  subst h
  unfold Op.require
  split
  · next h => exact Calm.pure h
  · exact Calm.fail

theorem Calm.orError {o : Option α} {P : α → Prop} (h : ∀ a, o = some a → P a) :
    Calm E n (orError o) (orError o) P := by
  cases o with
  | none => exact Calm.fail
  | some a => exact Calm.pure (h a rfl)

theorem Calm.orPanic {o : Option α} {P : α → Prop} (h : ∃ a, o = some a ∧ P a) :
    Calm E n (orPanic o) (orPanic o) P := by
  obtain ⟨a, rfl, h⟩ := h
  exact Calm.pure h

theorem Calm.each {g g' : α → M Unit} {xs : List α} (h : ∀ x ∈ xs, CalmU E n (g x) (g' x)) :
    CalmU E n (each g xs) (each g' xs) := by
  induction xs with
  | nil => exact Calm.pure trivial
  | cons x xs ih =>
    exact Calm.bind (h x (by simp)) fun _ _ => ih fun y hy => h y (by simp [hy])

/-- A computation that does not change the state. -/
theorem Calm.same {m m' : M α} {P : α → Prop} (h : ∀ S, Wf E n S → m' S = m S ∧
    (m S).1 ≠ .error .panic ∧ ∀ a S', m S = (.ok a, S') → S' = S ∧ P a) : Calm E n m m' P :=
  fun S hS => ⟨(h S hS).1, (h S hS).2.1, fun a S' he => by
    obtain ⟨rfl, hp⟩ := (h S hS).2.2 a S' he
    exact ⟨hS, hp⟩⟩

/-! ## Steps -/

/-- A step of a proof; grows with the lemmas. -/
syntax "calm_step" : tactic
macro_rules | `(tactic| calm_step) => `(tactic| with_reducible exact Calm.pure trivial)
macro_rules | `(tactic| calm_step) => `(tactic| with_reducible exact Calm.fail)
macro_rules | `(tactic| calm_step) => `(tactic| with_reducible
  (apply Calm.bindU; rotate_left; intro _ _; rotate_right))
macro_rules | `(tactic| calm_step) => `(tactic| with_reducible refine Calm.unit (Calm.require ?_))

/-- Closing a side condition. -/
syntax "calm_in" : tactic
macro_rules | `(tactic| calm_in) => `(tactic| rfl)
macro_rules | `(tactic| calm_in) => `(tactic| exact numeric_in rfl)
macro_rules | `(tactic| calm_in) => `(tactic| exact abs_in)
macro_rules | `(tactic| calm_in) => `(tactic| exact And.right (by assumption))
macro_rules | `(tactic| calm_in) => `(tactic| exact And.left (by assumption))
macro_rules | `(tactic| calm_in) => `(tactic| assumption)

/-- A proof by the structure of the computation. -/
macro "calm" : tactic => `(tactic| repeat' (first | calm_step | calm_in))

/-! ## Operands -/

theorem Wf.ops {S : St} (h : Wf E n S) {ops : List MT} {lg : Option Log}
    (hn : ∀ fr c, S.control = fr :: c → fr.height ≤ ops.length) (ho : ∀ t ∈ ops, MTIn n t) :
    Wf E n { S with operands := ops, log := lg } where
  nested := by
    have := h.nested
    cases hc : S.control with
    | nil => trivial
    | cons fr c =>
      rw [hc] at this
      exact ⟨hn fr c hc, this.2⟩
  blocks := h.blocks
  operands := ho
  locals := h.locals
  bottom := h.bottom
  frame := h.frame

theorem Wf.height {S : St} (h : Wf E n S) {fr : Frame} {c : List Frame} (hc : S.control = fr :: c) :
    fr.height ≤ S.operands.length := by
  have := h.nested
  rw [hc] at this
  exact this.1

theorem calm_pushMT {t : MT} (ht : MTIn n t) : CalmU E n (pushMT t) (pushMT t) := by
  intro S hS
  refine ⟨rfl, nofun, ?_⟩
  intro a S' h
  cases h
  refine ⟨hS.ops (fun fr c hc => ?_) ?_, trivial⟩
  · have := hS.height hc
    simp only [List.length_cons]
    omega
  · intro x hx
    rcases List.mem_cons.1 hx with rfl | hx
    · exact ht
    · exact hS.operands x hx

theorem calm_push {t : Val} (ht : ValIn n t) : CalmU E n (push t) (push t) := calm_pushMT ht
theorem calm_pushRef {t : Ref} (ht : RefIn n t) : CalmU E n (pushRef t) (pushRef t) :=
  calm_pushMT (t := .known (.ref t)) ht

theorem calm_pushAll {ts : List Val} (ht : ValsIn n ts) : CalmU E n (pushAll ts) (pushAll ts) :=
  Calm.each fun x hx => calm_push (ht x hx)

theorem checkPopped_same (hs : Same E.R n A) {x : Option Val} {t : MT}
    (hx : ∀ v, x = some v → ValIn n v) (ht : MTIn n t) :
    checkPopped (alt E A) x t = checkPopped E x t := by
  unfold checkPopped
  cases x with
  | none => rfl
  | some v =>
    cases t with
    | bottom => rfl
    | known w => exact hs.sub _ _ ht (hx v rfl)
    | unknownRef ty =>
      cases v with
      | ref r =>
        cases ty with
        | none => rfl
        | some h =>
          have h1 : RefIn n r := hx _ rfl
          show A.sub (.ref ⟨false, .abs (A.shared r) h⟩) _ = E.R.isSubtype _ _
          rw [hs.shared _ h1]
          exact hs.sub _ _ nofun h1
      | _ => rfl

theorem calm_pop (hs : Same E.R n A) {x : Option Val} (hx : ∀ v, x = some v → ValIn n v) :
    Calm E n (pop E x) (pop (alt E A) x) (MTIn n) := by
  intro S hS
  cases hc : S.control with
  | nil => exact absurd hc hS.frame
  | cons fr c =>
  have hh := hS.height hc
  unfold pop
  cases hp : popFast x S with
  | some p =>
    obtain ⟨t, ops⟩ := p
    dsimp only
    refine ⟨rfl, nofun, ?_⟩
    intro a S' h
    cases h
    unfold popFast at hp
    split at hp
    · next t' ops' ho =>
      split at hp
      · rw [hc] at hp
        dsimp only at hp
        split at hp
        · next hle =>
          cases hp
          have h1 := hS.operands
          rw [ho] at h1
          refine ⟨hS.ops (fun fr' c' hc' => ?_) fun x hx => h1 x (by simp [hx]), h1 _ (by simp)⟩
          rw [hc] at hc'
          cases hc'
          exact hle
        · cases hp
      · cases hp
    · cases hp
  | none =>
    dsimp only
    have hops : S.operands.head?.toList ++ S.operands.tail = S.operands := by
      cases S.operands <;> rfl
    unfold popSlow
    dsimp only
    rw [hops, hc]
    dsimp only
    by_cases h1 : S.operands.length = fr.height ∧ fr.unreachable = true
    · simp only [if_pos h1]
      refine ⟨trivial, nofun, ?_⟩
      intro a S' h
      cases h
      refine ⟨?_, trivial⟩
      exact hc ▸ hS
    · simp only [if_neg h1]
      by_cases h2 : S.operands.length = fr.height
      · simp only [if_pos h2]
        exact ⟨trivial, nofun, nofun⟩
      · simp only [if_neg h2]
        cases ho : S.operands with
        | nil => rw [ho] at hh h2; simp only [List.length_nil] at hh h2; omega
        | cons t ops =>
          have h3 := hS.operands
          rw [ho] at h3
          have ht := h3 t (by simp)
          dsimp only
          rw [checkPopped_same hs hx ht]
          refine ⟨rfl, ?_, ?_⟩
          · split <;> nofun
          · intro a S' h
            split at h
            · cases h
              refine ⟨?_, ht⟩
              have := hS.ops (ops := ops) (lg := S.log.map fun L =>
                { L with operands := some t :: L.operands }) (fun fr' c' hc' => ?_)
                fun x hx => h3 x (by simp [hx])
              · rw [← hc]
                exact this
              · rw [hc] at hc'
                cases hc'
                rw [ho] at hh h2
                simp only [List.length_cons] at hh h2
                omega
            · cases h

theorem calm_popT (hs : Same E.R n A) {t : Val} (ht : ValIn n t) :
    CalmU E n (popT E t) (popT (alt E A) t) :=
  Calm.bind (calm_pop hs (by rintro v ⟨⟩; exact ht)) fun _ _ => Calm.pure trivial

theorem calm_popAll (hs : Same E.R n A) {ts : List Val} (ht : ValsIn n ts) :
    CalmU E n (popAll E ts) (popAll (alt E A) ts) :=
  Calm.each fun x hx => calm_popT hs (ht x (by simpa using hx))

macro_rules | `(tactic| calm_step) => `(tactic| with_reducible refine calm_push ?_)
macro_rules | `(tactic| calm_step) => `(tactic| with_reducible refine calm_pushRef ?_)
macro_rules | `(tactic| calm_step) => `(tactic| with_reducible refine calm_pushMT ?_)
macro_rules | `(tactic| calm_step) => `(tactic| with_reducible refine calm_pushAll ?_)
macro_rules | `(tactic| calm_step) => `(tactic| with_reducible refine calm_popT (by assumption) ?_)
macro_rules | `(tactic| calm_step) => `(tactic| with_reducible refine calm_popAll (by assumption) ?_)

end Verif.Op.Calm
