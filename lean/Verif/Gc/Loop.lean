import Verif.Gc.LiveLemmas
/-! The loops of `liveness`. -/
namespace Verif.Gc
open Verif.Reader Verif.Instr Verif.Items Verif.Reenc Verif.Reenc.Spec Spec

variable {f : Instr.Features} {m : Module}

/-! ### Success of the visitor -/

theorem heap_total (L : Live) {t : Types.HeapType} (h : HeapFine t) : ∃ L', L.heapty t = .ok L' := by
  cases t with
  | abstract => exact ⟨_, rfl⟩
  | concrete u => obtain ⟨i, rfl⟩ := h; exact ⟨_, rfl⟩
  | exact u => obtain ⟨i, rfl⟩ := h; exact ⟨_, rfl⟩

theorem ref_total (L : Live) {t : Types.RefType} (h : RefFine t) : ∃ L', L.refty t = .ok L' := by
  obtain ⟨h, e, g⟩ := h
  unfold Live.refty
  rw [e]
  exact heap_total L g

theorem val_total (L : Live) {t : Types.ValType} (h : ValFine t) : ∃ L', L.valty t = .ok L' := by
  cases t with
  | ref r => exact ref_total L h
  | _ => exact ⟨_, rfl⟩

theorem vals_total {ts : List Types.ValType} : ∀ (L : Live), (∀ t ∈ ts, ValFine t) →
    ∃ L', L.valtys ts = .ok L' := by
  induction ts with
  | nil => intro L _; exact ⟨_, rfl⟩
  | cons t ts ih =>
    intro L h
    obtain ⟨L1, e⟩ := val_total L (h t List.mem_cons_self)
    unfold Live.valtys
    rw [e]
    exact ih L1 fun x hx => h x (List.mem_cons_of_mem _ hx)

theorem visit_total (L : Live) {op : Operator} (h : OpFine op) : ∃ L', L.visit op = .ok L' := by
  cases op
  case heap => exact heap_total L h
  case cast o d a b =>
    obtain ⟨L1, e1⟩ := ref_total L h.1
    obtain ⟨L2, e2⟩ := ref_total L1 h.2
    refine ⟨L2, ?_⟩
    rw [show L.visit (.cast o d a b) = (match L.refty a with
      | .error e => .error e | .ok L' => L'.refty b) from rfl, e1]
    exact e2
  case typedSelect => exact val_total L h
  case typedSelectMulti => exact vals_total L h
  case tryTable => exact h.elim
  case resume => exact h.elim
  case resumeThrow => exact h.elim
  case resumeThrowRef => exact h.elim
  all_goals exact ⟨_, rfl⟩

/-! ### Operators -/

theorem operators_ext : ∀ {n : Nat} {s : OperatorsReader} {L L' : Live},
    operatorsFrom f n s L = .ok L' → ∃ ops s', OperatorsReader.collectFrom f n s = .ok (ops, s') ∧
      s'.finish = .ok () ∧ ∃ S, Ext L L' S ∧ (∀ x ∈ S, ∃ op ∈ ops, x ∈ opRefs op) ∧
      ((∀ op ∈ ops, OpSimple op) → ∀ op ∈ ops, ∀ x ∈ opRefs op, collected x.1 = true → x ∈ S) := by
  intro n
  induction n with
  | zero =>
    intro s L L' h
    unfold operatorsFrom at h
    split at h
    · cases h
    · next e =>
      cases h
      exact ⟨[], s, rfl, e, [], .refl _ (by simp), by simp, by simp⟩
  | succ n ih =>
    intro s L L' h
    unfold operatorsFrom at h
    unfold OperatorsReader.collectFrom
    split at h
    · next he =>
      split at h
      · cases h
      · next e =>
        cases h
        rw [if_pos he]
        exact ⟨[], s, rfl, e, [], .refl _ (by simp), by simp, by simp⟩
    · next he =>
      rw [if_neg he]
      split at h
      · cases h
      · next op s' er =>
        split at h
        · cases h
        · next L1 ev =>
          obtain ⟨ops, s2, h1, h2, S, h3, h4, h5⟩ := ih h
          obtain ⟨S1, g1, g2, g3⟩ := visit_ext ev
          refine ⟨op :: ops, s2, by simp only [er, h1], h2, S1 ++ S, g1.trans h3, ?_, ?_⟩
          · intro x hx
            rcases List.mem_append.1 hx with hx | hx
            · exact ⟨op, List.mem_cons_self, g2 x hx⟩
            · obtain ⟨o, ho, h⟩ := h4 x hx
              exact ⟨o, List.mem_cons_of_mem _ ho, h⟩
          · intro hs o ho x hx hc
            rcases List.mem_cons.1 ho with rfl | ho
            · exact List.mem_append.2 (.inl (g3 (hs _ List.mem_cons_self) x hx hc))
            · exact List.mem_append.2 (.inr (h5 (fun o h => hs o (List.mem_cons_of_mem _ h)) o ho
                x hx hc))

theorem operators_total : ∀ {n : Nat} {s s' : OperatorsReader} {ops : List Operator} (L : Live),
    OperatorsReader.collectFrom f n s = .ok (ops, s') → s'.finish = .ok () →
    (∀ op ∈ ops, OpFine op) → ∃ L', operatorsFrom f n s L = .ok L' := by
  intro n
  induction n with
  | zero =>
    intro s s' ops L h1 h2 _
    cases h1
    exact ⟨L, by unfold operatorsFrom; rw [h2]⟩
  | succ n ih =>
    intro s s' ops L h1 h2 h3
    unfold OperatorsReader.collectFrom at h1
    unfold operatorsFrom
    split at h1
    · next he =>
      cases h1
      rw [if_pos he, h2]
      exact ⟨L, rfl⟩
    · next he =>
      rw [if_neg he]
      split at h1
      · cases h1
      · next op s1 er =>
        split at h1
        · cases h1
        · next ops1 s2 ec =>
          cases h1
          obtain ⟨L1, e1⟩ := visit_total L (h3 op List.mem_cons_self)
          obtain ⟨L2, e2⟩ := ih L1 ec h2 fun o h => h3 o (List.mem_cons_of_mem _ h)
          refine ⟨L2, ?_⟩
          simp only [er, e1]
          exact e2

/-! ### Steps -/

/-- The entry of the worklist is an item of the module. -/
def Exists (m : Module) : BitVec 32 × Kind → Prop
  | (i, .func) => i.toNat < m.funcs.length
  | (i, .global) => i.toNat < m.globals.length
  | (i, .table) => i.toNat < m.tables.length
  | (i, .type) => i.toNat < m.types.length

theorem lt_of_get {xs : List α} {i : Nat} {a : α} (h : xs[i]? = some a) : i < xs.length :=
  (List.getElem?_eq_some_iff.1 h).1

theorem step_ext {L L' : Live} {w : BitVec 32 × Kind} (h : liveStep f m L w = .ok L') :
    Exists m w ∧ ∃ S, Ext L L' S ∧ (∀ x ∈ S, Refs f m (itemOf w) x) ∧
      (Simple f m → ∀ x, Refs f m (itemOf w) x → collected x.1 = true → x ∈ S) := by
  obtain ⟨i, k⟩ := w
  cases k with
  | func =>
    replace h : liveFunc f m L i = .ok L' := h
    unfold liveFunc at h
    split at h
    · cases h
    · next fn ef =>
      refine ⟨lt_of_get ef, ?_⟩
      have hmem := List.mem_of_getElem? ef
      split at h
      · next mm nn ed =>
        cases h
        refine ⟨_, ext_type _ _, ?_, ?_⟩
        · intro x hx
          cases List.mem_singleton.1 hx
          exact .funcType ef
        · intro _ x hx _
          cases hx with
          | funcType e => rw [ef] at e; cases e; simp
          | funcLocal e e' => rw [ef] at e; cases e; rw [ed] at e'; cases e'
          | funcOp e e' => rw [ef] at e; cases e; rw [ed] at e'; cases e'
      · next body ed =>
        split at h
        · cases h
        · next s es =>
          obtain ⟨ops, s', h1, -, S, h3, h4, h5⟩ := operators_ext h
          have ho : operatorsOf f body = .ok (ops, s') := by
            unfold operatorsOf; rw [es]; exact h1
          refine ⟨_, (ext_type _ _).cons h3, ?_, ?_⟩
          · intro x hx
            rcases List.mem_cons.1 hx with rfl | hx
            · exact .funcType ef
            · obtain ⟨op, g1, g2⟩ := h4 x hx
              exact .funcOp ef ed ho g1 g2
          · intro hs x hx hc
            cases hx with
            | funcType e => rw [ef] at e; cases e; simp
            | funcLocal e e' e'' g1 g2 =>
              rw [ef] at e; cases e
              rw [hs.locals _ hmem _ e' _ e'' _ g1] at g2
              cases g2
            | funcOp e e' e'' g1 g2 =>
              rw [ef] at e; cases e; rw [ed] at e'; cases e'; rw [ho] at e''; cases e''
              exact List.mem_cons_of_mem _ (h5 (hs.ops _ hmem _ ed _ _ ho) _ g1 _ g2 hc)
  | global =>
    replace h : liveGlobal f m L i = .ok L' := h
    unfold liveGlobal at h
    split at h
    · cases h
    · next g eg =>
      refine ⟨lt_of_get eg, ?_⟩
      have hmem := List.mem_of_getElem? eg
      split at h
      · next mm nn ed =>
        cases h
        refine ⟨[], .refl _ (by simp), by simp, ?_⟩
        intro hs x hx _
        cases hx with
        | globalType e g1 => rw [eg] at e; cases e; rw [hs.globals _ hmem] at g1; cases g1
        | globalOp e e' => rw [eg] at e; cases e; rw [ed] at e'; cases e'
      · next e0 ed =>
        obtain ⟨ops, s', h1, -, S, h3, h4, h5⟩ := operators_ext h
        have ho : initOps f e0 = .ok (ops, s') := h1
        refine ⟨_, h3, ?_, ?_⟩
        · intro x hx
          obtain ⟨op, g1, g2⟩ := h4 x hx
          exact .globalOp eg ed ho g1 g2
        · intro hs x hx hc
          cases hx with
          | globalType e g1 => rw [eg] at e; cases e; rw [hs.globals _ hmem] at g1; cases g1
          | globalOp e e' e'' g1 g2 =>
            rw [eg] at e; cases e; rw [ed] at e'; cases e'; rw [ho] at e''; cases e''
            exact h5 (hs.inits _ hmem _ ed _ _ ho) _ g1 _ g2 hc
  | table =>
    replace h : liveTable m L i = .ok L' := h
    unfold liveTable at h
    split at h
    · cases h
    · next t et =>
      refine ⟨lt_of_get et, _, ext_val h, ?_, ?_⟩
      · intro x hx; exact .table et hx
      · intro _ x hx _
        cases hx with
        | table e g => rw [et] at e; cases e; exact g
  | type =>
    replace h : liveType m L i = .ok L' := h
    unfold liveType at h
    split at h
    · cases h
    · next t et =>
      refine ⟨lt_of_get et, _, ext_vals h, ?_, ?_⟩
      · intro x hx
        obtain ⟨v, h1, h2⟩ := List.mem_flatMap.1 hx
        exact .type et (List.mem_append.1 h1) h2
      · intro _ x hx _
        cases hx with
        | type e g g' =>
          rw [et] at e; cases e
          exact List.mem_flatMap.2 ⟨_, List.mem_append.2 g, g'⟩

theorem step_total (L : Live) {w : BitVec 32 × Kind} (h : ItemFine f m (itemOf w)) :
    ∃ L', liveStep f m L w = .ok L' := by
  obtain ⟨i, k⟩ := w
  cases k with
  | func =>
    obtain ⟨fn, e, h⟩ := h
    show ∃ L', liveFunc f m L i = .ok L'
    unfold liveFunc
    rw [e]
    dsimp only
    split
    · exact ⟨_, rfl⟩
    · next body ed =>
      obtain ⟨ops, s, h1, h2, h3⟩ := h body ed
      unfold operatorsOf at h1
      split at h1
      · cases h1
      · next s0 es =>
        rw [es]
        exact operators_total _ h1 h2 h3
  | global =>
    obtain ⟨g, e, h⟩ := h
    show ∃ L', liveGlobal f m L i = .ok L'
    unfold liveGlobal
    rw [e]
    dsimp only
    split
    · exact ⟨_, rfl⟩
    · next e0 ed =>
      obtain ⟨ops, s, h1, h2, h3⟩ := h e0 ed
      exact operators_total _ h1 h2 h3
  | table =>
    obtain ⟨t, e, h⟩ := h
    show ∃ L', liveTable m L i = .ok L'
    unfold liveTable
    rw [e]
    exact ref_total L h
  | type =>
    obtain ⟨t, e, h⟩ := h
    show ∃ L', liveType m L i = .ok L'
    unfold liveType
    rw [e]
    exact vals_total L fun v hv => h v (List.mem_append.1 hv)

/-! ### The worklist -/

theorem live_collected {L : Live} {x : Item} (h : live L x = true) : collected x.1 = true := by
  obtain ⟨s, i⟩ := x
  cases s <;> first | rfl | cases h

theorem live_work (L : Live) (ws : List (BitVec 32 × Kind)) (x : Item) :
    live { L with work := ws } x = live L x := by
  obtain ⟨s, i⟩ := x
  cases s <;> rfl

structure Inv (f : Instr.Features) (m : Module) (L : Live) : Prop where
  sound : ∀ x, live L x = true → Reach f m x
  nd : Nd L
  done : Simple f m → ∀ w, live L (itemOf w) = true → w ∉ L.work → ∀ x, Refs f m (itemOf w) x →
    collected x.1 = true → live L x = true
  roots : ∀ e ∈ m.exports, live L (exportSpace e.kind, e.index) = true

theorem Inv.step {L L' : Live} {w : BitVec 32 × Kind} {ws : List (BitVec 32 × Kind)}
    (hi : Inv f m L) (hw : L.work = w :: ws)
    (h : liveStep f m { L with work := ws } w = .ok L') : Inv f m L' := by
  obtain ⟨-, S, h1, h2, h3⟩ := step_ext h
  have hn := hi.nd
  unfold Nd at hn
  rw [hw] at hn
  have hlw := hn.2 w List.mem_cons_self
  have mono : ∀ x, live L x = true → live L' x = true := fun x hx =>
    (h1.live x (live_collected hx)).2 (.inl ((live_work L ws x).trans hx))
  refine ⟨?_, h1.nd ⟨(List.nodup_cons.1 hn.1).2, ?_⟩, ?_, fun e he => mono _ (hi.roots e he)⟩
  · intro x hx
    rcases (h1.live x (live_collected hx)).1 hx with h | h
    · exact hi.sound x ((live_work L ws x).symm.trans h)
    · exact .step (hi.sound _ hlw) (h2 x h)
  · intro v hv
    rw [live_work]
    exact hn.2 v (List.mem_cons_of_mem _ hv)
  · intro hs v hv hvw x hx hc
    have hv' := h1.work v
    rw [live_work] at hv'
    rcases (h1.live _ (collected_item v)).1 hv with g | g
    · rw [live_work] at g
      by_cases e : v = w
      · subst e
        exact (h1.live x hc).2 (.inr (h3 hs x hx hc))
      · refine mono _ (hi.done hs v g ?_ x hx hc)
        rw [hw]
        intro hm
        rcases List.mem_cons.1 hm with h | h
        · exact e h
        · exact hvw (hv'.2 (.inl h))
    · by_cases g' : live L (itemOf v) = true
      · by_cases e : v = w
        · subst e
          exact (h1.live x hc).2 (.inr (h3 hs x hx hc))
        · refine mono _ (hi.done hs v g' ?_ x hx hc)
          rw [hw]
          intro hm
          rcases List.mem_cons.1 hm with h | h
          · exact e h
          · exact hvw (hv'.2 (.inl h))
      · exact absurd (hv'.2 (.inr ⟨g, g'⟩)) hvw

theorem loop_inv : ∀ {n : Nat} {L L' : Live}, Inv f m L → liveLoop f m n L = .ok L' →
    Inv f m L' ∧ L'.work = [] := by
  intro n
  induction n with
  | zero => intro L L' _ h; cases h
  | succ n ih =>
    intro L L' hi h
    unfold liveLoop at h
    split at h
    · next e => cases h; exact ⟨hi, e⟩
    · next w ws e =>
      split at h
      · cases h
      · next L1 e1 => exact ih (hi.step e e1) h

theorem exports_ext : ∀ {es : List Export} {L L' : Live}, liveExports L es = .ok L' →
    Ext L L' (es.map fun e => (exportSpace e.kind, e.index)) ∧ ∀ e ∈ es, e.kind ≠ .tag := by
  intro es
  induction es with
  | nil => intro L L' h; cases h; exact ⟨.refl _ (by simp), by simp⟩
  | cons e es ih =>
    intro L L' h
    unfold liveExports at h
    have main : ∀ L1, Ext L L1 [(exportSpace e.kind, e.index)] → e.kind ≠ .tag →
        liveExports L1 es = .ok L' →
        Ext L L' ((e :: es).map fun e => (exportSpace e.kind, e.index)) ∧
          ∀ e' ∈ e :: es, e'.kind ≠ .tag := by
      intro L1 h1 h2 h3
      obtain ⟨g1, g2⟩ := ih h3
      refine ⟨h1.cons g1, ?_⟩
      intro e' he'
      rcases List.mem_cons.1 he' with rfl | h
      · exact h2
      · exact g2 _ h
    split at h
    · next k => exact main _ (by rw [k]; exact ext_func _ _) (by rw [k]; decide) h
    · next k => exact main _ (by rw [k]; exact ext_func _ _) (by rw [k]; decide) h
    · next k => exact main _ (by rw [k]; exact ext_global _ _) (by rw [k]; decide) h
    · next k => exact main _ (by rw [k]; exact ext_table _ _) (by rw [k]; decide) h
    · next k => exact main _ (by rw [k]; exact ext_memory _ _) (by rw [k]; decide) h
    · cases h

theorem exports_total : ∀ {es : List Export} (L : Live), (∀ e ∈ es, e.kind ≠ .tag) →
    ∃ L', liveExports L es = .ok L' := by
  intro es
  induction es with
  | nil => intro L _; exact ⟨_, rfl⟩
  | cons e es ih =>
    intro L h
    have h' := fun e' he' => h e' (List.mem_cons_of_mem _ he')
    unfold liveExports
    split
    · exact ih _ h'
    · exact ih _ h'
    · exact ih _ h'
    · exact ih _ h'
    · exact ih _ h'
    · next k => exact absurd k (h e List.mem_cons_self)

theorem live_empty (x : Item) : live {} x = false := by
  obtain ⟨s, i⟩ := x
  cases s <;> rfl

theorem exportSpace_collected {k : ExternalKind} (h : k ≠ .tag) :
    collected (exportSpace k) = true := by
  cases k <;> first | rfl | exact absurd rfl h

theorem exports_inv {L : Live} (h : liveExports {} m.exports = .ok L) : Inv f m L := by
  obtain ⟨h1, h2⟩ := exports_ext h
  have hroot : ∀ x, live L x = true → ∃ e ∈ m.exports, (exportSpace e.kind, e.index) = x := by
    intro x hx
    rcases (h1.live x (live_collected hx)).1 hx with g | g
    · rw [live_empty] at g; cases g
    · exact List.mem_map.1 g
  refine ⟨?_, h1.nd ⟨List.nodup_nil, nofun⟩, ?_, ?_⟩
  · intro x hx
    obtain ⟨e, he, rfl⟩ := hroot x hx
    exact .root he
  · intro _ w hw hn
    refine absurd ((h1.work w).2 (.inr ⟨?_, by rw [live_empty]; decide⟩)) hn
    rcases (h1.live _ (collected_item w)).1 hw with g | g
    · rw [live_empty] at g; cases g
    · exact g
  · intro e he
    exact (h1.live _ (exportSpace_collected (h2 e he))).2 (.inr (List.mem_map.2 ⟨e, he, rfl⟩))

/-! ### Termination -/

/-- All items with an entry on the worklist. -/
def allItems (m : Module) : List (BitVec 32 × Kind) :=
  (List.range m.funcs.length).map (fun i => (BitVec.ofNat 32 i, .func)) ++
  (List.range m.globals.length).map (fun i => (BitVec.ofNat 32 i, .global)) ++
  (List.range m.tables.length).map (fun i => (BitVec.ofNat 32 i, .table)) ++
  (List.range m.types.length).map (fun i => (BitVec.ofNat 32 i, .type))

theorem mem_allItems {w : BitVec 32 × Kind} (h : Exists m w) : w ∈ allItems m := by
  obtain ⟨i, k⟩ := w
  unfold allItems
  simp only [List.mem_append, List.mem_map, List.mem_range]
  cases k with
  | func => exact .inl (.inl (.inl ⟨i.toNat, h, by simp⟩))
  | global => exact .inl (.inl (.inr ⟨i.toNat, h, by simp⟩))
  | table => exact .inl (.inr ⟨i.toNat, h, by simp⟩)
  | type => exact .inr ⟨i.toNat, h, by simp⟩

/-- Not marked, or marked and not yet handled. -/
def pending (L : Live) (w : BitVec 32 × Kind) : Bool :=
  !live L (itemOf w) || decide (w ∈ L.work)

theorem countP_lt {p q : α → Bool} {l : List α} (h : ∀ x ∈ l, p x = true → q x = true) {a : α}
    (ha : a ∈ l) (hq : q a = true) (hp : p a = false) : l.countP p < l.countP q := by
  induction l with
  | nil => cases ha
  | cons b l ih =>
    have hle : l.countP p ≤ l.countP q :=
      List.countP_mono_left fun x hx => h x (List.mem_cons_of_mem _ hx)
    rw [List.countP_cons, List.countP_cons]
    rcases List.mem_cons.1 ha with rfl | ha
    · simp only [hp, hq, if_true]
      simp
      omega
    · have := ih (fun x hx => h x (List.mem_cons_of_mem _ hx)) ha
      have := h b List.mem_cons_self
      cases hpb : p b <;> cases hqb : q b <;> simp_all <;> omega

def cnt (m : Module) (L : Live) : Nat := (allItems m).countP (pending L)

theorem cnt_step {L L' : Live} {w : BitVec 32 × Kind} {ws : List (BitVec 32 × Kind)}
    (hn : Nd L) (hw : L.work = w :: ws)
    (h : liveStep f m { L with work := ws } w = .ok L') : cnt m L' < cnt m L := by
  obtain ⟨he, S, h1, -, -⟩ := step_ext h
  unfold Nd at hn
  rw [hw] at hn
  have hlw := hn.2 w List.mem_cons_self
  refine countP_lt ?_ (mem_allItems he) ?_ ?_
  · intro v _ hv
    unfold pending at hv ⊢
    rw [Bool.or_eq_true] at hv ⊢
    rw [decide_eq_true_iff] at hv ⊢
    rw [h1.work v, live_work] at hv
    rw [hw]
    rcases hv with hv | hv | hv
    · left
      rw [Bool.not_eq_true'] at hv ⊢
      rw [Bool.eq_false_iff] at hv ⊢
      exact fun g => hv ((h1.live _ (collected_item v)).2 (.inl ((live_work L ws _).trans g)))
    · exact .inr (List.mem_cons_of_mem _ hv)
    · have := hv.2
      rw [live_work] at this
      exact .inl (by simpa using this)
  · unfold pending
    rw [hw]
    simp
  · unfold pending
    rw [Bool.or_eq_false_iff]
    constructor
    · have := (h1.live _ (collected_item w)).2 (.inl ((live_work L ws _).trans hlw))
      rw [this]; rfl
    · rw [decide_eq_false_iff_not, h1.work w, live_work]
      rintro (g | ⟨-, g⟩)
      · exact (List.nodup_cons.1 hn.1).1 g
      · exact g hlw

theorem loop_fuel : ∀ {n n' : Nat} {L : Live}, Inv f m L → cnt m L < n → cnt m L < n' →
    liveLoop f m n L = liveLoop f m n' L := by
  intro n
  induction n with
  | zero => intro n' L _ h; omega
  | succ n ih =>
    intro n' L hi h h'
    cases n' with
    | zero => omega
    | succ n' =>
      unfold liveLoop
      split
      · rfl
      · next w ws e =>
        split
        · rfl
        · next L1 e1 =>
          have := cnt_step hi.nd e e1
          exact ih (hi.step e e1) (by omega) (by omega)

theorem cnt_le (L : Live) : cnt m L ≤ m.size := by
  refine Nat.le_trans List.countP_le_length ?_
  unfold allItems Module.size
  simp
  omega

theorem loop_total (hf : ∀ x, Reach f m x → ItemFine f m x) : ∀ {n : Nat} {L : Live}, Inv f m L →
    cnt m L < n → ∃ L', liveLoop f m n L = .ok L' := by
  intro n
  induction n with
  | zero => intro L _ h; omega
  | succ n ih =>
    intro L hi h
    unfold liveLoop
    split
    · exact ⟨_, rfl⟩
    · next w ws e =>
      have hl := hi.nd.2 w (by rw [e]; exact List.mem_cons_self)
      obtain ⟨L1, e1⟩ := step_total { L with work := ws } (hf _ (hi.sound _ hl))
      rw [e1]
      have := cnt_step hi.nd e e1
      exact ih (hi.step e e1) (by omega)

end Verif.Gc
