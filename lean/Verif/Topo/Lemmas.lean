import Mathlib.Data.Fintype.Pigeonhole
import Mathlib.Data.List.Nodup
import Verif.Topo.Spec
namespace Verif.Topo

open Spec

variable {α σ : Type} [DecidableEq α]

/-! ## Views of the state -/

def out (st : List State) (j : Nat) : Nat := (st[j]?.map (·.outboundRemaining)).getD 0
def rev (st : List State) (j : Nat) : List Nat := (st[j]?.map (·.reverseDeps)).getD []
def edgesAt (deps : Deps α σ) (k : Nat) : List (Id α σ) := (deps[k]?.map (·.2)).getD []
def tgts (deps : Deps α σ) (es : List (Id α σ)) : List Nat := es.filterMap (getFull deps ·.name)
def adj (deps : Deps α σ) (k : Nat) : List Nat := tgts deps (edgesAt deps k)
abbrev keys (deps : Deps α σ) : List α := deps.map Prod.fst

theorem out_get {st : List State} {j : Nat} {s : State} (h : st[j]? = some s) :
    out st j = s.outboundRemaining := by simp [out, h]

theorem rev_get {st : List State} {j : Nat} {s : State} (h : st[j]? = some s) :
    rev st j = s.reverseDeps := by simp [rev, h]

theorem out_set {st : List State} {j k : Nat} {s : State} (h : j < st.length) :
    out (st.set j s) k = if k = j then s.outboundRemaining else out st k := by
  unfold out
  rw [List.getElem?_set]
  by_cases hk : j = k
  · subst hk; simp [h]
  · simp [hk, Ne.symm hk]

theorem rev_set {st : List State} {j k : Nat} {s : State} (h : j < st.length) :
    rev (st.set j s) k = if k = j then s.reverseDeps else rev st k := by
  unfold rev
  rw [List.getElem?_set]
  by_cases hk : j = k
  · subst hk; simp [h]
  · simp [hk, Ne.symm hk]

theorem getElem?_of_lt {β : Type} {l : List β} {j : Nat} (h : j < l.length) :
    ∃ s, l[j]? = some s := ⟨l[j], List.getElem?_eq_getElem h⟩

/-! ## Looking up names -/

theorem getFull_none {deps : Deps α σ} {x : α} : getFull deps x = none ↔ x ∉ keys deps := by
  simp only [getFull, List.findIdx?_eq_none_iff, keys, List.mem_map, decide_eq_false_iff_not]
  constructor
  · rintro h ⟨e, he, rfl⟩; exact h e he rfl
  · intro h e he hc; exact h ⟨e, he, hc⟩

theorem getFull_some {deps : Deps α σ} (hwf : WF deps) {x : α} {j : Nat} :
    getFull deps x = some j ↔ (keys deps)[j]? = some x := by
  constructor
  · intro h
    unfold getFull at h
    rw [List.findIdx?_eq_some_iff_getElem] at h
    obtain ⟨hj, he, _⟩ := h
    simp only [decide_eq_true_eq] at he
    simp [keys, List.getElem?_eq_getElem hj, he]
  · intro h
    have hx : x ∈ keys deps := List.mem_of_getElem? h
    cases h2 : getFull deps x with
    | none => exact absurd hx (getFull_none.mp h2)
    | some k =>
      unfold getFull at h2
      rw [List.findIdx?_eq_some_iff_getElem] at h2
      obtain ⟨hk, he, _⟩ := h2
      simp only [decide_eq_true_eq] at he
      have hk' : (keys deps)[k]? = some x := by simp [keys, List.getElem?_eq_getElem hk, he]
      have hj : j < (keys deps).length := by
        by_contra hc
        rw [List.getElem?_eq_none (by omega)] at h
        cases h
      have := (List.getElem?_inj hj hwf).mp (h.trans hk'.symm)
      rw [this]

theorem getFull_lt {deps : Deps α σ} {x : α} {j : Nat} (h : getFull deps x = some j) :
    j < deps.length := by
  unfold getFull at h
  rw [List.findIdx?_eq_some_iff_getElem] at h
  exact h.1

theorem tgts_lt {deps : Deps α σ} {es : List (Id α σ)} {j : Nat} (h : j ∈ tgts deps es) :
    j < deps.length := by
  simp only [tgts, List.mem_filterMap] at h
  obtain ⟨e, _, h⟩ := h
  exact getFull_lt h

theorem tgts_length {deps : Deps α σ} {es : List (Id α σ)} (h : ∀ e ∈ es, e.name ∈ keys deps) :
    (tgts deps es).length = es.length := by
  induction es with
  | nil => rfl
  | cons e es ih =>
    cases hg : getFull deps e.name with
    | none => exact absurd (h e (by simp)) (getFull_none.mp hg)
    | some j =>
      have := ih (fun e he => h e (by simp [he]))
      simp only [tgts] at this
      simp [tgts, hg, this]

/-! ## Building the states -/

theorem buildEdges_ok {deps : Deps α σ} {i : Nat} {es : List (Id α σ)}
    (hes : ∀ e ∈ es, e.name ∈ keys deps) {st : List State} (hl : st.length = deps.length) :
    ∃ st', buildEdges deps i es st = .ok st' ∧ st'.length = deps.length ∧
      (∀ k, out st' k = out st k) ∧
      ∀ j k, (rev st' j).count k = (rev st j).count k + if k = i then (tgts deps es).count j else 0 := by
  induction es generalizing st with
  | nil => exact ⟨st, rfl, hl, fun _ => rfl, fun j k => by simp [tgts]⟩
  | cons e es ih =>
    cases hg : getFull deps e.name with
    | none => exact absurd (hes e (by simp)) (getFull_none.mp hg)
    | some j =>
      have hj := getFull_lt hg
      obtain ⟨s, hs⟩ := getElem?_of_lt (l := st) (j := j) (by omega)
      obtain ⟨st', h1, h2, h3, h4⟩ := ih (fun e he => hes e (by simp [he]))
        (st := st.set j { s with reverseDeps := s.reverseDeps ++ [i] }) (by simp [hl])
      refine ⟨st', ?_, h2, ?_, ?_⟩
      · simp only [buildEdges, hg, hs, h1]
      · intro k
        rw [h3 k, out_set (by omega)]
        split
        · next h => subst h; exact (out_get hs).symm
        · rfl
      · intro j' k
        have ht : tgts deps (e :: es) = j :: tgts deps es := by simp [tgts, hg]
        rw [h4 j' k, rev_set (by omega), ht, List.count_cons]
        by_cases hjj : j' = j
        · subst hjj
          simp only [if_true, List.count_append, rev_get hs, List.count_cons, List.count_nil]
          by_cases hk : k = i
          · subst hk; simp; omega
          · simp [hk, Ne.symm hk]
        · simp [hjj, Ne.symm hjj]

theorem buildEdges_err {deps : Deps α σ} {i : Nat} {pre : List (Id α σ)} {e : Id α σ}
    {post : List (Id α σ)} (hpre : ∀ e ∈ pre, e.name ∈ keys deps) (he : e.name ∉ keys deps)
    {st : List State} (hl : st.length = deps.length) :
    buildEdges deps i (pre ++ e :: post) st = .error (.itemNotFound e.name e.span) := by
  induction pre generalizing st with
  | nil => simp [buildEdges, getFull_none.mpr he]
  | cons p pre ih =>
    cases hg : getFull deps p.name with
    | none => exact absurd (hpre p (by simp)) (getFull_none.mp hg)
    | some j =>
      have hj := getFull_lt hg
      obtain ⟨s, hs⟩ := getElem?_of_lt (l := st) (j := j) (by omega)
      simp only [List.cons_append, buildEdges, hg, hs]
      exact ih (fun e he => hpre e (by simp [he])) (by simp [hl])

/-- All edges of all entries have a target. -/
def AllFound (deps : Deps α σ) (rest : Deps α σ) : Prop :=
  ∀ p ∈ rest, ∀ e ∈ p.2, e.name ∈ keys deps

theorem build_ok {deps : Deps α σ} {rest : Deps α σ} (hf : AllFound deps rest) {i : Nat}
    (hrest : deps.drop i = rest) {st : List State} (hl : st.length = deps.length) :
    ∃ st', build deps i rest st = .ok st' ∧ st'.length = deps.length ∧
      (∀ k, out st' k = if i ≤ k ∧ k < deps.length then (edgesAt deps k).length else out st k) ∧
      ∀ j k, (rev st' j).count k = (rev st j).count k + if i ≤ k then (adj deps k).count j else 0 := by
  induction rest generalizing i st with
  | nil =>
    have : deps.length ≤ i := by simpa using hrest
    refine ⟨st, rfl, hl, fun k => ?_, fun j k => ?_⟩
    · rw [if_neg (by omega)]
    · split
      · next h =>
        have : deps[k]? = none := List.getElem?_eq_none (by omega)
        simp [adj, edgesAt, this, tgts]
      · simp
  | cons p rest ih =>
    obtain ⟨name, es⟩ := p
    have hi : i < deps.length := by
      by_contra hc
      rw [List.drop_eq_nil_of_le (by omega)] at hrest
      cases hrest
    have hd : deps[i]? = some (name, es) := by
      rw [← List.head?_drop, hrest]; rfl
    have hrest' : deps.drop (i + 1) = rest := by
      rw [← List.drop_drop, hrest]; rfl
    obtain ⟨s, hs⟩ := getElem?_of_lt (l := st) (j := i) (by omega)
    obtain ⟨st1, a1, a2, a3, a4⟩ := buildEdges_ok (deps := deps) (i := i) (es := es)
      (hf (name, es) (by simp)) (st := st.set i { s with outboundRemaining := es.length })
      (by simp [hl])
    obtain ⟨st2, b1, b2, b3, b4⟩ := ih (fun p hp => hf p (by simp [hp])) hrest' a2
    have hE : edgesAt deps i = es := by simp [edgesAt, hd]
    refine ⟨st2, ?_, b2, fun k => ?_, fun j k => ?_⟩
    · simp only [build, hs, a1, b1]
    · rw [b3 k, a3 k, out_set (by omega)]
      by_cases hk : k = i
      · subst hk; simp [hi, hE]
      · by_cases h1 : i + 1 ≤ k ∧ k < deps.length
        · rw [if_pos h1, if_pos (by omega)]
        · rw [if_neg h1, if_neg hk, if_neg (by omega)]
    · rw [b4 j k, a4 j k, rev_set (by omega)]
      have : (if j = i then s.reverseDeps else rev st j) = rev st j := by
        split
        · next h => subst h; exact (rev_get hs).symm
        · rfl
      simp only [this]
      by_cases hk : k = i
      · subst hk; simp [adj, hE]
      · simp only [hk, if_false]
        by_cases h1 : i + 1 ≤ k
        · rw [if_pos h1, if_pos (by omega)]
          omega
        · rw [if_neg h1, if_neg (by omega)]

theorem build_err {deps : Deps α σ} {rest : Deps α σ} {i : Nat}
    (hrest : deps.drop i = rest) {pre post : List (Id α σ)} {e : Id α σ}
    (hfl : (rest.map Prod.snd).flatten = pre ++ e :: post)
    (hpre : ∀ e ∈ pre, e.name ∈ keys deps) (he : e.name ∉ keys deps)
    {st : List State} (hl : st.length = deps.length) :
    build deps i rest st = .error (.itemNotFound e.name e.span) := by
  induction rest generalizing i st pre with
  | nil => simp at hfl
  | cons p rest ih =>
    obtain ⟨name, es⟩ := p
    have hi : i < deps.length := by
      by_contra hc
      rw [List.drop_eq_nil_of_le (by omega)] at hrest
      cases hrest
    have hrest' : deps.drop (i + 1) = rest := by
      rw [← List.drop_drop, hrest]; rfl
    obtain ⟨s, hs⟩ := getElem?_of_lt (l := st) (j := i) (by omega)
    simp only [List.map_cons, List.flatten_cons] at hfl
    simp only [build, hs]
    rw [List.append_eq_append_iff] at hfl
    rcases hfl with ⟨c, hc1, hc2⟩ | ⟨c, hc1, hc2⟩
    · obtain ⟨st1, a1, a2, -, -⟩ := buildEdges_ok (deps := deps) (i := i) (es := es)
        (fun e he => hpre e (by simp [hc1, he]))
        (st := st.set i { s with outboundRemaining := es.length }) (by simp [hl])
      rw [a1]
      exact ih hrest' hc2 (fun e he => hpre e (by simp [hc1, he])) a2
    · cases c with
      | nil =>
        simp only [List.append_nil] at hc1
        simp only [List.nil_append] at hc2
        obtain ⟨st1, a1, a2, -, -⟩ := buildEdges_ok (deps := deps) (i := i) (es := es)
          (fun e he => hpre e (by simpa [hc1] using he))
          (st := st.set i { s with outboundRemaining := es.length }) (by simp [hl])
        rw [a1]
        exact ih (pre := []) hrest' (by simpa using hc2.symm) (by simp) a2
      | cons e' c =>
        simp only [List.cons_append, List.cons.injEq] at hc2
        obtain ⟨rfl, -⟩ := hc2
        rw [hc1, buildEdges_err hpre he (by simp [hl])]

/-! ## The heap -/

/-- The entry that the heap holds for item `i`. -/
def entry (deps : Deps α σ) (x : α) (i : Nat) : Entry α := (deps.length - i, x, i)

/-- The heap holds exactly the entries of the items of `S`. -/
structure HeapIs (deps : Deps α σ) (heap : List (Entry α)) (S : Nat → Prop) : Prop where
  nodup : (heap.map (·.2.2)).Nodup
  shape : ∀ e ∈ heap, e.1 = deps.length - e.2.2 ∧ (keys deps)[e.2.2]? = some e.2.1
  mem : ∀ i, i ∈ heap.map (·.2.2) ↔ S i

theorem HeapIs.congr {deps : Deps α σ} {heap : List (Entry α)} {S S' : Nat → Prop}
    (h : HeapIs deps heap S) (hS : ∀ i, S i ↔ S' i) : HeapIs deps heap S' :=
  ⟨h.nodup, h.shape, fun i => (h.mem i).trans (hS i)⟩

theorem HeapIs.push {deps : Deps α σ} {heap : List (Entry α)} {S : Nat → Prop}
    (h : HeapIs deps heap S) {i : Nat} {x : α} (hx : (keys deps)[i]? = some x) (hi : ¬ S i) :
    HeapIs deps ((deps.length - i, x, i) :: heap) (fun k => k = i ∨ S k) := by
  refine ⟨?_, ?_, ?_⟩
  · simp only [List.map_cons, List.nodup_cons]
    exact ⟨fun hc => hi ((h.mem i).mp hc), h.nodup⟩
  · intro e he
    rcases List.mem_cons.mp he with rfl | he
    · exact ⟨rfl, hx⟩
    · exact h.shape e he
  · intro k
    simp only [List.map_cons, List.mem_cons]
    rw [h.mem k]

theorem maxEntry_mem (m : Entry α) (es : List (Entry α)) : maxEntry m es ∈ m :: es := by
  induction es generalizing m with
  | nil => simp [maxEntry]
  | cons e es ih =>
    unfold maxEntry
    split
    · exact List.mem_cons_of_mem _ (ih e)
    · have := ih m
      rcases List.mem_cons.mp this with h | h
      · rw [h]; simp
      · exact List.mem_cons_of_mem _ (List.mem_cons_of_mem _ h)

theorem maxEntry_le (m : Entry α) (es : List (Entry α)) :
    ∀ e ∈ m :: es, e.1 ≤ (maxEntry m es).1 := by
  induction es generalizing m with
  | nil => simp [maxEntry]
  | cons e es ih =>
    intro x hx
    unfold maxEntry
    split
    · next hlt =>
      rcases List.mem_cons.mp hx with rfl | hx
      · exact Nat.le_of_lt (Nat.lt_of_lt_of_le hlt (ih e e (by simp)))
      · exact ih e x hx
    · next hlt =>
      rcases List.mem_cons.mp hx with rfl | hx
      · exact ih x x (by simp)
      · rcases List.mem_cons.mp hx with rfl | hx
        · exact Nat.le_trans (by omega) (ih m m (by simp))
        · exact ih m x (by simp [hx])

theorem pop_none {heap : List (Entry α)} (h : pop heap = none) : heap = [] := by
  cases heap with
  | nil => rfl
  | cons e es => simp [pop] at h

theorem pop_some {deps : Deps α σ} {heap rest : List (Entry α)} {S : Nat → Prop} {a i : Nat} {x : α}
    (h : HeapIs deps heap S) (hp : pop heap = some ((a, x, i), rest)) :
    S i ∧ (keys deps)[i]? = some x ∧ (∀ k, S k → i ≤ k) ∧
      HeapIs deps rest (fun k => k ≠ i ∧ S k) := by
  cases heap with
  | nil => simp [pop] at hp
  | cons e es =>
    simp only [pop, Option.some.injEq, Prod.mk.injEq] at hp
    obtain ⟨hm, rfl⟩ := hp
    have hmem := maxEntry_mem e es
    have hle := maxEntry_le e es
    rw [hm] at hmem hle
    obtain ⟨hs1, hs2⟩ := h.shape _ hmem
    have hSi : S i := (h.mem i).mp (List.mem_map.mpr ⟨_, hmem, rfl⟩)
    have hn : i < deps.length := by
      have : i < (keys deps).length := by
        by_contra hc
        simp only at hs2
        rw [List.getElem?_eq_none (by omega)] at hs2
        cases hs2
      simpa [keys] using this
    have hperm := List.perm_cons_erase hmem
    refine ⟨hSi, hs2, ?_, ?_, ?_, ?_⟩
    · intro k hk
      obtain ⟨e', he', rfl⟩ := List.mem_map.mp ((h.mem k).mpr hk)
      have h1 := hle e' he'
      have h2 := (h.shape e' he').1
      have h3 : e'.2.2 < deps.length := by
        have h4 := (h.shape e' he').2
        by_contra hc
        rw [List.getElem?_eq_none (by simp [keys]; omega)] at h4
        cases h4
      simp only at hs1 h1
      omega
    · rw [hm]
      have := (hperm.map (·.2.2)).nodup_iff.mp h.nodup
      exact (List.nodup_cons.mp this).2
    · intro e' he'
      rw [hm] at he'
      exact h.shape e' (List.mem_of_mem_erase he')
    · intro k
      rw [hm]
      have hnd := (hperm.map (·.2.2)).nodup_iff.mp h.nodup
      simp only [List.map_cons, List.nodup_cons] at hnd
      have hmem' := (hperm.map (·.2.2)).mem_iff (a := k)
      rw [h.mem k] at hmem'
      simp only [List.map_cons, List.mem_cons] at hmem'
      constructor
      · intro hk
        refine ⟨?_, hmem'.mpr (Or.inr hk)⟩
        rintro rfl
        exact hnd.1 hk
      · rintro ⟨h1, h2⟩
        exact (hmem'.mp h2).resolve_left h1

theorem seed_spec {deps : Deps α σ} {st : List State} (hl : st.length = deps.length)
    {rest : Deps α σ} {i : Nat} (hrest : deps.drop i = rest) {heap : List (Entry α)}
    (hh : HeapIs deps heap (fun k => k < i ∧ k < deps.length ∧ out st k = 0)) :
    ∃ heap', seed deps st i rest heap = some heap' ∧
      HeapIs deps heap' (fun k => k < deps.length ∧ out st k = 0) := by
  induction rest generalizing i heap with
  | nil =>
    have : deps.length ≤ i := by simpa using hrest
    refine ⟨heap, rfl, hh.congr fun k => ?_⟩
    constructor
    · exact fun h => h.2
    · exact fun h => ⟨by omega, h⟩
  | cons p rest ih =>
    obtain ⟨name, es⟩ := p
    have hi : i < deps.length := by
      by_contra hc
      rw [List.drop_eq_nil_of_le (by omega)] at hrest
      cases hrest
    have hd : deps[i]? = some (name, es) := by
      rw [← List.head?_drop, hrest]; rfl
    have hrest' : deps.drop (i + 1) = rest := by
      rw [← List.drop_drop, hrest]; rfl
    obtain ⟨s, hs⟩ := getElem?_of_lt (l := st) (j := i) (by omega)
    simp only [seed, hs]
    apply ih hrest'
    split
    · next h0 =>
      refine (hh.push (i := i) (x := name) (by simp [keys, hd]) (by omega)).congr fun k => ?_
      rw [← out_get hs] at h0
      constructor
      · rintro (rfl | ⟨h1, h2⟩)
        · exact ⟨by omega, hi, h0⟩
        · exact ⟨by omega, h2⟩
      · rintro ⟨h1, h2⟩
        by_cases hk : k = i
        · exact Or.inl hk
        · exact Or.inr ⟨by omega, h2⟩
    · next h0 =>
      rw [← out_get hs] at h0
      refine hh.congr fun k => ?_
      constructor
      · rintro ⟨h1, h2⟩; exact ⟨by omega, h2⟩
      · rintro ⟨h1, h2⟩
        refine ⟨?_, h2⟩
        by_contra hc
        have : k = i := by omega
        subst this
        exact h0 h2.2

/-! ## The main loop -/

/-- The number of edges of item `i` whose target is not in `done`. -/
def open' (deps : Deps α σ) (done : List Nat) (i : Nat) : Nat :=
  ((adj deps i).filter (fun j => j ∉ done)).length

theorem open'_zero {deps : Deps α σ} {done : List Nat} {i : Nat} :
    open' deps done i = 0 ↔ ∀ j ∈ adj deps i, j ∈ done := by
  simp [open', List.filter_eq_nil_iff]

theorem open'_snoc {deps : Deps α σ} {done : List Nat} {i j : Nat} (hj : j ∉ done) :
    open' deps done i = open' deps (done ++ [j]) i + (adj deps i).count j := by
  unfold open'
  generalize adj deps i = l
  induction l with
  | nil => rfl
  | cons a l ih =>
    by_cases ha : a = j
    · subst ha
      simp only [List.filter_cons, hj, List.count_cons]
      simp [hj] at ih ⊢
      omega
    · by_cases hd : a ∈ done
      · simp [List.filter_cons, hd, ha] at ih ⊢; omega
      · simp [List.filter_cons, hd, ha] at ih ⊢; omega

/-- `done` is a prefix of a topological order: each item comes after what it depends on, and at
each place the least item that could be there. -/
def GoodPrefix (deps : Deps α σ) (done : List Nat) : Prop :=
  ∀ pre i post, done = pre ++ i :: post → i ∉ pre ∧ (∀ j ∈ adj deps i, j ∈ pre) ∧
    ∀ k < deps.length, k ∉ pre → (∀ j ∈ adj deps k, j ∈ pre) → i ≤ k

theorem GoodPrefix.snoc {deps : Deps α σ} {done : List Nat} {i : Nat} (h : GoodPrefix deps done)
    (hi : i ∉ done) (h1 : ∀ j ∈ adj deps i, j ∈ done)
    (h2 : ∀ k < deps.length, k ∉ done → (∀ j ∈ adj deps k, j ∈ done) → i ≤ k) :
    GoodPrefix deps (done ++ [i]) := by
  intro pre i' post heq
  rcases List.eq_nil_or_concat post with rfl | ⟨post', z, rfl⟩
  · obtain ⟨rfl, hh⟩ := List.append_inj' heq rfl
    simp only [List.cons.injEq, and_true] at hh
    subst hh
    exact ⟨hi, h1, h2⟩
  · have : done = pre ++ i' :: post' := by
      have h3 : done ++ [i] = (pre ++ i' :: post') ++ [z] := by simp [heq]
      exact (List.append_inj' h3 rfl).1
    exact h pre i' post' this

theorem GoodPrefix.closed {deps : Deps α σ} {done : List Nat} (h : GoodPrefix deps done) {i j : Nat}
    (hi : i ∈ done) (hj : j ∈ adj deps i) : j ∈ done := by
  obtain ⟨pre, post, rfl⟩ := List.append_of_mem hi
  have := (h pre i post rfl).2.1 j hj
  simp [this]

theorem GoodPrefix.nodup {deps : Deps α σ} {done : List Nat} (h : GoodPrefix deps done) :
    done.Nodup := by
  induction done using List.reverseRecOn with
  | nil => simp
  | append_singleton l x ih =>
    have h1 := (h l x [] rfl).1
    have : GoodPrefix deps l := by
      intro pre i post heq
      exact h pre i (post ++ [x]) (by simp [heq])
    rw [List.nodup_append]
    exact ⟨ih this, by simp, by simpa using fun a ha => by rintro rfl; exact h1 ha⟩

theorem GoodPrefix.tail {deps : Deps α σ} {done : List Nat} {x : Nat}
    (h : GoodPrefix deps (done ++ [x])) : GoodPrefix deps done := by
  intro pre i post heq
  exact h pre i (post ++ [x]) (by simp [heq])

theorem release_spec {deps : Deps α σ} {done : List Nat} (l : List Nat)
    (hlt : ∀ i ∈ l, i < deps.length) (hnd : ∀ i ∈ l, i ∉ done)
    {st : List State} (hl : st.length = deps.length)
    (hout : ∀ i < deps.length, out st i = open' deps done i + l.count i)
    {heap : List (Entry α)}
    (hh : HeapIs deps heap (fun k => k < deps.length ∧ k ∉ done ∧ out st k = 0)) :
    ∃ st' heap', release deps l st heap = some (st', heap') ∧ st'.length = deps.length ∧
      (∀ i < deps.length, out st' i = open' deps done i) ∧ (∀ i, rev st' i = rev st i) ∧
      HeapIs deps heap' (fun k => k < deps.length ∧ k ∉ done ∧ open' deps done k = 0) := by
  induction l generalizing st heap with
  | nil =>
    refine ⟨st, heap, rfl, hl, fun i hi => by simpa using hout i hi, fun _ => rfl, hh.congr fun k => ?_⟩
    constructor
    · rintro ⟨a, b, c⟩; exact ⟨a, b, by have := hout k a; simp at this; omega⟩
    · rintro ⟨a, b, c⟩; exact ⟨a, b, by have := hout k a; simp at this; omega⟩
  | cons i l ih =>
    have hi := hlt i (by simp)
    obtain ⟨s, hs⟩ := getElem?_of_lt (l := st) (j := i) (by omega)
    have hso := hout i hi
    rw [out_get hs, List.count_cons] at hso
    simp only [beq_self_eq_true, if_true] at hso
    obtain ⟨⟨x, es⟩, hd⟩ := getElem?_of_lt (l := deps) (j := i) hi
    have hpos : ¬ s.outboundRemaining = 0 := by omega
    have hout' : ∀ k < deps.length,
        out (st.set i { s with outboundRemaining := s.outboundRemaining - 1 }) k =
          open' deps done k + l.count k := by
      intro k hk
      rw [out_set (by omega)]
      split
      · next h => subst h; simp only; omega
      · next h =>
        rw [hout k hk, List.count_cons]
        simp [Ne.symm h]
    have hrev' : ∀ k,
        rev (st.set i { s with outboundRemaining := s.outboundRemaining - 1 }) k = rev st k := by
      intro k
      rw [rev_set (by omega)]
      split
      · next h => subst h; exact (rev_get hs).symm
      · rfl
    simp only [release, hs, hd, if_neg hpos]
    by_cases h0 : s.outboundRemaining - 1 = 0
    · rw [if_pos h0]
      have hh' : HeapIs deps ((deps.length - i, x, i) :: heap) (fun k => k < deps.length ∧ k ∉ done ∧
          out (st.set i { s with outboundRemaining := s.outboundRemaining - 1 }) k = 0) := by
        refine (hh.push (i := i) (x := x) (by simp [keys, hd]) ?_).congr fun k => ?_
        · rw [out_get hs]; exact fun hc => hpos hc.2.2
        · rw [out_set (by omega)]
          by_cases hk : k = i
          · subst hk; simp only [true_or, true_iff, if_true]
            exact ⟨hi, hnd k (by simp), h0⟩
          · simp [hk]
      obtain ⟨st', heap', r1, r2, r3, r4, r5⟩ := ih (fun i hi => hlt i (by simp [hi]))
        (fun i hi => hnd i (by simp [hi])) (by simp [hl]) hout' hh'
      exact ⟨st', heap', r1, r2, r3, fun k => (r4 k).trans (hrev' k), r5⟩
    · rw [if_neg h0]
      have hh' : HeapIs deps heap (fun k => k < deps.length ∧ k ∉ done ∧
          out (st.set i { s with outboundRemaining := s.outboundRemaining - 1 }) k = 0) := by
        refine hh.congr fun k => ?_
        rw [out_set (by omega)]
        by_cases hk : k = i
        · subst hk; simp only [if_true, h0, out_get hs, hpos, and_false]
        · simp [hk]
      obtain ⟨st', heap', r1, r2, r3, r4, r5⟩ := ih (fun i hi => hlt i (by simp [hi]))
        (fun i hi => hnd i (by simp [hi])) (by simp [hl]) hout' hh'
      exact ⟨st', heap', r1, r2, r3, fun k => (r4 k).trans (hrev' k), r5⟩

/-- The invariant of the main loop. -/
structure LoopInv (deps : Deps α σ) (st : List State) (heap : List (Entry α)) (order : List α)
    (done : List Nat) : Prop where
  len : st.length = deps.length
  lt : ∀ i ∈ done, i < deps.length
  out : ∀ i < deps.length, Topo.out st i = open' deps done i
  rev : ∀ j < deps.length, j ∉ done → ∀ k, (Topo.rev st j).count k = (adj deps k).count j
  heap : HeapIs deps heap (fun k => k < deps.length ∧ k ∉ done ∧ open' deps done k = 0)
  good : GoodPrefix deps done
  order : done.map (fun i => (keys deps)[i]?) = order.map some

theorem adj_eq_nil {deps : Deps α σ} {k : Nat} (h : deps.length ≤ k) : adj deps k = [] := by
  have : deps[k]? = none := List.getElem?_eq_none h
  simp [adj, edgesAt, this, tgts]

theorem drain_spec {deps : Deps α σ} (fuel : Nat) {st : List State} {heap : List (Entry α)}
    {order : List α} {done : List Nat} (h : LoopInv deps st heap order done)
    (hfuel : deps.length < fuel + done.length) :
    ∃ st' order' done', drain deps fuel st heap order = .ok (st', order') ∧
      LoopInv deps st' [] order' done' := by
  induction fuel generalizing st heap order done with
  | zero =>
    have hnd := h.good.nodup
    have : done.length ≤ deps.length := by
      have := (List.subperm_of_subset hnd (l₂ := List.range deps.length)
        (fun i hi => List.mem_range.mpr (h.lt i hi))).length_le
      simpa using this
    omega
  | succ fuel ih =>
    cases hp : pop heap with
    | none =>
      have := pop_none hp
      subst this
      exact ⟨st, order, done, by simp [drain, hp], h⟩
    | some r =>
      obtain ⟨⟨a, x, i⟩, rest⟩ := r
      obtain ⟨⟨hi, hid, hi0⟩, hx, hmin, hrest⟩ := pop_some h.heap hp
      obtain ⟨s, hs⟩ := getElem?_of_lt (l := st) (j := i) (by rw [h.len]; exact hi)
      have hil : i < st.length := by rw [h.len]; exact hi
      have hadj := open'_zero.mp hi0
      have hgood : GoodPrefix deps (done ++ [i]) := by
        refine h.good.snoc hid hadj fun k hk hkd hka => hmin k ⟨hk, hkd, open'_zero.mpr hka⟩
      have hcount : ∀ k, s.reverseDeps.count k = (adj deps k).count i := by
        intro k; rw [← rev_get hs]; exact h.rev i hi hid k
      have hmem : ∀ k, k ∈ s.reverseDeps ↔ i ∈ adj deps k := by
        intro k
        rw [← List.count_pos_iff, hcount k, List.count_pos_iff]
      have hlt : ∀ k ∈ s.reverseDeps, k < deps.length := by
        intro k hk
        by_contra hc
        rw [hmem, adj_eq_nil (by omega)] at hk
        cases hk
      have hnd : ∀ k ∈ s.reverseDeps, k ∉ done ++ [i] := by
        intro k hk hc
        rw [hmem] at hk
        simp only [List.mem_append, List.mem_singleton] at hc
        rcases hc with hc | rfl
        · exact hid (h.good.closed hc hk)
        · exact hid (hadj _ hk)
      have hout1 : ∀ k, out (st.set i { s with reverseDeps := [] }) k = out st k := by
        intro k
        rw [out_set hil]
        split
        · next h => subst h; exact (out_get hs).symm
        · rfl
      have hout' : ∀ k < deps.length, out (st.set i { s with reverseDeps := [] }) k =
          open' deps (done ++ [i]) k + s.reverseDeps.count k := by
        intro k hk
        rw [hout1, h.out k hk, hcount k]
        exact open'_snoc hid
      have hh' : HeapIs deps rest (fun k => k < deps.length ∧ k ∉ done ++ [i] ∧
          out (st.set i { s with reverseDeps := [] }) k = 0) := by
        refine hrest.congr fun k => ?_
        rw [hout1]
        constructor
        · rintro ⟨h1, h2, h3, h4⟩
          refine ⟨h2, by simp [h1, h3], ?_⟩
          rw [h.out k h2]; exact h4
        · rintro ⟨h1, h2, h3⟩
          simp only [List.mem_append, List.mem_singleton, not_or] at h2
          exact ⟨h2.2, h1, h2.1, by rw [← h.out k h1]; exact h3⟩
      obtain ⟨st', heap', r1, r2, r3, r4, r5⟩ := release_spec s.reverseDeps hlt hnd
        (by simp [h.len]) hout' hh'
      have hinv : LoopInv deps st' heap' (order ++ [x]) (done ++ [i]) := by
        refine ⟨r2, ?_, r3, ?_, r5, hgood, ?_⟩
        · intro k hk
          simp only [List.mem_append, List.mem_singleton] at hk
          rcases hk with hk | rfl
          · exact h.lt k hk
          · exact hi
        · intro j hj hjd k
          simp only [List.mem_append, List.mem_singleton, not_or] at hjd
          rw [r4, rev_set hil, if_neg hjd.2]
          exact h.rev j hj hjd.1 k
        · simp only [List.map_append, h.order, List.map_cons, List.map_nil, hx]
      obtain ⟨st2, o2, d2, e1, e2⟩ := ih hinv (by simp; omega)
      exact ⟨st2, o2, d2, by simp only [drain, hp, hs, r1, e1], e2⟩

theorem toposort_run {deps : Deps α σ} (hf : AllFound deps deps) :
    ∃ st order done, LoopInv deps st [] order done ∧
      toposort deps = if order.length = deps.length then .ok order else findCycle deps st 0 st := by
  have hr : ∀ k, rev (List.replicate deps.length ⟨0, []⟩) k = [] := by
    intro k
    simp only [rev, List.getElem?_replicate]
    split <;> rfl
  obtain ⟨st, a1, a2, a3, a4⟩ := build_ok hf (i := 0) rfl
    (st := List.replicate deps.length ⟨0, []⟩) (by simp)
  obtain ⟨heap, b1, b2⟩ := seed_spec a2 (i := 0) (rest := deps) rfl (heap := []) ⟨by simp, by simp, by simp⟩
  have hopen : ∀ i < deps.length, out st i = open' deps [] i := by
    intro i hi
    rw [a3 i, if_pos (by omega)]
    obtain ⟨p, hp⟩ := getElem?_of_lt hi
    have hE : edgesAt deps i = p.2 := by simp [edgesAt, hp]
    have : (tgts deps p.2).length = p.2.length := tgts_length (hf p (List.mem_of_getElem? hp))
    simp [open', adj, hE, this]
  have hinv : LoopInv deps st heap [] [] := by
    refine ⟨a2, by simp, hopen, ?_, b2.congr fun k => ?_, ?_, rfl⟩
    · intro j hj _ k
      rw [a4 j k, hr j]
      simp
    · constructor
      · rintro ⟨h1, h2⟩; exact ⟨h1, by simp, by rw [← hopen k h1]; exact h2⟩
      · rintro ⟨h1, -, h2⟩; exact ⟨h1, by rw [hopen k h1]; exact h2⟩
    · intro pre i post h; simp at h
  obtain ⟨st', order, done, c1, c2⟩ := drain_spec (deps.length + 1) hinv (by simp)
  exact ⟨st', order, done, c2, by simp only [toposort, a1, b1, c1]⟩

/-! ## The result of the loop in terms of the specification -/

theorem keys_lt {deps : Deps α σ} {i : Nat} {x : α} (h : (keys deps)[i]? = some x) :
    i < deps.length := by
  by_contra hc
  rw [List.getElem?_eq_none (by simp [keys]; omega)] at h
  cases h

theorem keys_get {deps : Deps α σ} {i : Nat} (h : i < deps.length) :
    ∃ x, (keys deps)[i]? = some x := getElem?_of_lt (by simpa [keys] using h)

theorem keys_inj {deps : Deps α σ} (hwf : WF deps) {i j : Nat} {x : α}
    (h : (keys deps)[i]? = some x) (h' : (keys deps)[j]? = some x) : i = j :=
  (List.getElem?_inj (by simpa [keys] using keys_lt h) hwf).mp (h.trans h'.symm)

theorem dep_iff {deps : Deps α σ} (hwf : WF deps) (hf : AllFound deps deps) {i : Nat} {x : α}
    (hx : (keys deps)[i]? = some x) {y : α} :
    Dep deps x y ↔ ∃ j ∈ adj deps i, (keys deps)[j]? = some y := by
  obtain ⟨⟨x', es⟩, hp⟩ := getElem?_of_lt (keys_lt hx)
  have hxx : x' = x := by simpa [keys, hp] using hx
  subst hxx
  have hE : edgesAt deps i = es := by simp [edgesAt, hp]
  constructor
  · rintro ⟨es', hm, e, he, rfl⟩
    obtain ⟨i', hi'⟩ := List.getElem?_of_mem hm
    have : i' = i := keys_inj hwf (by simp [keys, hi']) hx
    subst this
    rw [hp] at hi'
    cases hi'
    cases hg : getFull deps e.name with
    | none => exact absurd (hf _ hm e he) (getFull_none.mp hg)
    | some j =>
      refine ⟨j, ?_, (getFull_some hwf).mp hg⟩
      simp only [adj, hE, tgts, List.mem_filterMap]
      exact ⟨e, he, hg⟩
  · rintro ⟨j, hj, hy⟩
    simp only [adj, hE, tgts, List.mem_filterMap] at hj
    obtain ⟨e, he, hg⟩ := hj
    refine ⟨es, List.mem_of_getElem? hp, e, he, ?_⟩
    have := (getFull_some hwf).mp hg
    rw [hy] at this
    exact (Option.some.inj this).symm

theorem done_complete {deps : Deps α σ} {st : List State} {heap : List (Entry α)} {order : List α}
    {done : List Nat} (h : LoopInv deps st heap order done) :
    order.length = deps.length ↔ ∀ k < deps.length, k ∈ done := by
  have hlen : done.length = order.length := by simpa using congrArg List.length h.order
  have hsub : done ⊆ List.range deps.length := fun i hi => List.mem_range.mpr (h.lt i hi)
  have hsp := List.subperm_of_subset h.good.nodup hsub
  constructor
  · intro he k hk
    have : done.Perm (List.range deps.length) :=
      hsp.perm_of_length_le (by simp [hlen, he])
    exact this.mem_iff.mpr (List.mem_range.mpr hk)
  · intro hall
    have h2 := (List.subperm_of_subset (List.nodup_range (n := deps.length)) (l₂ := done)
      (fun k hk => hall k (List.mem_range.mp hk))).length_le
    have h1 := hsp.length_le
    simp at h1 h2
    omega

theorem ready_iff {deps : Deps α σ} (hwf : WF deps) (hf : AllFound deps deps) {pre : List Nat}
    {before : List α} (hpb : pre.map (fun i => (keys deps)[i]?) = before.map some)
    {i : Nat} {x : α} (hx : (keys deps)[i]? = some x) :
    (x ∈ before ↔ i ∈ pre) ∧
    (Ready deps before x ↔ i ∉ pre ∧ ∀ j ∈ adj deps i, j ∈ pre) := by
  have hmem : ∀ {i : Nat} {x : α}, (keys deps)[i]? = some x → (x ∈ before ↔ i ∈ pre) := by
    intro i x hx
    have : x ∈ before ↔ some x ∈ before.map some := by simp
    rw [this, ← hpb, List.mem_map]
    constructor
    · rintro ⟨k, hk, hkx⟩
      rw [← keys_inj hwf hkx hx]; exact hk
    · intro hi; exact ⟨i, hi, hx⟩
  refine ⟨hmem hx, ?_⟩
  constructor
  · rintro ⟨-, h2, h3⟩
    refine ⟨fun hc => h2 ((hmem hx).mpr hc), fun j hj => ?_⟩
    obtain ⟨y, hy⟩ := keys_get (tgts_lt hj)
    exact (hmem hy).mp (h3 y ((dep_iff hwf hf hx).mpr ⟨j, hj, hy⟩))
  · rintro ⟨h1, h2⟩
    refine ⟨List.mem_of_getElem? hx, fun hc => h1 ((hmem hx).mp hc), fun y hy => ?_⟩
    obtain ⟨j, hj, hy⟩ := (dep_iff hwf hf hx).mp hy
    exact (hmem hy).mpr (h2 j hj)

theorem good_split {deps : Deps α σ} {done : List Nat} {before after : List α} {x : α}
    (h : done.map (fun i => (keys deps)[i]?) = (before ++ x :: after).map some) :
    ∃ pre i post, done = pre ++ i :: post ∧ (keys deps)[i]? = some x ∧
      pre.map (fun i => (keys deps)[i]?) = before.map some := by
  rw [List.map_append, List.map_eq_append_iff] at h
  obtain ⟨pre, rest, rfl, h1, h2⟩ := h
  rw [List.map_cons, List.map_eq_cons_iff] at h2
  obtain ⟨i, post, rfl, h3, -⟩ := h2
  exact ⟨pre, i, post, rfl, h3, h1⟩

theorem stable_of_inv {deps : Deps α σ} (hwf : WF deps) (hf : AllFound deps deps) {st : List State}
    {heap : List (Entry α)} {order : List α} {done : List Nat} (h : LoopInv deps st heap order done)
    (hc : order.length = deps.length) : SourceStable deps order := by
  have hall := (done_complete h).mp hc
  refine ⟨?_, ?_, ?_⟩
  · have hperm : done.Perm (List.range deps.length) := by
      rw [List.perm_ext_iff_of_nodup h.good.nodup List.nodup_range]
      intro k
      rw [List.mem_range]
      exact ⟨h.lt k, hall k⟩
    have h1 := hperm.map (fun i => (keys deps)[i]?)
    rw [h.order] at h1
    have h2 : (List.range deps.length).map (fun i => (keys deps)[i]?) = (keys deps).map some := by
      apply List.ext_getElem?
      intro k
      simp only [List.getElem?_map, List.getElem?_range, keys]
      by_cases hk : k < deps.length
      · simp [hk, List.getElem?_eq_getElem hk]
      · simp [hk]
    rw [h2] at h1
    have := h1.filterMap id
    simpa using this
  · intro before x after heq
    obtain ⟨pre, i, post, rfl, hx, hpb⟩ := good_split (heq ▸ h.order)
    have := h.good pre i post rfl
    exact (ready_iff hwf hf hpb hx).2.mpr ⟨this.1, this.2.1⟩
  · intro before x after heq y hy hne
    obtain ⟨pre, i, post, rfl, hx, hpb⟩ := good_split (heq ▸ h.order)
    obtain ⟨k, hk⟩ := List.getElem?_of_mem hy.1
    have hr := (ready_iff hwf hf hpb hk).2.mp hy
    have := (h.good pre i post rfl).2.2 k (keys_lt hk) hr.1 hr.2
    refine ⟨i, k, ?_, hx, hk⟩
    rcases Nat.lt_or_eq_of_le this with h | h
    · exact h
    · subst h
      rw [hx] at hk
      exact absurd (Option.some.inj hk).symm hne

omit [DecidableEq α] in
theorem acyclic_of_stable {deps : Deps α σ} {order : List α} (h : SourceStable deps order) :
    Acyclic deps := by
  classical
  have hpos : ∀ x y, Dep deps x y → x ∈ order ∧ order.idxOf y < order.idxOf x := by
    intro x y hd
    have hx : x ∈ order := by
      obtain ⟨es, hm, -⟩ := hd
      exact h.perm.mem_iff.mpr (List.mem_map.mpr ⟨_, hm, rfl⟩)
    obtain ⟨before, after, heq⟩ := List.append_of_mem hx
    have hr := h.ready before x after heq
    have hy := hr.2.2 y hd
    refine ⟨hx, ?_⟩
    rw [heq, List.idxOf_append_of_mem hy, List.idxOf_append_of_notMem hr.2.1]
    have := List.idxOf_lt_length_of_mem hy
    simp
    omega
  intro x hc
  have : ∀ x y, Relation.TransGen (Dep deps) x y → order.idxOf y < order.idxOf x := by
    intro x y ht
    induction ht with
    | single hd => exact (hpos _ _ hd).2
    | tail _ hd ih => exact Nat.lt_trans (hpos _ _ hd).2 ih
  exact Nat.lt_irrefl _ (this x x hc)

theorem blocked_of_undone {deps : Deps α σ} (hwf : WF deps) (hf : AllFound deps deps)
    {done : List Nat}
    (hun : ∀ k, k < deps.length → k ∉ done → ∃ j ∈ adj deps k, j ∉ done)
    {i : Nat} (hi : i < deps.length) (hid : i ∉ done) {x : α} (hx : (keys deps)[i]? = some x) :
    Blocked deps x := by
  classical
  let U := { k : Nat // k < deps.length ∧ k ∉ done }
  have hnext : ∀ u : U, ∃ v : U, v.1 ∈ adj deps u.1 := by
    intro u
    obtain ⟨j, hj, hjd⟩ := hun u.1 u.2.1 u.2.2
    exact ⟨⟨j, tgts_lt hj, hjd⟩, hj⟩
  choose f hf' using hnext
  let u0 : U := ⟨i, hi, hid⟩
  let g : Nat → Fin deps.length := fun m => ⟨(f^[m] u0).1, (f^[m] u0).2.1⟩
  obtain ⟨a, b, hab, hg⟩ := Finite.exists_ne_map_eq_of_infinite g
  have hname : ∀ u : U, ∃ y, (keys deps)[u.1]? = some y := fun u => keys_get u.2.1
  choose nm hnm using hname
  have hstep : ∀ u, Dep deps (nm u) (nm (f u)) := by
    intro u
    exact (dep_iff hwf hf (hnm u)).mpr ⟨_, hf' u, hnm _⟩
  have hreach : ∀ m u, Relation.ReflTransGen (Dep deps) (nm u) (nm (f^[m] u)) := by
    intro m
    induction m with
    | zero => intro u; exact .refl
    | succ m ih => intro u; exact (Relation.ReflTransGen.single (hstep u)).trans (ih (f u))
  have hreach' : ∀ m u, Relation.TransGen (Dep deps) (nm u) (nm (f^[m + 1] u)) := by
    intro m u
    exact Relation.TransGen.head' (hstep u) (hreach m (f u))
  have key : ∀ a b : Nat, a < b → g a = g b → Blocked deps x := by
    intro a b hlt hg
    have hx0 : nm u0 = x := by
      have := hnm u0
      rw [show u0.1 = i from rfl, hx] at this
      exact (Option.some.inj this).symm
    refine ⟨nm (f^[a] u0), hx0 ▸ hreach a u0, ?_⟩
    obtain ⟨d, rfl⟩ : ∃ d, b = (d + 1) + a := ⟨b - a - 1, by omega⟩
    have h1 := hreach' d (f^[a] u0)
    rw [← Function.iterate_add_apply] at h1
    have h2 : f^[d + 1 + a] u0 = f^[a] u0 := by
      apply Subtype.ext
      exact (congrArg Fin.val hg).symm
    rwa [h2] at h1
  rcases Nat.lt_or_gt_of_ne hab with h | h
  · exact key a b h hg
  · exact key b a h hg.symm

/-- What the search for a cycle returns. -/
def CycleRes (deps : Deps α σ) (done : List Nat) (r : Res α σ) : Prop :=
  ∃ i e j, e ∈ edgesAt deps i ∧ i < deps.length ∧ i ∉ done ∧ getFull deps e.name = some j ∧
    j ∉ done ∧ r = .typeCycle e.name e.span

theorem findEdge_spec {deps : Deps α σ} {st : List State} (hl : st.length = deps.length)
    {es : List (Id α σ)} (hes : ∀ e ∈ es, e.name ∈ keys deps) :
    (findEdge deps st es = none ∧ ∀ j ∈ tgts deps es, out st j = 0) ∨
    ∃ e j, e ∈ es ∧ getFull deps e.name = some j ∧ out st j ≠ 0 ∧
      findEdge deps st es = some (.typeCycle e.name e.span) := by
  induction es with
  | nil => exact Or.inl ⟨rfl, by simp [tgts]⟩
  | cons e es ih =>
    cases hg : getFull deps e.name with
    | none => exact absurd (hes e (by simp)) (getFull_none.mp hg)
    | some j =>
      obtain ⟨s, hs⟩ := getElem?_of_lt (l := st) (j := j) (by rw [hl]; exact getFull_lt hg)
      simp only [findEdge, hg, hs]
      by_cases h0 : s.outboundRemaining = 0
      · rw [if_pos h0]
        rcases ih (fun e he => hes e (by simp [he])) with ⟨h1, h2⟩ | ⟨e', j', h1, h2, h3, h4⟩
        · refine Or.inl ⟨h1, ?_⟩
          have ht : tgts deps (e :: es) = j :: tgts deps es := by simp [tgts, hg]
          rw [ht]
          intro k hk
          rcases List.mem_cons.mp hk with rfl | hk
          · rw [out_get hs]; exact h0
          · exact h2 k hk
        · exact Or.inr ⟨e', j', by simp [h1], h2, h3, h4⟩
      · rw [if_neg h0]
        exact Or.inr ⟨e, j, by simp, hg, by rw [out_get hs]; exact h0, rfl⟩

theorem findCycle_spec {deps : Deps α σ} (hf : AllFound deps deps) {done : List Nat}
    {st : List State} (hl : st.length = deps.length)
    (hout : ∀ k < deps.length, out st k = 0 ↔ k ∈ done)
    (hun : ∀ k, k < deps.length → k ∉ done → ∃ j ∈ adj deps k, j ∉ done)
    {i : Nat} {rest : List State} (hrest : st.drop i = rest)
    (hex : ∃ k, i ≤ k ∧ k < deps.length ∧ k ∉ done) :
    CycleRes deps done (findCycle deps st i rest) := by
  induction rest generalizing i with
  | nil =>
    obtain ⟨k, h1, h2, -⟩ := hex
    have : st.length ≤ i := by simpa using hrest
    omega
  | cons s rest ih =>
    have hi : i < st.length := by
      by_contra hc
      rw [List.drop_eq_nil_of_le (by omega)] at hrest
      cases hrest
    have hs : st[i]? = some s := by rw [← List.head?_drop, hrest]; rfl
    have hrest' : st.drop (i + 1) = rest := by rw [← List.drop_drop, hrest]; rfl
    have hi' : i < deps.length := by omega
    have ho := hout i hi'
    rw [out_get hs] at ho
    unfold findCycle
    by_cases h0 : s.outboundRemaining = 0
    · rw [if_pos h0]
      apply ih hrest'
      obtain ⟨k, h1, h2, h3⟩ := hex
      refine ⟨k, ?_, h2, h3⟩
      by_contra hc
      have : k = i := by omega
      subst this
      exact h3 (ho.mp h0)
    · rw [if_neg h0]
      have hid : i ∉ done := fun hc => h0 (ho.mpr hc)
      obtain ⟨⟨x, es⟩, hp⟩ := getElem?_of_lt hi'
      have hE : edgesAt deps i = es := by simp [edgesAt, hp]
      simp only [hp]
      rcases findEdge_spec hl (hf _ (List.mem_of_getElem? hp)) with ⟨h1, h2⟩ | ⟨e, j, h1, h2, h3, h4⟩
      · obtain ⟨j, hj, hjd⟩ := hun i hi' hid
        have hj' : j ∈ tgts deps es := by rw [← hE]; exact hj
        exact absurd ((hout j (tgts_lt hj)).mp (h2 j hj')) hjd
      · simp only [h4]
        exact ⟨i, e, j, by rw [hE]; exact h1, hi', hid, h2,
          fun hc => h3 ((hout j (getFull_lt h2)).mpr hc), rfl⟩

/-- The outcome when no dependency is missing. -/
theorem toposort_found {deps : Deps α σ} (hwf : WF deps) (hf : AllFound deps deps) :
    (∃ order, toposort deps = .ok order ∧ SourceStable deps order) ∨
    ∃ x es e, (x, es) ∈ deps ∧ e ∈ es ∧ Blocked deps x ∧ Blocked deps e.name ∧
      toposort deps = .typeCycle e.name e.span := by
  obtain ⟨st, order, done, hinv, heq⟩ := toposort_run hf
  by_cases hc : order.length = deps.length
  · rw [if_pos hc] at heq
    exact Or.inl ⟨order, heq, stable_of_inv hwf hf hinv hc⟩
  · rw [if_neg hc] at heq
    right
    have hheap : ∀ k, k < deps.length → k ∉ done → open' deps done k ≠ 0 := by
      intro k h1 h2 h3
      have := (hinv.heap.mem k).mpr ⟨h1, h2, h3⟩
      simp at this
    have hun : ∀ k, k < deps.length → k ∉ done → ∃ j ∈ adj deps k, j ∉ done := by
      intro k h1 h2
      have := hheap k h1 h2
      rw [ne_eq, open'_zero] at this
      simpa using this
    have hout : ∀ k < deps.length, out st k = 0 ↔ k ∈ done := by
      intro k hk
      rw [hinv.out k hk]
      constructor
      · intro h0
        by_contra hc
        exact hheap k hk hc h0
      · intro hk; exact open'_zero.mpr fun j hj => hinv.good.closed hk hj
    have hex : ∃ k, 0 ≤ k ∧ k < deps.length ∧ k ∉ done := by
      by_contra hno
      apply hc
      refine (done_complete hinv).mpr fun k hk => ?_
      by_contra hkd
      exact hno ⟨k, Nat.zero_le k, hk, hkd⟩
    obtain ⟨i, e, j, h1, h2, h3, h4, h5, h6⟩ :=
      findCycle_spec hf hinv.len hout hun (i := 0) rfl hex
    obtain ⟨⟨x, es⟩, hp⟩ := getElem?_of_lt h2
    have hE : edgesAt deps i = es := by simp [edgesAt, hp]
    refine ⟨x, es, e, List.mem_of_getElem? hp, hE ▸ h1, ?_, ?_, heq.trans h6⟩
    · exact blocked_of_undone hwf hf hun h2 h3 (by simp [keys, hp])
    · exact blocked_of_undone hwf hf hun (getFull_lt h4) h5 ((getFull_some hwf).mp h4)

omit [DecidableEq α] in
theorem closed_iff {deps : Deps α σ} : Closed deps ↔ AllFound deps deps := by
  constructor
  · rintro h ⟨x, es⟩ hp e he
    exact h x e.name ⟨es, hp, e, he, rfl⟩
  · rintro h x y ⟨es, hp, e, he, rfl⟩
    exact h _ hp e he

omit [DecidableEq α] in
theorem missing_of_not_closed {deps : Deps α σ} (h : ¬ Closed deps) :
    ∃ e, FirstMissing deps e := by
  classical
  have : ∀ l : List (Id α σ), (∃ e ∈ l, e.name ∉ keys deps) →
      ∃ before e after, l = before ++ e :: after ∧ e.name ∉ keys deps ∧
        ∀ e ∈ before, e.name ∈ keys deps := by
    intro l
    induction l with
    | nil => simp
    | cons a l ih =>
      intro hex
      by_cases ha : a.name ∈ keys deps
      · obtain ⟨e, he, hn⟩ := hex
        rcases List.mem_cons.mp he with rfl | he
        · exact absurd ha hn
        · obtain ⟨b, e', c, h1, h2, h3⟩ := ih ⟨e, he, hn⟩
          refine ⟨a :: b, e', c, by simp [h1], h2, ?_⟩
          intro x hx
          rcases List.mem_cons.mp hx with rfl | hx
          · exact ha
          · exact h3 x hx
      · exact ⟨[], a, l, rfl, ha, by simp⟩
  rw [closed_iff] at h
  unfold AllFound at h
  push Not at h
  obtain ⟨p, hp, e, he, hn⟩ := h
  obtain ⟨b, e', c, h1, h2, h3⟩ := this (deps.map Prod.snd).flatten
    ⟨e, by simp only [List.mem_flatten, List.mem_map]; exact ⟨p.2, ⟨p, hp, rfl⟩, he⟩, hn⟩
  exact ⟨e', b, c, h1, h2, h3⟩

theorem toposort_missing {deps : Deps α σ} {e : Id α σ} (h : FirstMissing deps e) :
    toposort deps = .itemNotFound e.name e.span := by
  obtain ⟨pre, post, h1, h2, h3⟩ := h
  have := build_err (deps := deps) (rest := deps) (i := 0) rfl h1 h3 h2
    (st := List.replicate deps.length ⟨0, []⟩) (by simp)
  simp only [toposort, this]

end Verif.Topo
