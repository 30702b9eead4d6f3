import Verif.Parser.OrderLemmas
/-! Function, code and data counts. -/
namespace Verif.Parser
open Verif.Reader

/-- The counter after the payloads. -/
def over (o : Option Nat) (l : List Nat) : Option Nat := l.getLast?.or o

theorem over_cons (o : Option Nat) (a : Nat) (l : List Nat) :
    over o (a :: l) = over (some a) l := by
  cases l <;> simp [over, List.getLast?_cons]

def counts (id : UInt8) (tr : List Event) : List Nat :=
  tr.filterMap fun ev => announces id ev.payload

/-- Function bodies still to be reported in the current section. -/
def State.rem : State → Nat
  | .functionBody n _ => n
  | _ => 0

def isBody : Payload → Bool
  | .codeEntry _ => true
  | _ => false

theorem bodies_cons (ev : Event) (tr : List Event) :
    bodies (ev :: tr) = (if isBody ev.payload then 1 else 0) + bodies tr := by
  obtain ⟨n, pl⟩ := ev
  cases pl <;> simp [bodies, isBody, Nat.add_comm]

theorem counts_cons (id : UInt8) (ev : Event) (tr : List Event) :
    counts id (ev :: tr) = (announces id ev.payload).toList ++ counts id tr := by
  unfold counts
  cases h : announces id ev.payload <;> simp [h]

/-- The counters that a payload sets. -/
structure CountStep (p p' : Parser) (pl : Payload) : Prop where
  f : p'.counts.functionEntries = (announces 3 pl).or p.counts.functionEntries
  c : p'.counts.codeEntries = (announces 10 pl).or p.counts.codeEntries
  d : p'.counts.dataEntries = (announces 11 pl).or p.counts.dataEntries
  n : p'.counts.dataCount = (announces 12 pl).or p.counts.dataCount
  rem : p'.state.rem + (if isBody pl then 1 else 0) =
    p.state.rem + ((announces 10 pl).getD 0)
  fin : ∀ o, pl = .endOf o → (∀ n, checkFunctionCodeCounts p.counts n = .ok ()) ∧
    (∀ n, checkDataCount p.counts n = .ok ())

theorem check1_any {c : Counts} {n : Nat} (h : checkFunctionCodeCounts c n = .ok ()) (m : Nat) :
    checkFunctionCodeCounts c m = .ok () := by
  unfold checkFunctionCodeCounts at h ⊢
  repeat' split at h
  all_goals simp_all

theorem check2_any {c : Counts} {n : Nat} (h : checkDataCount c n = .ok ()) (m : Nat) :
    checkDataCount c m = .ok () := by
  unfold checkDataCount at h ⊢
  repeat' split at h
  all_goals simp_all

theorem moduleBody_counts {p p' : Parser} {h : Header} {r r' : Reader} {pl}
    (hh : moduleBody p h r = (.ok (pl, r'), p')) (hs : p.state.rem = 0) : CountStep p p' pl := by
  unfold moduleBody at hh
  repeat' split at hh
  all_goals obtain ⟨a, h1, h2⟩ := runBody_ok hh
  all_goals dsimp only at h2
  all_goals try split at h2
  all_goals cases h2
  all_goals refine ⟨?_, ?_, ?_, ?_, ?_, fun o he => by cases he⟩
  all_goals try simp [announces, isBody, *]
  all_goals simp [State.rem]

theorem sectionStart_counts {p p' : Parser} {r r' : Reader} {e pl}
    (hm : p.encoding = .module) (hs : p.state.rem = 0)
    (hh : parseSectionStart p r e = (.ok (pl, r'), p')) : CountStep p p' pl := by
  unfold parseSectionStart at hh
  split at hh
  · split at hh
    · cases hh
    · split at hh
      · cases hh
      · rename_i h1 _ h2
        cases hh
        exact ⟨rfl, rfl, rfl, rfl, rfl, fun _ _ => ⟨check1_any h1, check2_any h2⟩⟩
  · split at hh
    · cases hh
    · split at hh
      · cases hh
      · unfold parseSection at hh
        split at hh
        · obtain ⟨a, _, h2⟩ := runBody_ok hh
          cases h2
          exact ⟨rfl, rfl, rfl, rfl, rfl, fun _ h => by cases h⟩
        · rw [hm] at hh
          dsimp only at hh
          split at hh
          · split at hh
            · cases hh
            · rename_i p1 hu
              have e1 := updateOrder_ok hu
              subst e1
              have := moduleBody_counts hh hs
              exact ⟨this.f, this.c, this.d, this.n, this.rem, this.fin⟩
          · unfold unknownBody at hh
            obtain ⟨a, _, h2⟩ := runBody_ok hh
            cases h2
            exact ⟨rfl, rfl, rfl, rfl, rfl, fun _ h => by cases h⟩

theorem parse_counts {p p' : Parser} {b : List UInt8} {e n pl}
    (hm : p.encoding = .module) 
    (h : parse p b e = (.ok (.parsed n pl), p')) : CountStep p p' pl := by
  obtain ⟨d, e', r', q, hd, hs, hp, he, rfl, hnd, _, _, rfl, hl, _⟩ := parse_eff h
  suffices CountStep p q pl from ⟨this.f, this.c, this.d, this.n, this.rem, this.fin⟩
  unfold parseReader at hp
  split at hp
  · rename_i hst
    unfold parseHeader at hp
    dsimp only at hp
    repeat' split at hp
    all_goals cases hp
    all_goals exact ⟨rfl, rfl, rfl, rfl, by simp [State.rem, isBody, announces, hst], fun _ h => by cases h⟩
  · rename_i hst
    exact sectionStart_counts hm (by rw [hst]; rfl) hp
  · rename_i hst
    repeat' split at hp
    · rename_i hr _
      have := sectionStart_counts (p := { p with state := .sectionStart }) hm rfl hp
      refine ⟨this.f, this.c, this.d, this.n, ?_, this.fin⟩
      rw [this.rem, hst]
      simp [State.rem, hr]
    · cases hp
    · unfold parseFunctionBody at hp
      obtain ⟨a, _, h2⟩ := runBody_ok hp
      cases h2
      refine ⟨rfl, rfl, rfl, rfl, ?_, fun _ h => by cases h⟩
      rw [hst]
      simp [State.rem, isBody, announces]
      omega

theorem check1_spec {c : Counts} {n : Nat} (h : checkFunctionCodeCounts c n = .ok ()) :
    c.functionEntries.getD 0 = c.codeEntries.getD 0 := by
  unfold checkFunctionCodeCounts at h
  split at h
  · split at h <;> simp_all
  · split at h <;> simp_all
  · split at h
    · cases h
    · rename_i e1 e2 h3
      rw [e1, e2]; simp; omega
  · simp_all

theorem check2_spec {c : Counts} {n : Nat} (h : checkDataCount c n = .ok ()) :
    ∀ k, c.dataCount = some k → c.dataEntries.getD 0 = k := by
  unfold checkDataCount at h
  split at h
  · split at h <;> simp_all
  · split at h <;> simp_all
  · simp_all

theorem over_or (o : Option Nat) (x : Option Nat) (l : List Nat) :
    over (x.or o) l = over o (x.toList ++ l) := by
  cases x with
  | none => simp [over]
  | some a => simp only [Option.toList_some, List.singleton_append, Option.some_or, over_cons]

/-- The functions announced by the parser so far (`p`) and in the rest of a successful run
have bodies. -/
theorem drive_counts {p : Parser} {st : List Parser} {buf : List UInt8}
    {fut : List (List UInt8)} {tr out} (h : Drive p st buf fut tr out) :
    st = [] → p.encoding = .module → p.maxOffset = none → fut = [] →
    (∀ ev ∈ tr, ¬ IsComponent ev.payload) → out = none →
    (over p.counts.functionEntries (counts 3 tr)).getD 0 =
      (over p.counts.codeEntries (counts 10 tr)).getD 0 ∧
    (∀ n, over p.counts.dataCount (counts 12 tr) = some n →
      (over p.counts.dataEntries (counts 11 tr)).getD 0 = n) := by
  induction h with
  | more h1 h2 ih => intro _ _ _ hf; cases hf
  | @step p p' st buf fut n pl q st' tr out h1 h2 h3 ih =>
    intro hst hm hx hf hns ho
    subst hst hf
    obtain ⟨rfl, rfl, f1, f2, f3, f4⟩ :=
      module_next hm hx (hns ⟨n, pl⟩ (List.mem_cons_self ..)) h1 h2
    have hc := parse_counts hm h1
    have hi := ih rfl f1 f2 rfl (fun ev he => hns ev (by simp [he])) ho
    rw [hc.f, hc.c, hc.d, hc.n] at hi
    simpa only [over_or, counts_cons] using hi
  | @done p p' st buf fut n pl h1 h2 =>
    intro hst hm hx hf hns ho
    subst hst hf
    have hc := parse_counts hm h1
    obtain ⟨o, rfl⟩ : ∃ o, pl = .endOf o := by
      unfold next at h2
      split at h2
      · cases h2
      · exact ⟨_, rfl⟩
      · cases h2
    obtain ⟨c1, c2⟩ := hc.fin o rfl
    refine ⟨?_, ?_⟩
    · simpa [counts, announces, over] using check1_spec (c1 0)
    · simpa [counts, announces, over] using check2_spec (c2 0)
  | err h1 => intro _ _ _ _ _ h; cases h

theorem end_rem {p p' : Parser} {b : List UInt8} {e n o}
    (h : parse p b e = (.ok (.parsed n (.endOf o)), p')) : p.state.rem = 0 := by
  obtain ⟨d, e', r', q, hd, hs, hp, he, rfl, hnd, _, _, rfl, hl, _⟩ := parse_eff h
  unfold parseReader at hp
  split at hp
  · rename_i h; rw [h]; rfl
  · rename_i h; rw [h]; rfl
  · rename_i h
    repeat' split at hp
    · rw [h]; simpa [State.rem]
    · cases hp
    · unfold parseFunctionBody at hp
      obtain ⟨a, _, h2⟩ := runBody_ok hp
      cases h2

theorem drive_bodies {p : Parser} {st : List Parser} {buf : List UInt8}
    {fut : List (List UInt8)} {tr out} (h : Drive p st buf fut tr out) :
    st = [] → p.encoding = .module → p.maxOffset = none → fut = [] →
    (∀ ev ∈ tr, ¬ IsComponent ev.payload) → out = none →
    bodies tr = p.state.rem + (counts 10 tr).sum := by
  induction h with
  | more h1 h2 ih => intro _ _ _ hf; cases hf
  | @step p p' st buf fut n pl q st' tr out h1 h2 h3 ih =>
    intro hst hm hx hf hns ho
    subst hst hf
    obtain ⟨rfl, rfl, f1, f2, f3, f4⟩ :=
      module_next hm hx (hns ⟨n, pl⟩ (List.mem_cons_self ..)) h1 h2
    have hc := (parse_counts hm h1).rem
    have hi := ih rfl f1 f2 rfl (fun ev he => hns ev (by simp [he])) ho
    rw [bodies_cons, hi, counts_cons, List.sum_append]
    have : (announces 10 pl).toList.sum = (announces 10 pl).getD 0 := by
      cases announces 10 pl <;> simp
    simp only [this]
    omega
  | @done p p' st buf fut n pl h1 h2 =>
    intro hst hm hx hf hns ho
    obtain ⟨o, rfl⟩ : ∃ o, pl = .endOf o := by
      unfold next at h2
      split at h2
      · cases h2
      · exact ⟨_, rfl⟩
      · cases h2
    rw [end_rem h1]
    simp [bodies, counts, announces]
  | err h1 => intro _ _ _ _ _ h; cases h

theorem announces_id {id : UInt8} {pl : Payload} {n : Nat} (h : announces id pl = some n) :
    sectionId? pl = some id := by
  cases pl <;> simp_all [announces, sectionId?]

theorem counts_le (id : UInt8) (tr : List Event) :
    (counts id tr).length ≤ (sectionIds tr).count id := by
  induction tr with
  | nil => simp [counts]
  | cons ev tr ih =>
    rw [counts_cons]
    have e : sectionIds (ev :: tr) = (sectionId? ev.payload).toList ++ sectionIds tr := by
      unfold sectionIds
      cases h : sectionId? ev.payload <;> simp [h]
    rw [e, List.length_append, List.count_append]
    cases h : announces id ev.payload with
    | none => simp; omega
    | some n => rw [announces_id h]; simp; omega

theorem over_sum {l : List Nat} (h : l.length ≤ 1) : (over none l).getD 0 = l.sum := by
  match l, h with
  | [], _ => rfl
  | [a], _ => simp [over]

theorem counts_one {tr : List Event} (h : (sectionIds tr).Sublist moduleOrder) (id : UInt8) :
    (counts id tr).length ≤ 1 := by
  have h1 := counts_le id tr
  have h2 := h.count_le id
  have h3 : moduleOrder.count id ≤ 1 := by
    have : moduleOrder.Nodup := by decide
    exact List.nodup_iff_count.mp this id
  omega

/-- A data count section always announces a number. -/
theorem counts_mem {tr : List Event} (h : ∃ ev ∈ tr, ∃ c rg, ev.payload = .dataCount c rg) :
    counts 12 tr ≠ [] := by
  obtain ⟨ev, he, c, rg, hp⟩ := h
  intro h0
  have : c.toNat ∈ counts 12 tr := List.mem_filterMap.mpr ⟨ev, he, by simp [hp, announces]⟩
  rw [h0] at this
  cases this

end Verif.Parser
