import Verif.Valid.ModSpec
import Verif.Valid.Const
import Verif.Remod.ModuleLemmas
/-! # The sections of a module one after the other -/
namespace Verif.Valid
open Verif.Reader Verif.Items Verif.Parser
open Verif.Valid.Spec
open Verif.Std (BSearch)
open Verif.Remod (Groups Plain)

variable {f : Feats} {bs : BSearch}

theorem pure_ok {α : Type} {a b : α} (h : (pure a : X α) = .ok b) : a = b := by
  cases h; rfl

/-! ## Loops -/

/-- A loop over a list. -/
def fold {α σ : Type} (g : σ → α → X σ) : List α → σ → X σ
  | [], s => .ok s
  | a :: as, s => do fold g as (← g s a)

theorem eachFrom_ok {α σ : Type} {item : R α} {g : σ → α → X σ} :
    ∀ {n : Nat} {r : Reader} {s s' : σ}, eachFrom item g n r s = .ok s' →
      ∃ xs, collectFrom item n r = .ok xs ∧ fold g xs s = .ok s'
  | 0, r, s, s', h => by
    obtain ⟨_, h1, h2⟩ := bind_ok h
    cases pure_ok h2
    refine ⟨[], ?_, rfl⟩
    unfold collectFrom
    rw [if_pos (need_ok h1)]
  | n + 1, r, s, s', h => by
    obtain ⟨⟨a, r'⟩, h1, h2⟩ := bind_ok h
    obtain ⟨s1, h3, h4⟩ := bind_ok h2
    obtain ⟨xs, h5, h6⟩ := eachFrom_ok h4
    refine ⟨a :: xs, ?_, ?_⟩
    · unfold collectFrom
      cases hi : item r with
      | error e => rw [hi] at h1; cases h1
      | ok p =>
        rw [hi] at h1
        cases h1
        dsimp only
        rw [h5]
    · show (g s a >>= fun s => fold g xs s) = _
      rw [h3]
      exact h6

theorem eachItem_ok {α σ : Type} {item : R α} {g : σ → α → X σ} {sec : SectionLimited} {s s' : σ}
    (h : eachItem item g sec s = .ok s') :
    ∃ xs, sec.collect item = .ok xs ∧ fold g xs s = .ok s' := eachFrom_ok h

theorem eachFrom_of {α σ : Type} {item : R α} {g : σ → α → X σ} {s' : σ} :
    ∀ {n : Nat} {r : Reader} {s : σ} {xs : List α}, collectFrom item n r = .ok xs →
      fold g xs s = .ok s' → eachFrom item g n r s = .ok s'
  | 0, r, s, xs, h, h' => by
    unfold collectFrom at h
    split at h
    · next he =>
      cases h
      cases h'
      unfold eachFrom need
      rw [if_pos he]
      rfl
    · cases h
  | n + 1, r, s, xs, h, h' => by
    unfold collectFrom at h
    split at h
    · cases h
    · next a r' hi =>
      split at h
      · cases h
      · next as has =>
        cases h
        obtain ⟨s1, h1, h2⟩ := bind_ok h'
        unfold eachFrom
        rw [hi]
        show (g s a >>= fun s => eachFrom item g n r' s) = _
        rw [h1]
        exact eachFrom_of has h2

theorem eachItem_of {α σ : Type} {item : R α} {g : σ → α → X σ} {sec : SectionLimited} {s s' : σ}
    {xs : List α} (h : sec.collect item = .ok xs) (h' : fold g xs s = .ok s') :
    eachItem item g sec s = .ok s' := eachFrom_of h h'

/-! ## One section -/

/-- The entries of the code section. -/
def codeEntries (V : Validator) : List Reader → X (Validator × List (FuncToValidate × Reader))
  | [] => .ok (V, [])
  | b :: rs => do
    let (V1, fn) ← codeSectionEntry V b
    let (V2, fns) ← codeEntries V1 rs
    pure (V2, (fn, b) :: fns)

variable (f bs) in
/-- The effect of the section with this id, if there is one. -/
def SecStep (tr : List Event) (id : UInt8) (V V' : Validator)
    (fns : List (FuncToValidate × Reader)) : Prop :=
  if id = 8 then fns = [] ∧ match startAt tr with
    | none => V' = V
    | some i => startSection V i = .ok V'
  else if id = 12 then fns = [] ∧ match dataCountAt tr with
    | none => V' = V
    | some n => dataCountSection V n = .ok V'
  else if id = 10 then
    (bodiesAt tr = [] ∧ V' = V ∧ fns = []) ∨
    ∃ V1, codeSectionStart V = .ok V1 ∧ codeEntries V1 (bodiesAt tr) = .ok (V', fns)
  else fns = [] ∧ match sectionAt tr id with
    | none => V' = V
    | some sec => itemSection f bs V id sec = .ok V'

variable (f bs) in
/-- The sections with these ids one after the other. -/
inductive Along (tr : List Event) : List UInt8 → Validator → Validator →
    List (FuncToValidate × Reader) → Prop
  | nil {V} : Along tr [] V V []
  | cons {id ids V V1 V2 fns fns'} : SecStep f bs tr id V V1 fns → Along tr ids V1 V2 fns' →
    Along tr (id :: ids) V V2 (fns ++ fns')

theorem findSome_none {α β : Type} {g : α → Option β} {l : List α} (h : ∀ x ∈ l, g x = none) :
    l.findSome? g = none := List.findSome?_eq_none_iff.2 h

theorem ids_of {tr : List Event} {ev : Event} (h : ev ∈ tr) {id : UInt8}
    (hi : sectionId? ev.payload = some id) : id ∈ sectionIds tr :=
  List.mem_filterMap.2 ⟨ev, h, hi⟩

theorem section_absent {tr : List Event} {id : UInt8} (h : id ∉ sectionIds tr) :
    sectionAt tr id = none := by
  refine findSome_none fun ev hev => ?_
  split
  · next i c r he =>
    rw [if_neg]
    rintro rfl
    exact h (ids_of hev (by rw [he]; rfl))
  · rfl

theorem start_absent {tr : List Event} (h : 8 ∉ sectionIds tr) : startAt tr = none := by
  refine findSome_none fun ev hev => ?_
  split
  · next i c he => exact absurd (ids_of hev (by rw [he]; rfl)) h
  · rfl

theorem dataCount_absent {tr : List Event} (h : 12 ∉ sectionIds tr) : dataCountAt tr = none := by
  refine findSome_none fun ev hev => ?_
  split
  · next i c he => exact absurd (ids_of hev (by rw [he]; rfl)) h
  · rfl

theorem bodies_entries {evs : List Event} {bodies : List Reader}
    (h : evs.map Event.payload = bodies.map Payload.codeEntry) : bodiesAt evs = bodies := by
  induction evs generalizing bodies with
  | nil => cases bodies with
    | nil => rfl
    | cons => cases h
  | cons e evs ih =>
    cases bodies with
    | nil => cases h
    | cons b bodies =>
      simp only [List.map_cons, List.cons.injEq] at h
      unfold bodiesAt
      rw [List.filterMap_cons, h.1]
      dsimp only
      exact congrArg _ (ih h.2)

theorem bodies_append {a b : List Event} : bodiesAt (a ++ b) = bodiesAt a ++ bodiesAt b :=
  List.filterMap_append

theorem bodies_skip {e : Event} {tr : List Event} (h : ∀ r, e.payload ≠ .codeEntry r) :
    bodiesAt (e :: tr) = bodiesAt tr := by
  unfold bodiesAt
  rw [List.filterMap_cons]
  split
  · rfl
  · next hb =>
    split at hb
    · next he => exact absurd he (h _)
    · cases hb

theorem plain_body {pl : Payload} (h : Plain pl) (r : Reader) : pl ≠ .codeEntry r := by
  rintro rfl
  exact h

theorem bodies_absent {off : Nat} {data : List UInt8} {tr : List Event} (hg : Groups off data tr)
    (h : 10 ∉ sectionIds tr) : bodiesAt tr = [] := by
  induction hg with
  | fin => rfl
  | @plain n pl tr hp _ _ ih =>
    rw [bodies_skip fun r => plain_body hp r]
    refine ih fun hm => h ?_
    obtain ⟨ev, h1, h2⟩ := List.mem_filterMap.1 hm
    exact ids_of (List.mem_cons_of_mem _ h1) h2
  | @code n count rg size sec s bodies evs tr =>
    exact absurd (ids_of (List.mem_cons_self ..) rfl) h

theorem absent_step {off : Nat} {data : List UInt8} {tr : List Event} (hg : Groups off data tr)
    {id : UInt8} (h : id ∉ sectionIds tr) (V : Validator) : SecStep f bs tr id V V [] := by
  unfold SecStep
  split
  · next e => subst e; rw [start_absent h]; exact ⟨rfl, rfl⟩
  · split
    · next e => subst e; rw [dataCount_absent h]; exact ⟨rfl, rfl⟩
    · split
      · next e => subst e; exact .inl ⟨bodies_absent hg h, rfl, rfl⟩
      · rw [section_absent h]; exact ⟨rfl, rfl⟩

/-- Other events do not matter. -/
theorem SecStep.pre {pre tr : List Event} {id : UInt8} (hp : id ∉ sectionIds pre)
    (hb : id = 10 → bodiesAt pre = []) {V V' : Validator} {fns : List (FuncToValidate × Reader)}
    (h : SecStep f bs tr id V V' fns) : SecStep f bs (pre ++ tr) id V V' fns := by
  unfold SecStep at h ⊢
  split
  · next e =>
    subst e
    rw [if_pos rfl] at h
    have : startAt (pre ++ tr) = startAt tr := by
      have := start_absent hp
      unfold startAt at this ⊢
      rw [List.findSome?_append, this]
      rfl
    rw [this]
    exact h
  · next e1 =>
    rw [if_neg e1] at h
    split
    · next e =>
      subst e
      rw [if_pos rfl] at h
      have : dataCountAt (pre ++ tr) = dataCountAt tr := by
        have := dataCount_absent hp
        unfold dataCountAt at this ⊢
        rw [List.findSome?_append, this]
        rfl
      rw [this]
      exact h
    · next e2 =>
      rw [if_neg e2] at h
      split
      · next e =>
        subst e
        rw [if_pos rfl] at h
        rw [bodies_append, hb rfl]
        exact h
      · next e3 =>
        rw [if_neg e3] at h
        have : sectionAt (pre ++ tr) id = sectionAt tr id := by
          have := section_absent hp
          unfold sectionAt at this ⊢
          rw [List.findSome?_append, this]
          rfl
        rw [this]
        exact h

theorem Along.pre {pre tr : List Event} {ids : List UInt8} (hp : ∀ id ∈ ids, id ∉ sectionIds pre)
    (hb : 10 ∈ ids → bodiesAt pre = []) {V V' : Validator} {fns : List (FuncToValidate × Reader)}
    (h : Along f bs tr ids V V' fns) : Along f bs (pre ++ tr) ids V V' fns := by
  induction h with
  | nil => exact .nil
  | @cons id ids V V1 V2 fns fns' h1 h2 ih =>
    refine .cons (h1.pre (hp id (by simp)) fun e => hb (by simp [e])) (ih ?_ ?_)
    · exact fun i hi => hp i (by simp [hi])
    · exact fun hi => hb (by simp [hi])

/-- A section, when its id comes up. -/
theorem along_hit {off : Nat} {data : List UInt8} {tr : List Event} (hg : Groups off data tr)
    {pre : List Event} {id : UInt8} (hpre : sectionIds pre = [id])
    (hb : id ≠ 10 → bodiesAt pre = []) (hg' : Groups off data (pre ++ tr))
    {V V1 V2 : Validator} {fns fns' : List (FuncToValidate × Reader)}
    (h1 : id ∉ sectionIds tr → SecStep f bs (pre ++ tr) id V V1 fns)
    (h2 : ∀ ids, (sectionIds tr).Sublist ids → ids.Nodup → Along f bs tr ids V1 V2 fns') :
    ∀ ids, (sectionIds (pre ++ tr)).Sublist ids → ids.Nodup →
      Along f bs (pre ++ tr) ids V V2 (fns ++ fns') := by
  have e : sectionIds (pre ++ tr) = id :: sectionIds tr := by
    unfold sectionIds at hpre ⊢
    rw [List.filterMap_append, hpre]
    rfl
  intro ids
  induction ids with
  | nil =>
    intro hs
    rw [e] at hs
    cases hs
  | cons a ids ih =>
    intro hs hn
    obtain ⟨hn1, hn2⟩ := List.nodup_cons.1 hn
    rw [e] at hs ih
    cases hs with
    | cons _ hs =>
      have ha : a ∉ sectionIds (pre ++ tr) := by
        rw [e]
        exact fun h => hn1 (hs.subset h)
      have := Along.cons (absent_step (f := f) (bs := bs) hg' ha V) (ih hs hn2)
      simpa using this
    | cons_cons _ hs =>
      refine .cons (h1 fun h => hn1 (hs.subset h)) ((h2 ids hs hn2).pre ?_ ?_)
      · intro i hi
        rw [hpre, List.mem_singleton]
        rintro rfl
        exact hn1 hi
      · intro hi
        refine hb ?_
        rintro rfl
        exact hn1 hi

theorem payloads_entries {evs tr : List Event} {bodies : List Reader}
    (h : evs.map Event.payload = bodies.map Payload.codeEntry) {V V2 : Validator}
    {fns : List (FuncToValidate × Reader)} (hr : payloads f bs V (evs ++ tr) = .ok (V2, fns)) :
    ∃ V1 fns1 fns2, codeEntries V bodies = .ok (V1, fns1) ∧ payloads f bs V1 tr = .ok (V2, fns2) ∧
      fns = fns1 ++ fns2 := by
  induction evs generalizing bodies V fns with
  | nil =>
    cases bodies with
    | nil => exact ⟨V, [], fns, rfl, hr, rfl⟩
    | cons => cases h
  | cons e evs ih =>
    cases bodies with
    | nil => cases h
    | cons b bodies =>
      simp only [List.map_cons, List.cons.injEq] at h
      obtain ⟨⟨Va, fn⟩, h1, h2⟩ := bind_ok hr
      obtain ⟨⟨Vb, fns'⟩, h3, h4⟩ := bind_ok h2
      cases pure_ok h4
      rw [h.1] at h1
      obtain ⟨⟨Vc, fn'⟩, h5, h6⟩ := bind_ok h1
      cases pure_ok h6
      obtain ⟨V1, fns1, fns2, h7, h8, rfl⟩ := ih h.2 h3
      refine ⟨V1, (fn', b) :: fns1, fns2, ?_, h8, rfl⟩
      show (codeSectionEntry V b >>= fun x => codeEntries x.1 bodies >>= fun y =>
        pure (y.1, (x.2, b) :: y.2)) = _
      rw [h5]
      show (codeEntries _ bodies >>= fun y => pure (y.1, (fn', b) :: y.2)) = _
      rw [h7]
      rfl

/-- The sections of a module are processed in the order of their ids. -/
theorem along {off : Nat} {data : List UInt8} {tr : List Event} (hg : Groups off data tr)
    {V V' : Validator} {fns : List (FuncToValidate × Reader)}
    (h : payloads f bs V tr = .ok (V', fns)) :
    ∃ V1, endOf V1 = .ok V' ∧ ∀ ids, (sectionIds tr).Sublist ids → ids.Nodup →
      Along f bs tr ids V V1 fns := by
  induction hg generalizing V fns with
  | @fin n o =>
    obtain ⟨⟨V1, fn⟩, h1, h2⟩ := bind_ok h
    obtain ⟨⟨V2, fns'⟩, h3, h4⟩ := bind_ok h2
    cases pure_ok h3
    obtain ⟨V3, h5, h6⟩ := bind_ok h1
    cases pure_ok h6
    cases pure_ok h4
    refine ⟨V, h5, fun ids _ _ => ?_⟩
    induction ids with
    | nil => exact .nil
    | cons a ids ih => exact .cons (absent_step (off := off) (data := data) .fin (List.not_mem_nil) V) (ih (by simp [sectionIds, sectionId?]) (by
        rename_i hn; exact (List.nodup_cons.1 hn).2))
  | @plain n pl tr hp hpl hg ih =>
    obtain ⟨⟨V1, fn⟩, h1, h2⟩ := bind_ok h
    obtain ⟨⟨V2, fns'⟩, h3, h4⟩ := bind_ok h2
    cases pure_ok h4
    obtain ⟨V3, h5, h6⟩ := ih h3
    refine ⟨V3, h5, ?_⟩
    have hg' : Groups off data ([⟨n, pl⟩] ++ tr) := .plain hp hpl hg
    have hnb : bodiesAt [⟨n, pl⟩] = [] := by
      rw [bodies_skip fun r => plain_body hp r]
      rfl
    cases pl with
    | limited id count reader =>
      obtain ⟨V4, h7, h8⟩ := bind_ok h1
      cases pure_ok h8
      refine along_hit hg (pre := [⟨n, .limited id count reader⟩]) (id := id) rfl (fun _ => hnb) hg'
        (fns := []) (fun hid => ?_) h6
      unfold SecStep
      have hid' : id ∈ ([1, 2, 3, 4, 5, 6, 7, 9, 11, 13] : List UInt8) := hp
      have hne : id ≠ 8 ∧ id ≠ 12 ∧ id ≠ 10 := by
        simp only [List.mem_cons, List.not_mem_nil, or_false] at hid'
        rcases hid' with rfl | rfl | rfl | rfl | rfl | rfl | rfl | rfl | rfl | rfl <;> decide
      rw [if_neg hne.1, if_neg hne.2.1, if_neg hne.2.2]
      refine ⟨rfl, ?_⟩
      have : sectionAt ([⟨n, .limited id count reader⟩] ++ tr) id = some ⟨reader, count⟩ := by
        unfold sectionAt
        simp
      rw [this]
      exact h7
    | start func rg =>
      obtain ⟨V4, h7, h8⟩ := bind_ok h1
      cases pure_ok h8
      refine along_hit hg (pre := [⟨n, .start func rg⟩]) (id := 8) rfl (fun _ => hnb) hg'
        (fns := []) (fun hid => ?_) h6
      unfold SecStep
      rw [if_pos rfl]
      exact ⟨rfl, h7⟩
    | dataCount count rg =>
      obtain ⟨V4, h7, h8⟩ := bind_ok h1
      cases pure_ok h8
      refine along_hit hg (pre := [⟨n, .dataCount count rg⟩]) (id := 12) rfl (fun _ => hnb) hg'
        (fns := []) (fun hid => ?_) h6
      unfold SecStep
      rw [if_neg (by decide), if_pos rfl]
      exact ⟨rfl, h7⟩
    | custom name rd =>
      cases pure_ok h1
      intro ids hs hn
      exact (h6 ids hs hn).pre (pre := [⟨n, .custom name rd⟩]) (fun _ _ => List.not_mem_nil)
        fun _ => hnb
    | unknown => cases h1
    | _ => exact hp.elim
  | @code n count rg size sec s bodies evs tr hsec hnew hcount hcol hevs hg ih =>
    obtain ⟨⟨V1, fn⟩, h1, h2⟩ := bind_ok h
    obtain ⟨⟨V2, fns'⟩, h3, h4⟩ := bind_ok h2
    cases pure_ok h4
    obtain ⟨V4, h7, h8⟩ := bind_ok h1
    cases pure_ok h8
    obtain ⟨V5, fns1, fns2, h9, h10, rfl⟩ := payloads_entries hevs h3
    obtain ⟨V3, h5, h6⟩ := ih h10
    refine ⟨V3, h5, ?_⟩
    have hids : sectionIds evs = [] := by
      unfold sectionIds
      rw [List.filterMap_eq_nil_iff]
      intro ev hev
      have : ev.payload ∈ bodies.map Payload.codeEntry := hevs ▸ List.mem_map_of_mem hev
      obtain ⟨b, -, hb⟩ := List.mem_map.1 this
      rw [← hb]
      rfl
    have hpre : sectionIds (⟨n, .codeStart count rg size⟩ :: evs) = [10] := by
      unfold sectionIds at hids ⊢
      rw [List.filterMap_cons, hids]
      rfl
    refine along_hit hg (pre := ⟨n, .codeStart count rg size⟩ :: evs) (id := 10) hpre
      (fun h => absurd rfl h) (.code hsec hnew hcount hcol hevs hg) (fns := fns1)
      (fun hid => ?_) h6
    unfold SecStep
    rw [if_neg (by decide), if_neg (by decide), if_pos rfl]
    refine .inr ⟨_, h7, ?_⟩
    rw [bodies_append, bodies_absent hg hid, List.append_nil, bodies_skip (fun r h => by cases h),
      bodies_entries hevs]
    exact h9

end Verif.Valid
