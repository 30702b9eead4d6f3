import Verif.Valid.Along
/-! # Sections one after the other make up a run of the validator -/
namespace Verif.Valid
open Verif.Reader Verif.Parser Verif.Remod
open Spec
open Verif.Std (BSearch)

variable {f : Feats} {bs : BSearch}

variable (f bs) in
/-- What happens to the section with this id, if there is one. -/
def Ran (tr : List Event) (id : UInt8) (V V' : Validator)
    (fns : List (FuncToValidate × Reader)) : Prop :=
  if id = 8 then fns = [] ∧ match startAt tr with
    | none => V' = V
    | some i => startSection V i = .ok V'
  else if id = 12 then fns = [] ∧ match dataCountAt tr with
    | none => V' = V
    | some n => dataCountSection V n = .ok V'
  else if id = 10 then
    if 10 ∈ sectionIds tr then
      ∃ V1, codeSectionStart V = .ok V1 ∧ codeEntries V1 (bodiesAt tr) = .ok (V', fns)
    else V' = V ∧ fns = []
  else fns = [] ∧ match sectionAt tr id with
    | none => V' = V
    | some sec => itemSection f bs V id sec = .ok V'

variable (f bs) in
inductive Runs (tr : List Event) : List UInt8 → Validator → Validator →
    List (FuncToValidate × Reader) → Prop
  | nil {V} : Runs tr [] V V []
  | cons {id ids V V1 V2 fns fns'} : Ran f bs tr id V V1 fns → Runs tr ids V1 V2 fns' →
    Runs tr (id :: ids) V V2 (fns ++ fns')

theorem Ran.absent {tr : List Event} {id : UInt8} {V V' : Validator}
    {fns : List (FuncToValidate × Reader)} (h : Ran f bs tr id V V' fns) (hn : id ∉ sectionIds tr) :
    V' = V ∧ fns = [] := by
  unfold Ran at h
  split at h
  · next e => subst e; rw [start_absent hn] at h; exact ⟨h.2, h.1⟩
  · split at h
    · next e => subst e; rw [dataCount_absent hn] at h; exact ⟨h.2, h.1⟩
    · split at h
      · next e => subst e; rw [if_neg hn] at h; exact h
      · rw [section_absent hn] at h; exact ⟨h.2, h.1⟩

theorem Ran.strip {pre tr : List Event} {id : UInt8} (hp : id ∉ sectionIds pre)
    (hb : id = 10 → bodiesAt pre = []) {V V' : Validator} {fns : List (FuncToValidate × Reader)}
    (h : Ran f bs (pre ++ tr) id V V' fns) : Ran f bs tr id V V' fns := by
  unfold Ran at h ⊢
  split
  · next e =>
    subst e
    rw [if_pos rfl] at h
    have : startAt (pre ++ tr) = startAt tr := by
      have := start_absent hp
      unfold startAt at this ⊢
      rw [List.findSome?_append, this]
      rfl
    rw [this] at h
    exact h
  · next e1 =>
    rw [if_neg e1] at h
    split
    · next e =>
      subst e
      rw [if_pos rfl] at h
      have : dataCountAt (pre ++ tr) = dataCountAt tr := by
        have := dataCount_absent hp
        unfold dataCountAt at this ⊢
        rw [List.findSome?_append, this]
        rfl
      rw [this] at h
      exact h
    · next e2 =>
      rw [if_neg e2] at h
      split
      · next e =>
        subst e
        rw [if_pos rfl] at h
        rw [bodies_append, hb rfl, List.nil_append] at h
        have : 10 ∈ sectionIds (pre ++ tr) ↔ 10 ∈ sectionIds tr := by
          unfold sectionIds at hp ⊢
          rw [List.filterMap_append, List.mem_append]
          exact or_iff_right hp
        by_cases hm : 10 ∈ sectionIds tr
        · rw [if_pos (this.2 hm)] at h
          rw [if_pos hm]
          exact h
        · rw [if_neg fun h => hm (this.1 h)] at h
          rw [if_neg hm]
          exact h
      · next e3 =>
        rw [if_neg e3] at h
        have : sectionAt (pre ++ tr) id = sectionAt tr id := by
          have := section_absent hp
          unfold sectionAt at this ⊢
          rw [List.findSome?_append, this]
          rfl
        rw [this] at h
        exact h

theorem Runs.strip {pre tr : List Event} {ids : List UInt8} (hp : ∀ id ∈ ids, id ∉ sectionIds pre)
    (hb : 10 ∈ ids → bodiesAt pre = []) {V V' : Validator} {fns : List (FuncToValidate × Reader)}
    (h : Runs f bs (pre ++ tr) ids V V' fns) : Runs f bs tr ids V V' fns := by
  induction h with
  | nil => exact .nil
  | @cons id ids V V1 V2 fns fns' h1 h2 ih =>
    refine .cons (h1.strip (hp id (by simp)) fun e => hb (by simp [e])) (ih ?_ ?_)
    · exact fun i hi => hp i (by simp [hi])
    · exact fun hi => hb (by simp [hi])

theorem Runs.absent {tr : List Event} {ids : List UInt8} (hp : ∀ id ∈ ids, id ∉ sectionIds tr)
    {V V' : Validator} {fns : List (FuncToValidate × Reader)} (h : Runs f bs tr ids V V' fns) :
    V' = V ∧ fns = [] := by
  induction h with
  | nil => exact ⟨rfl, rfl⟩
  | @cons id ids V V1 V2 fns fns' h1 h2 ih =>
    obtain ⟨rfl, rfl⟩ := h1.absent (hp id (by simp))
    exact ih fun i hi => hp i (by simp [hi])

/-- A section, when its id comes up. -/
theorem runs_hit {pre tr : List Event} {id : UInt8} (hpre : sectionIds pre = [id])
    (hb : id ≠ 10 → bodiesAt pre = []) {V V2 : Validator} {fns : List (FuncToValidate × Reader)} :
    ∀ {ids : List UInt8}, (sectionIds (pre ++ tr)).Sublist ids → ids.Nodup →
      Runs f bs (pre ++ tr) ids V V2 fns →
    id ∉ sectionIds tr ∧ ∃ V1 fns1 fns2 ids', Ran f bs (pre ++ tr) id V V1 fns1 ∧
      (sectionIds tr).Sublist ids' ∧ ids'.Nodup ∧ Runs f bs tr ids' V1 V2 fns2 ∧
      fns = fns1 ++ fns2 := by
  have e : sectionIds (pre ++ tr) = id :: sectionIds tr := by
    unfold sectionIds at hpre ⊢
    rw [List.filterMap_append, hpre]
    rfl
  intro ids
  induction ids with
  | nil =>
    intro hs
    rw [e] at hs
    cases hs
  | cons a ids ih =>
    intro hs hn hr
    obtain ⟨hn1, hn2⟩ := List.nodup_cons.1 hn
    rw [e] at hs ih
    cases hr with
    | @cons _ _ _ V1 _ fns1 fns2 h1 h2 =>
      cases hs with
      | cons _ hs =>
        have ha : a ∉ sectionIds (pre ++ tr) := by
          rw [e]
          exact fun h => hn1 (hs.subset h)
        obtain ⟨rfl, rfl⟩ := h1.absent ha
        exact ih hs hn2 h2
      | cons_cons _ hs =>
        refine ⟨fun h => hn1 (hs.subset h), V1, fns1, fns2, ids, h1, hs, hn2, h2.strip ?_ ?_, rfl⟩
        · intro i hi
          rw [hpre, List.mem_singleton]
          rintro rfl
          exact hn1 hi
        · intro hi
          refine hb ?_
          rintro rfl
          exact hn1 hi

theorem entries_payloads {evs tr : List Event} {bodies : List Reader}
    (h : evs.map Event.payload = bodies.map Payload.codeEntry) {V V1 V2 : Validator}
    {fns1 fns2 : List (FuncToValidate × Reader)} (h1 : codeEntries V bodies = .ok (V1, fns1))
    (h2 : payloads f bs V1 tr = .ok (V2, fns2)) :
    payloads f bs V (evs ++ tr) = .ok (V2, fns1 ++ fns2) := by
  induction evs generalizing bodies V fns1 with
  | nil =>
    cases bodies with
    | nil => cases h1; exact h2
    | cons => cases h
  | cons e evs ih =>
    cases bodies with
    | nil => cases h
    | cons b bodies =>
      simp only [List.map_cons, List.cons.injEq] at h
      obtain ⟨⟨Va, fn⟩, h3, h4⟩ := bind_ok h1
      obtain ⟨⟨Vb, fns'⟩, h5, h6⟩ := bind_ok h4
      cases pure_ok h6
      have h7 : payload f bs V e.payload = .ok (Va, some (fn, b)) := by
        rw [h.1]
        show (codeSectionEntry V b >>= fun x => pure (x.1, some (x.2, b))) = _
        rw [h3]
        rfl
      show (payload f bs V e.payload >>= fun x => payloads f bs x.1 (evs ++ tr) >>= fun y =>
        pure (y.1, x.2.toList ++ y.2)) = _
      rw [h7]
      show (payloads f bs Va (evs ++ tr) >>= fun y => pure (y.1, [(fn, b)] ++ y.2)) = _
      rw [ih h.2 h5]
      rfl

theorem payloads_cons {e : Event} {tr : List Event} {V V1 V2 : Validator}
    {fns : List (FuncToValidate × Reader)} (h : payload f bs V e.payload = .ok (V1, none))
    (h' : payloads f bs V1 tr = .ok (V2, fns)) : payloads f bs V (e :: tr) = .ok (V2, fns) := by
  show (payload f bs V e.payload >>= fun x => payloads f bs x.1 tr >>= fun y =>
    pure (y.1, x.2.toList ++ y.2)) = _
  rw [h]
  show (payloads f bs V1 tr >>= fun y => pure (y.1, [] ++ y.2)) = _
  rw [h']
  rfl

/-- Sections in the order of their ids are a run. -/
theorem payloads_of {off : Nat} {data : List UInt8} {tr : List Event} (hg : Groups off data tr)
    (hk : ∀ e ∈ tr, ∀ id c r, e.payload ≠ .unknown id c r) {V V1 V' : Validator}
    {fns : List (FuncToValidate × Reader)} {ids : List UInt8} (hs : (sectionIds tr).Sublist ids)
    (hn : ids.Nodup) (h : Runs f bs tr ids V V1 fns) (he : endOf V1 = .ok V') :
    payloads f bs V tr = .ok (V', fns) := by
  induction hg generalizing V fns ids with
  | @fin n o =>
    obtain ⟨rfl, rfl⟩ := h.absent fun _ _ => List.not_mem_nil
    refine payloads_cons (V1 := V') ?_ rfl
    show (endOf _ >>= fun V => pure (V, none)) = _
    rw [he]
    rfl
  | @plain n pl tr hp hpl hg ih =>
    have ih := fun {V fns ids} => @ih (fun e h => hk e (List.mem_cons_of_mem _ h)) V fns ids
    have hnb : bodiesAt [⟨n, pl⟩] = [] := by
      rw [bodies_skip fun r => plain_body hp r]
      rfl
    cases pl with
    | limited id count reader =>
      obtain ⟨-, V2, fns1, fns2, ids', h1, h2, h3, h4, rfl⟩ :=
        runs_hit (pre := [⟨n, .limited id count reader⟩]) (id := id) rfl (fun _ => hnb) hs hn h
      have hid' : id ∈ ([1, 2, 3, 4, 5, 6, 7, 9, 11, 13] : List UInt8) := hp
      have hne : id ≠ 8 ∧ id ≠ 12 ∧ id ≠ 10 := by
        simp only [List.mem_cons, List.not_mem_nil, or_false] at hid'
        rcases hid' with rfl | rfl | rfl | rfl | rfl | rfl | rfl | rfl | rfl | rfl <;> decide
      unfold Ran at h1
      rw [if_neg hne.1, if_neg hne.2.1, if_neg hne.2.2] at h1
      have : sectionAt ([⟨n, .limited id count reader⟩] ++ tr) id = some ⟨reader, count⟩ := by
        unfold sectionAt
        simp
      rw [this] at h1
      obtain ⟨rfl, h1⟩ := h1
      refine payloads_cons (V1 := V2) ?_ (ih h2 h3 h4)
      show (itemSection f bs V id ⟨reader, count⟩ >>= fun V => pure (V, none)) = _
      rw [h1]
      rfl
    | start func rg =>
      obtain ⟨-, V2, fns1, fns2, ids', h1, h2, h3, h4, rfl⟩ :=
        runs_hit (pre := [⟨n, .start func rg⟩]) (id := 8) rfl (fun _ => hnb) hs hn h
      unfold Ran at h1
      rw [if_pos rfl] at h1
      obtain ⟨rfl, h1⟩ := h1
      have h1 : startSection V func = .ok V2 := h1
      refine payloads_cons (V1 := V2) ?_ (ih h2 h3 h4)
      show (startSection V func >>= fun V => pure (V, none)) = _
      rw [h1]
      rfl
    | dataCount count rg =>
      obtain ⟨-, V2, fns1, fns2, ids', h1, h2, h3, h4, rfl⟩ :=
        runs_hit (pre := [⟨n, .dataCount count rg⟩]) (id := 12) rfl (fun _ => hnb) hs hn h
      unfold Ran at h1
      rw [if_neg (by decide), if_pos rfl] at h1
      obtain ⟨rfl, h1⟩ := h1
      have h1 : dataCountSection V count = .ok V2 := h1
      refine payloads_cons (V1 := V2) ?_ (ih h2 h3 h4)
      show (dataCountSection V count >>= fun V => pure (V, none)) = _
      rw [h1]
      rfl
    | custom name rd =>
      refine payloads_cons (V1 := V) rfl (ih hs hn ?_)
      exact h.strip (pre := [⟨n, .custom name rd⟩]) (fun _ _ => List.not_mem_nil) fun _ => hnb
    | unknown id c r => exact absurd rfl (hk _ (List.mem_cons_self ..) id c r)
    | _ => exact hp.elim
  | @code n count rg size sec s bodies evs tr hsec hnew hcount hcol hevs hg ih =>
    have ih := fun {V fns ids} =>
      @ih (fun e h => hk e (List.mem_cons_of_mem _ (List.mem_append_right _ h))) V fns ids
    have hids : sectionIds evs = [] := by
      unfold sectionIds
      rw [List.filterMap_eq_nil_iff]
      intro ev hev
      have : ev.payload ∈ bodies.map Payload.codeEntry := hevs ▸ List.mem_map_of_mem hev
      obtain ⟨b, -, hb⟩ := List.mem_map.1 this
      rw [← hb]
      rfl
    have hpre : sectionIds (⟨n, .codeStart count rg size⟩ :: evs) = [10] := by
      unfold sectionIds at hids ⊢
      rw [List.filterMap_cons, hids]
      rfl
    obtain ⟨hid, V2, fns1, fns2, ids', h1, h2, h3, h4, rfl⟩ :=
      runs_hit (pre := ⟨n, .codeStart count rg size⟩ :: evs) (id := 10) hpre
        (fun h => absurd rfl h) hs hn h
    unfold Ran at h1
    rw [if_neg (by decide), if_neg (by decide), if_pos rfl, if_pos (by
      refine ids_of (ev := ⟨n, .codeStart count rg size⟩) (List.mem_cons_self ..) rfl)] at h1
    obtain ⟨V3, h5, h6⟩ := h1
    rw [bodies_append, bodies_absent hg hid, List.append_nil, bodies_skip (fun r h => by cases h),
      bodies_entries hevs] at h6
    refine payloads_cons (V1 := V3) ?_ (entries_payloads hevs h6 (ih h2 h3 h4))
    show (codeSectionStart V >>= fun V => pure (V, none)) = _
    rw [h5]
    rfl

end Verif.Valid
