import Verif.Remod.Run
import Verif.Reenc.Props
import Verif.Names.Props
import Verif.Framing.Spec
/-! Re-encoding the sections of a run. -/
namespace Verif.Remod
open Verif.Reader Verif.Items Verif.Parser Verif.Framing Verif.Reenc Verif.Reenc.Spec Spec

variable {m : Maps} {f : Feats} {off : Nat} {data : List UInt8}

theorem nameName_eq : "name".toUTF8.toList = nameName := by decide +kernel

theorem coreModule_cons {ev : Event} {tr : List Event} {ss : List Sect} :
    coreModule m f off data (ev :: tr) = some ss ↔ ∃ a b, payload m f off data ev.payload = some a ∧
      coreModule m f off data tr = some b ∧ ss = a ++ b := by
  unfold coreModule
  simp only [List.mapM_cons, Option.bind_eq_bind, Option.pure_def, Option.bind_eq_some_iff,
    Option.some.injEq]
  constructor
  · rintro ⟨_, ⟨a, h1, l, h2, rfl⟩, rfl⟩
    exact ⟨a, _, h1, ⟨l, h2, rfl⟩, by simp⟩
  · rintro ⟨a, _, h1, ⟨l, h2, rfl⟩, rfl⟩
    exact ⟨_, ⟨a, h1, l, h2, rfl⟩, by simp⟩

theorem coreModule_bodies {tr : List Event} {bodies : List Reader} : ∀ {evs : List Event},
    evs.map Event.payload = bodies.map Payload.codeEntry →
    coreModule m f off data (evs ++ tr) = coreModule m f off data tr := by
  induction bodies with
  | nil => intro evs h; simp at h; subst h; rfl
  | cons b bs ih =>
    intro evs h
    cases evs with
    | nil => cases h
    | cons ev evs =>
      simp only [List.map_cons, List.cons.injEq] at h
      rw [← ih h.2]
      apply Option.ext
      intro ss
      rw [List.cons_append, coreModule_cons, h.1]
      simp [payload]

/-- What becomes of a section. -/
structure Becomes (m : Maps) (f : Feats) (pl : Payload) (s : Sect) : Prop where
  ok : s.Ok
  known : s.known? = sectionId? pl
  count : ∀ id, s.countFor id = announces id pl
  data : ∀ k, s = .dataCount k → ∃ c rg, pl = .dataCount c rg

theorem plain_becomes (hm : MapsFit m f.toFeatures) {pl : Payload} {l : List Sect} (hp : Plain pl)
    (ho : Placed off data pl) (h : payload m f off data pl = some l) :
    ∃ s, l = [s] ∧ Becomes m f pl s ∧
      ∀ a, ∃ n pl', sectEvents a s = [⟨n, pl'⟩] ∧ PayloadRenamed m f pl pl' := by
  cases pl with
  | limited id count rd =>
    simp only [payload, Option.bind_eq_bind, Option.pure_def, Option.bind_eq_some_iff,
      Option.some.injEq] at h
    obtain ⟨s, h1, rfl⟩ := h
    unfold itemSection at h1
    split at h1
    case h_2 => cases h1
    rename_i xs hx
    simp only [Option.bind_eq_bind, Option.bind_eq_some_iff] at h1
    obtain ⟨e, h2, h3⟩ := h1
    obtain ⟨e', bytes, h4, h5, h6⟩ := section_sim hm hx (items_readable h2)
    rw [h2] at h4
    cases h4
    rw [h3] at h5
    cases h5
    refine ⟨_, rfl, ⟨hp, rfl, fun id' => rfl, fun k hk => by cases hk⟩, fun a => ?_⟩
    obtain ⟨ys, h7, h8⟩ := h6 ⟨Leb.encodeU32 count ++ bytes, (Leb.encodeU32 count).length,
      a + headerLen (Leb.encodeU32 count ++ bytes).length⟩ (by simp [Reader.rest])
    exact ⟨_, _, rfl, rfl, rfl, xs, ys, hx, h7, h8⟩
  | custom name rd =>
    simp only [payload, Option.bind_eq_bind, Option.pure_def, Option.bind_eq_some_iff,
      Option.some.injEq] at h
    obtain ⟨s, h1, rfl⟩ := h
    unfold customSection at h1
    have key : ∀ d, s = .custom name d → (∀ o : Reader, o.rest = d → CustomRenamed m name rd o) →
        Becomes m f (.custom name rd) s ∧ ∀ a, ∃ n pl', sectEvents a s = [⟨n, pl'⟩] ∧
          PayloadRenamed m f (.custom name rd) pl' := by
      rintro d rfl hd
      refine ⟨⟨hp, rfl, fun id' => rfl, fun k hk => by cases hk⟩, fun a => ⟨_, _, rfl, rfl, hd _ ?_⟩⟩
      simp [Reader.rest]
    split at h1
    · rename_i hn
      simp only [Option.bind_eq_bind, Option.pure_def, Option.bind_eq_some_iff,
        Option.some.injEq] at h1
      obtain ⟨b, h2, rfl⟩ := h1
      have := key b (by rw [hn]) fun o ho => by
        unfold CustomRenamed
        rw [nameName_eq, if_pos hn]
        exact Names.c50_reencode m rd o b h2 ho
      exact ⟨_, rfl, this⟩
    · rename_i hn
      cases h1
      have := key rd.rest rfl fun o ho => by
        unfold CustomRenamed
        rw [nameName_eq, if_neg hn]
        exact ho
      exact ⟨_, rfl, this⟩
  | start i rg =>
    cases h
    exact ⟨_, rfl, ⟨trivial, rfl, fun id => rfl, fun k hk => by cases hk⟩, fun a => ⟨_, _, rfl, rfl⟩⟩
  | dataCount c rg =>
    cases h
    exact ⟨_, rfl, ⟨trivial, rfl, fun id => rfl, fun k hk => ⟨_, _, rfl⟩⟩, fun a => ⟨_, _, rfl, rfl⟩⟩
  | unknown id contents rg =>
    simp only [payload, Option.bind_eq_bind, Option.pure_def, Option.bind_eq_some_iff,
      Option.some.injEq] at h
    obtain ⟨s, h1, rfl⟩ := h
    rw [show originalSection off data rg = some contents from ho] at h1
    cases h1
    exact ⟨_, rfl, ⟨hp, rfl, fun id => rfl, fun k hk => by cases hk⟩,
      fun a => ⟨_, _, rfl, rfl, rfl⟩⟩
  | _ => exact hp.elim

/-- A payload without unreadable parts is re-encoded, and only such a one. -/
theorem plain_iff (hm : MapsFit m f.toFeatures) (hl : 5 * data.length < 2 ^ 32) {pl : Payload}
    (hp : Plain pl) (ho : Placed off data pl) :
    (∃ l, payload m f off data pl = some l) ↔ PayloadReadable f pl := by
  cases pl with
  | limited id count rd =>
    constructor
    · rintro ⟨l, h⟩
      simp only [payload, Option.bind_eq_bind, Option.pure_def, Option.bind_eq_some_iff,
        Option.some.injEq] at h
      obtain ⟨s, h1, rfl⟩ := h
      unfold itemSection at h1
      split at h1
      case h_2 => cases h1
      rename_i xs hx
      simp only [Option.bind_eq_bind, Option.bind_eq_some_iff] at h1
      obtain ⟨e, h2, h3⟩ := h1
      exact ⟨xs, hx, items_readable h2⟩
    · rintro ⟨xs, hx, hr⟩
      obtain ⟨e', bytes, h4, h5, h6⟩ := section_sim hm hx hr
      refine ⟨[.items id count bytes], ?_⟩
      simp only [payload, itemSection, hx, h4, h5, Option.bind_eq_bind, Option.bind_some]
      rfl
  | custom name rd =>
    simp only [payload, customSection, PayloadReadable, nameName_eq]
    have hr : rd.rest.length ≤ data.length := ho
    have hn := Names.c50_total m rd (by omega)
    by_cases h : name = nameName
    · simp only [if_pos h]
      constructor
      · rintro ⟨l, h1⟩ -
        simp only [Option.bind_eq_bind, Option.bind_eq_some_iff] at h1
        obtain ⟨_, ⟨b, h2, -⟩, -⟩ := h1
        obtain ⟨subs, h3, -⟩ := Names.c50_reencode m rd ⟨b, 0, 0⟩ b h2 rfl
        exact ⟨subs, h3⟩
      · intro h1
        obtain ⟨b, h2, -⟩ := hn.1 (h1 h)
        exact ⟨_, by rw [h2]; rfl⟩
    · simp [h]
  | start i rg => exact ⟨fun _ => trivial, fun _ => ⟨_, rfl⟩⟩
  | dataCount c rg => exact ⟨fun _ => trivial, fun _ => ⟨_, rfl⟩⟩
  | unknown id contents rg =>
    refine ⟨fun _ => trivial, fun _ => ⟨[.raw id contents], ?_⟩⟩
    simp only [payload, show originalSection off data rg = some contents from ho]
    rfl
  | _ => exact hp.elim

theorem maps_all (hm : MapsFit m f.toFeatures) : MapsFit m allFeatures :=
  ⟨hm.type, .inl rfl, .inl rfl⟩

theorem code_eq {rg : Nat × Nat} {sec : List UInt8} {s : SectionLimited} {bodies : List Reader}
    (h1 : originalSection off data rg = some sec)
    (h2 : SectionLimited.new (Reader.new sec rg.1) = .ok s)
    (h3 : s.collect readReader = .ok bodies) {c : BitVec 32} {n : Nat} :
    payload m f off data (.codeStart c rg n) =
      (bodies.mapM (functionBody m allFeatures)).map fun bs => [Sect.code bs] := by
  simp only [payload, codeSection, h1, codeReader, h2, itemsOf_ok.2 h3, Option.bind_eq_bind,
    Option.bind_some]
  cases bodies.mapM (functionBody m allFeatures) <;> rfl

theorem bodies_renamed (hm : MapsFit m f.toFeatures) : ∀ {bodies : List Reader}
    {bs : List (List UInt8)} {evs : List Event} (a : Nat),
    bodies.mapM (functionBody m allFeatures) = some bs →
    evs.map Event.payload = bodies.map Payload.codeEntry →
    bs.length = bodies.length ∧ List.Forall₂ (fun e e' => PayloadRenamed m f e.payload e'.payload)
      evs (bodyEvents a bs)
  | [], bs, evs, a, h1, h2 => by
    simp at h1 h2
    subst h1 h2
    exact ⟨rfl, .nil⟩
  | b :: bodies, bs, evs, a, h1, h2 => by
    simp only [List.mapM_cons, Option.bind_eq_bind, Option.pure_def, Option.bind_eq_some_iff,
      Option.some.injEq] at h1
    obtain ⟨b', h3, bs', h4, rfl⟩ := h1
    cases evs with
    | nil => cases h2
    | cons ev evs =>
      simp only [List.map_cons, List.cons.injEq] at h2
      obtain ⟨g1, g2⟩ := bodies_renamed hm (a + (bodyEvent a b').consumed) h4 h2.2
      refine ⟨by simp [g1], .cons ?_ g2⟩
      rw [h2.1]
      exact c49_body allFeatures m (maps_all hm) b _ b' h3 (by simp [Reader.rest])

/-- What becomes of the sections of a run. -/
theorem groups_become (hm : MapsFit m f.toFeatures) {tr : List Event} (hg : Groups off data tr) :
    ∀ {ss : List Sect}, coreModule m f off data tr = some ss →
    (∀ a, List.Forall₂ (fun e e' => PayloadRenamed m f e.payload e'.payload) tr
      (sectsEvents a ss)) ∧
    (∀ s ∈ ss, s.Ok) ∧ ss.filterMap Sect.known? = sectionIds tr ∧
    (∀ id, ss.filterMap (Sect.countFor id) = counts id tr) ∧
    ((∃ k, Sect.dataCount k ∈ ss) → ∃ ev ∈ tr, ∃ c rg, ev.payload = .dataCount c rg) := by
  induction hg with
  | @fin n o =>
    intro ss h
    obtain ⟨_, _, h1, h2, rfl⟩ := coreModule_cons.1 h
    cases h1
    cases h2
    refine ⟨fun a => .cons trivial .nil, by simp, rfl, fun _ => rfl, by simp⟩
  | @plain n pl tr hp ho hg ih =>
    intro ss h
    obtain ⟨l, ss', h1, h2, rfl⟩ := coreModule_cons.1 h
    obtain ⟨s, rfl, hb, hr⟩ := plain_becomes hm hp ho h1
    obtain ⟨i1, i2, i3, i4, i5⟩ := ih h2
    refine ⟨fun a => ?_, ?_, ?_, ?_, ?_⟩
    · obtain ⟨n', pl', e1, e2⟩ := hr a
      rw [List.singleton_append, sectsEvents, e1]
      exact .cons e2 (i1 _)
    · simpa using ⟨hb.ok, i2⟩
    · simp only [List.singleton_append, sectionIds, List.filterMap_cons, hb.known]
      simp only [sectionIds] at i3
      rw [i3]
    · intro id
      simp only [List.singleton_append, counts, List.filterMap_cons, hb.count]
      have := i4 id
      simp only [counts] at this
      rw [this]
    · rintro ⟨k, hk⟩
      rw [List.singleton_append, List.mem_cons] at hk
      rcases hk with hk | hk
      · exact ⟨_, List.mem_cons_self .., hb.data k hk.symm⟩
      · obtain ⟨ev, e1, e2⟩ := i5 ⟨k, hk⟩
        exact ⟨ev, List.mem_cons_of_mem _ e1, e2⟩
  | @code n count rg size sec s bodies evs tr h1 h2 h3 h4 h5 hg ih =>
    intro ss h
    obtain ⟨l, ss', g1, g2, rfl⟩ := coreModule_cons.1 h
    rw [coreModule_bodies h5] at g2
    rw [code_eq h1 h2 h4, Option.map_eq_some_iff] at g1
    obtain ⟨bs, g3, rfl⟩ := g1
    obtain ⟨i1, i2, i3, i4, i5⟩ := ih g2
    have hlen : bs.length = count.toNat := by
      rw [(bodies_renamed hm 0 g3 h5).1, collect_length h4, h3]
    have hev : ∀ {β : Type} (g : Payload → Option β), (∀ b, g (.codeEntry b) = none) →
        (evs ++ tr).filterMap (fun ev => g ev.payload) = tr.filterMap fun ev => g ev.payload := by
      intro β g hgn
      rw [List.filterMap_append]
      have : evs.filterMap (fun ev => g ev.payload) = (evs.map Event.payload).filterMap g := by
        rw [List.filterMap_map]; rfl
      rw [this, h5, List.filterMap_map]
      have : (g ∘ Payload.codeEntry) = fun _ => none := funext hgn
      rw [this]
      simp
    refine ⟨fun a => ?_, ?_, ?_, ?_, ?_⟩
    · rw [List.singleton_append, sectsEvents, sectEvents, List.cons_append]
      refine .cons ?_ (List.rel_append (bodies_renamed hm _ g3 h5).2 (i1 _))
      show BitVec.ofNat 32 bs.length = count
      rw [hlen]
      simp
    · simpa using ⟨trivial, i2⟩
    · simp only [sectionIds] at i3 ⊢
      rw [List.filterMap_cons, hev sectionId? (fun _ => rfl), ← i3]
      rfl
    · intro id
      have i4 := i4 id
      simp only [counts] at i4 ⊢
      rw [List.filterMap_cons, hev (announces id) (fun _ => rfl), ← i4]
      simp only [List.singleton_append, List.filterMap_cons, announces, Sect.countFor, hlen]
    · rintro ⟨k, hk⟩
      rw [List.singleton_append, List.mem_cons] at hk
      rcases hk with hk | hk
      · cases hk
      · obtain ⟨ev, e1, e2⟩ := i5 ⟨k, hk⟩
        exact ⟨ev, by simp [e1], e2⟩

/-- Exactly the runs without unreadable parts are re-encoded. -/
theorem groups_iff (hm : MapsFit m f.toFeatures) (hl : 5 * data.length < 2 ^ 32) {tr : List Event}
    (hg : Groups off data tr) : (∃ ss, coreModule m f off data tr = some ss) ↔
      ∀ ev ∈ tr, PayloadReadable f ev.payload := by
  induction hg with
  | @fin n o =>
    refine ⟨fun _ ev he => ?_, fun _ => ⟨[], rfl⟩⟩
    simp at he
    subst he
    trivial
  | @plain n pl tr hp ho hg ih =>
    rw [List.forall_mem_cons, ← ih, ← plain_iff (off := off) (m := m) hm hl hp ho]
    constructor
    · rintro ⟨ss, h⟩
      obtain ⟨l, ss', h1, h2, -⟩ := coreModule_cons.1 h
      exact ⟨⟨l, h1⟩, ss', h2⟩
    · rintro ⟨⟨l, h1⟩, ss', h2⟩
      exact ⟨_, coreModule_cons.2 ⟨l, ss', h1, h2, rfl⟩⟩
  | @code n count rg size sec s bodies evs tr h1 h2 h3 h4 h5 hg ih =>
    have hb : (∃ bs, bodies.mapM (functionBody m allFeatures) = some bs) ↔
        ∀ ev ∈ evs, PayloadReadable f ev.payload := by
      have h6 : (∀ ev ∈ evs, PayloadReadable f ev.payload) ↔
          ∀ b ∈ bodies, PayloadReadable f (.codeEntry b) := by
        have e1 : (∀ ev ∈ evs, PayloadReadable f ev.payload) ↔
            ∀ pl ∈ evs.map Event.payload, PayloadReadable f pl := by simp
        rw [e1, h5]
        simp
      rw [h6]
      clear h5 h6 h4 ih
      induction bodies with
      | nil => simp
      | cons b bodies ihb =>
        rw [List.forall_mem_cons]
        refine Iff.trans ?_ (and_congr (c49_body_iff allFeatures m (maps_all hm) b) ihb)
        constructor
        · rintro ⟨bs, h⟩
          simp only [List.mapM_cons, Option.bind_eq_bind, Option.pure_def,
            Option.bind_eq_some_iff, Option.some.injEq] at h
          obtain ⟨b', g3, bs', g4, rfl⟩ := h
          exact ⟨⟨b', g3⟩, bs', g4⟩
        · rintro ⟨⟨b', g3⟩, bs', g4⟩
          exact ⟨b' :: bs', by simp [List.mapM_cons, g3, g4]⟩
    rw [List.forall_mem_cons, List.forall_mem_append, ← hb, ← ih]
    constructor
    · rintro ⟨ss, h⟩
      obtain ⟨l, ss', g1, g2, -⟩ := coreModule_cons.1 h
      rw [coreModule_bodies h5] at g2
      rw [code_eq h1 h2 h4, Option.map_eq_some_iff] at g1
      obtain ⟨bs, g3, -⟩ := g1
      exact ⟨trivial, ⟨bs, g3⟩, ss', g2⟩
    · rintro ⟨-, ⟨bs, g3⟩, ss', g2⟩
      refine ⟨_, coreModule_cons.2 ⟨[.code bs], ss', ?_, ?_, rfl⟩⟩
      · rw [code_eq h1 h2 h4, g3]; rfl
      · rw [coreModule_bodies h5]; exact g2

theorem groups_module {tr : List Event} (hg : Groups off data tr) :
    ∀ ev ∈ tr, ¬ IsComponent ev.payload := by
  induction hg with
  | @fin n o =>
    rw [List.forall_mem_cons]
    exact ⟨fun ⟨_, _, hh⟩ => (by cases hh), by simp⟩
  | @plain n pl tr hp ho hg ih =>
    rw [List.forall_mem_cons]
    refine ⟨?_, ih⟩
    rintro ⟨_, _, rfl⟩
    exact hp
  | @code n count rg size sec s bodies evs tr h1 h2 h3 h4 h5 hg ih =>
    rw [List.forall_mem_cons, List.forall_mem_append]
    refine ⟨fun ⟨_, _, hh⟩ => (by cases hh), fun ev he ⟨a, b, hh⟩ => ?_, ih⟩
    have := List.mem_map_of_mem (f := Event.payload) he
    rw [h5, hh] at this
    simp at this

/-- The sections of a re-encoded module are in order and counts agree. -/
theorem module_wellFormed (hm : MapsFit m f.toFeatures) {tr : List Event} {ss : List Sect}
    (hsize : off + data.length ≤ u64Max)
    (h : DriveAll (Parser.new off) data tr none) (hc : coreModule m f off data tr = some ss) :
    WellFormed ss ∧ ∀ a, List.Forall₂ (fun e e' => PayloadRenamed m f e.payload e'.payload) tr
      (moduleEvents a ss) := by
  obtain ⟨n, num, enc, rg, tr', rfl, hg⟩ := drive_module hsize h
  obtain ⟨l, ss', h1, h2, rfl⟩ := coreModule_cons.1 hc
  cases enc with
  | component => cases h1
  | module =>
    cases h1
    obtain ⟨hn1, hgr⟩ := hg rfl
    subst hn1
    obtain ⟨i1, i2, i3, i4, i5⟩ := groups_become hm hgr h2
    refine ⟨?_, fun a => .cons ⟨rfl, rfl⟩ (i1 _)⟩
    have hnc : ∀ ev ∈ (⟨n, .version 1 .module rg⟩ :: tr' : List Event),
        ¬ IsComponent ev.payload := by
      rw [List.forall_mem_cons]
      exact ⟨fun ⟨_, _, hh⟩ => (by cases hh), groups_module hgr⟩
    have hord := drive_order h rfl rfl rfl (Nat.le_refl _) rfl hnc
    have h3 := drive_counts h rfl rfl rfl rfl hnc rfl
    have hs := fun id => over_sum (counts_one hord id)
    simp only [Parser.new, hs] at h3
    have e1 : ∀ id, countFor id ss' = (counts id (⟨n, .version 1 .module rg⟩ :: tr')).sum :=
      fun id => congrArg List.sum (i4 id)
    refine ⟨i2, ?_, ?_, fun hd => ?_⟩
    · rw [List.nil_append, i3]
      exact hord
    · rw [List.nil_append, e1, e1]
      exact h3.1
    · rw [List.nil_append] at hd ⊢
      obtain ⟨ev, g1, g2⟩ := i5 hd
      have h5 := counts_mem ⟨ev, List.mem_cons_of_mem ⟨n, .version 1 .module rg⟩ g1, g2⟩
      have h4 := hs 12
      rw [e1, e1]
      cases ho : over none (counts 12 (⟨n, .version 1 .module rg⟩ :: tr')) with
      | none =>
        unfold over at ho
        simp at ho
        exact absurd ho h5
      | some k =>
        rw [ho] at h4
        exact h4.symm.trans (h3.2 k ho).symm

end Verif.Remod
