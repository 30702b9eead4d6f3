import Verif.Parser.Tiles
/-! Section order. -/
namespace Verif.Parser
open Verif.Reader

/-! ## Readers that never report a given message -/

def NoMsg (m : String) (f : R α) : Prop := ∀ r o, f r ≠ .error (.msg m o)

theorem NoMsg.bind {m : String} {f : R α} {g : α → R β} (hf : NoMsg m f)
    (hg : ∀ a, NoMsg m (g a)) : NoMsg m (f >>= g) := by
  intro r o h
  rcases bind_error.mp h with h | ⟨a, r1, _, h⟩
  · exact hf _ _ h
  · exact hg _ _ _ h

theorem NoMsg.pure (m : String) (a : α) : NoMsg m (pure a : R α) := by intro r o h; cases h

theorem NoMsg.fail {m m' : String} (n : Nat) (h : m' ≠ m) : NoMsg m (R.fail m' n : R α) := by
  intro r o hh; cases hh; exact h rfl

theorem NoMsg.ite {m : String} {c : Prop} [Decidable c] {f g : R α} (hf : NoMsg m f)
    (hg : NoMsg m g) : NoMsg m (if c then f else g) := by
  split <;> assumption

theorem NoMsg.readPos (m : String) : NoMsg m readPos := by intro r o h; cases h

theorem NoMsg.readU8 (m : String) : NoMsg m readU8 := by
  intro r o h
  rw [readU8_eq] at h
  split at h <;> cases h

theorem NoMsg.readBytes (m : String) (n : Nat) : NoMsg m (readBytes n) := by
  intro r o h
  rw [readBytes_eq] at h
  split at h <;> cases h

theorem NoMsg.skipBytes (m : String) (n : Nat) :
    NoMsg m (skip (do let _ ← Reader.readBytes n)) := by
  intro r o h
  rw [skipBytes_eq] at h
  split at h <;> cases h

theorem NoMsg.readVarUBig {m : String} (W : Nat) (nm : String)
    (h1 : "invalid var_" ++ nm ++ ": integer representation too long" ≠ m)
    (h2 : "invalid var_" ++ nm ++ ": integer too large" ≠ m) (res : BitVec W) (sh : Nat)
    (r : Reader) (o : Nat) : readVarUBig W nm res sh r ≠ .error (.msg m o) := by
  intro h
  rw [Verif.Leb.readVarUBig_unfold] at h
  cases hu : Reader.readU8 r with
  | error e =>
    rw [hu] at h
    cases h
    exact NoMsg.readU8 _ _ _ hu
  | ok x =>
    obtain ⟨b, r1⟩ := x
    have hlt := readU8_lt hu
    rw [hu] at h
    dsimp only at h
    split at h
    · split at h
      · cases h; exact h1 rfl
      · cases h; exact h2 rfl
    · split at h
      · cases h
      · exact NoMsg.readVarUBig W nm h1 h2 _ _ r1 o h
termination_by r.buffer.length - r.position

theorem NoMsg.readVarU32 {m : String}
    (h1 : "invalid var_" ++ "u32" ++ ": integer representation too long" ≠ m)
    (h2 : "invalid var_" ++ "u32" ++ ": integer too large" ≠ m) : NoMsg m readVarU32 := by
  intro r o h
  unfold Reader.readVarU32 at h
  cases hu : Reader.readU8 r with
  | error e =>
    rw [hu] at h
    cases h
    exact NoMsg.readU8 _ _ _ hu
  | ok x =>
    rw [hu] at h
    dsimp only at h
    split at h
    · cases h
    · exact NoMsg.readVarUBig 32 "u32" h1 h2 _ _ _ o h

/-- The message of `update_order`. -/
abbrev ooo : String := "section out of order"

theorem noooo_u32 : NoMsg ooo readVarU32 := .readVarU32 (by decide) (by decide)

theorem noooo_noHint {x : Except Err α} (h : ∀ o, x ≠ .error (.msg ooo o)) :
    NoMsg ooo (noHint x) := by
  intro r o hh
  unfold noHint at hh
  split at hh
  · cases hh
  · rename_i e
    cases e with
    | eof o' k => simp [withoutNeededHint, ooo] at hh
    | msg m' o' =>
      simp only [withoutNeededHint] at hh
      cases hh
      exact h _ rfl

theorem noooo_readString : NoMsg ooo readString :=
  noooo_u32.bind fun _ => .ite ((NoMsg.readPos _).bind fun _ => .fail _ (by decide))
    ((NoMsg.readBytes _ _).bind fun _ => .ite (.pure _ _)
      ((NoMsg.readPos _).bind fun _ => .fail _ (by decide)))

theorem noooo_section {n : Nat} {c : Reader → Except Err α}
    (h : ∀ r o, c r ≠ .error (.msg ooo o)) : NoMsg ooo (sectionOf n c) :=
  (NoMsg.skipBytes _ _).bind fun _ => noooo_noHint (h _)

theorem noooo_single {n : Nat} {d : String} {i : R α} (h : NoMsg ooo i)
    (hd : "unexpected content in the " ++ d ++ " section" ≠ ooo) : NoMsg ooo (singleItem n i d) :=
  (NoMsg.readPos _).bind fun _ => (NoMsg.skipBytes _ _).bind fun _ =>
    (noooo_noHint (h _)).bind fun _ => .ite (.fail _ hd) (.pure _ _)

theorem noooo_delimited {n : Nat} {f : R α} (h : NoMsg ooo f) : NoMsg ooo (delimited n f) :=
  (NoMsg.readPos _).bind fun _ => h.bind fun _ => (NoMsg.readPos _).bind fun _ =>
    .ite (.pure _ _) (.fail _ (by decide))

theorem noooo_header (mo : Option Nat) : NoMsg ooo (readSectionHeader mo) :=
  (NoMsg.readPos _).bind fun _ => (NoMsg.readU8 _).bind fun _ => .ite (.fail _ (by decide))
    ((NoMsg.readPos _).bind fun _ => noooo_u32.bind fun _ => (NoMsg.readPos _).bind fun _ =>
      .ite (.pure _ _) (.fail _ (by decide)))

theorem noooo_runBody {p : Parser} {body : R α} {fin : α → Nat → Except Err Payload × Parser}
    (hb : NoMsg ooo body) (hf : ∀ a n o p', fin a n ≠ (.error (.msg ooo o), p')) {r : Reader} {o p'} :
    runBody p body fin r ≠ (.error (.msg ooo o), p') := by
  intro h
  unfold runBody at h
  split at h
  · rename_i h1; cases h; exact hb _ _ h1
  · split at h
    · rename_i h1; cases h; exact hf _ _ _ _ h1
    · cases h

theorem checkFunctionCodeCounts_ne {c : Counts} {n o : Nat} :
    checkFunctionCodeCounts c n ≠ .error (.msg ooo o) := by
  unfold checkFunctionCodeCounts
  repeat' split
  all_goals simp [ooo]

theorem checkDataCount_ne {c : Counts} {n o : Nat} :
    checkDataCount c n ≠ .error (.msg ooo o) := by
  unfold checkDataCount
  repeat' split
  all_goals simp [ooo]

theorem moduleBody_ne {p : Parser} {h : Header} {r : Reader} {o p'} :
    moduleBody p h r ≠ (.error (.msg ooo o), p') := by
  unfold moduleBody
  split
  · exact noooo_runBody (noooo_section fun r o => noooo_u32 r o) (by intros; simp)
  split
  · exact noooo_runBody (noooo_single noooo_u32 (by decide)) (by intros; simp)
  split
  · refine noooo_runBody (noooo_delimited noooo_u32) (fun a n o p' hh => ?_)
    dsimp only at hh
    split at hh
    · rename_i h1; cases hh; exact checkFunctionCodeCounts_ne h1
    · cases hh
  split
  · refine noooo_runBody (noooo_section fun r o => noooo_u32 r o) (fun a n o p' hh => ?_)
    dsimp only at hh
    split at hh
    · rename_i h1; cases hh; exact checkDataCount_ne h1
    · cases hh
  split
  · exact noooo_runBody (noooo_single noooo_u32 (by decide)) (by intros; simp)
  · exact noooo_runBody (noooo_section fun r o => noooo_u32 r o) (by intros; simp)

theorem unknownBody_ne {p : Parser} {h : Header} {r : Reader} {o p'} :
    unknownBody p h r ≠ (.error (.msg ooo o), p') :=
  noooo_runBody ((NoMsg.readPos _).bind fun _ => (NoMsg.readBytes _ _).bind fun _ => .pure _ _)
    (by intros; simp)

/-! ## The order invariant -/

/-- The id that belongs to an order. -/
theorem orderOf_spec {id : UInt8} {o : Order} (h : orderOf id = some o) :
    1 ≤ o.rank ∧ moduleOrder[o.rank - 1]? = some id ∧ id ≠ 0 := by
  revert id
  suffices hs : ∀ (n : Nat) (hn : n < 256) (h : orderOf (UInt8.ofNat n) = some o),
      1 ≤ o.rank ∧ moduleOrder[o.rank - 1]? = some (UInt8.ofNat n) ∧ UInt8.ofNat n ≠ 0 by
    intro id h
    have := hs id.toNat id.toNat_lt (by rw [UInt8.ofNat_toNat]; exact h)
    rwa [UInt8.ofNat_toNat] at this
  revert o
  intro o
  cases o <;> decide +kernel

theorem drop_sublist {l : List UInt8} {n m : Nat} (h : n ≤ m) : (l.drop m).Sublist (l.drop n) := by
  have : l.drop m = (l.drop n).drop (m - n) := by rw [List.drop_drop]; congr 1; omega
  rw [this]; exact List.drop_sublist _ _

theorem order_cons {id : UInt8} {k n : Nat} {X : List UInt8} (hn : n ≤ k)
    (hk : moduleOrder[k]? = some id) (hX : X.Sublist (moduleOrder.drop (k + 1))) :
    (id :: X).Sublist (moduleOrder.drop n) := by
  refine List.Sublist.trans ?_ (drop_sublist hn)
  obtain ⟨hlt, he⟩ := List.getElem?_eq_some_iff.mp hk
  rw [List.drop_eq_getElem_cons hlt, he]
  exact hX.cons_cons _

theorem order_uncons {id : UInt8} {k n : Nat} {X : List UInt8}
    (hk : moduleOrder[k]? = some id) (hX : (id :: X).Sublist (moduleOrder.drop n)) :
    n ≤ k ∧ X.Sublist (moduleOrder.drop (k + 1)) := by
  obtain ⟨r1, r2, he, hm, hs⟩ := List.cons_sublist_iff.mp hX
  obtain ⟨hlt, hke⟩ := List.getElem?_eq_some_iff.mp hk
  obtain ⟨j, hj, hje⟩ := List.mem_iff_getElem.mp hm
  have hnd : moduleOrder.Nodup := by decide
  have e1 : (moduleOrder.drop n)[j]? = some id := by
    rw [he, List.getElem?_append_left hj, List.getElem?_eq_getElem hj, hje]
  rw [List.getElem?_drop] at e1
  obtain ⟨hlt2, he2⟩ := List.getElem?_eq_some_iff.mp e1
  have : n + j = k := (List.getElem_inj hnd).mp (he2.trans hke.symm)
  refine ⟨by omega, ?_⟩
  have e2 : r2 = moduleOrder.drop (n + r1.length) := by
    have := congrArg (List.drop r1.length) he
    rw [List.drop_left, List.drop_drop] at this
    exact this.symm
  rw [e2] at hs
  exact hs.trans (drop_sublist (by omega))

/-- One successful step of a module parser keeps track of the order. -/
theorem sectionStart_order {p p' : Parser} {d : List UInt8} {e r' pl}
    (hm : p.encoding = .module) (ho : p.order.2 ≤ p.offset)
    (hh : parseSectionStart p (Reader.new d p.offset) e = (.ok (pl, r'), p')) :
    p'.order.2 ≤ p.offset + r'.position ∧
    ((sectionId? pl = none ∧ p'.order.1 = p.order.1) ∨
     ∃ id, sectionId? pl = some id ∧ p.order.1.rank < p'.order.1.rank ∧
        orderOf id = some p'.order.1) := by
  unfold parseSectionStart at hh
  split at hh
  · split at hh
    · cases hh
    · split at hh
      · cases hh
      · cases hh; exact ⟨by omega, .inl ⟨rfl, rfl⟩⟩
  · split at hh
    · cases hh
    · split at hh
      · cases hh
      · rename_i h r1 h1
        obtain ⟨f1, f2, f3, f4, f5⟩ := header_facts h1
        have b := (WellBehaved.readSectionHeader p.maxOffset (Reader.new d p.offset)
          (Nat.zero_le _)).bounds _ _ h1
        obtain ⟨bf, ps, oo⟩ := r1
        simp only [Reader.new] at b f5
        obtain ⟨rfl, rfl, b3, b4⟩ := b
        have bs := (SAt.parseSection p h (r := ⟨bf, ps, p.offset⟩) b4).bounds _ _ _ hh
        simp only at bs
        simp only [Reader.originalPosition] at f1
        unfold parseSection at hh
        split at hh
        · obtain ⟨a, _, h2⟩ := runBody_ok hh
          cases h2
          exact ⟨by omega, .inl ⟨rfl, rfl⟩⟩
        · rw [hm] at hh
          dsimp only at hh
          split at hh
          · rename_i o hor
            split at hh
            · cases hh
            · rename_i p1 hu
              have e1 := updateOrder_ok hu
              have ho2 := (moduleBody_fields hh).2.2.2.2.2.1
              rw [ho2, e1]
              refine ⟨by simp only; omega, .inr ⟨h.id, ?_, ?_, hor⟩⟩
              · unfold moduleBody at hh
                repeat' split at hh
                all_goals obtain ⟨a, h1, h2⟩ := runBody_ok hh
                all_goals dsimp only at h2
                all_goals try split at h2
                all_goals cases h2
                all_goals simp [sectionId?, *]
              · unfold updateOrder at hu
                split at hu
                · cases hu
                · rename_i hc
                  simp only [hm, true_and, not_and] at hc
                  simp only
                  by_cases hlt : p.order.1.rank < o.rank
                  · exact hlt
                  · exact absurd (show p.order.2 < h.start by omega) (hc (by omega))
          · obtain ⟨_, _, rfl, _⟩ := unknownBody_fields hh
            refine ⟨by omega, .inl ⟨?_, rfl⟩⟩
            unfold unknownBody at hh
            obtain ⟨a, _, h2⟩ := runBody_ok hh
            cases h2; rfl

theorem parse_order {p p' : Parser} {b : List UInt8} {e n pl}
    (hm : p.encoding = .module) (ho : p.order.2 ≤ p.offset)
    (h : parse p b e = (.ok (.parsed n pl), p')) :
    p'.order.2 ≤ p.offset + n ∧
    ((sectionId? pl = none ∧ p'.order.1 = p.order.1) ∨
     ∃ id, sectionId? pl = some id ∧ p.order.1.rank < p'.order.1.rank ∧
        orderOf id = some p'.order.1) := by
  obtain ⟨d, e', r', q, hd, hs, hp, he, rfl, hnd, _, _, rfl, hl, _⟩ := parse_eff h
  simp only
  unfold parseReader at hp
  split at hp
  · unfold parseHeader at hp
    dsimp only at hp
    repeat' split at hp
    all_goals cases hp
    all_goals exact ⟨by dsimp only; omega, .inl ⟨rfl, rfl⟩⟩
  · exact sectionStart_order hm ho hp
  · repeat' split at hp
    · exact sectionStart_order (p := { p with state := .sectionStart }) hm ho hp
    · cases hp
    · unfold parseFunctionBody at hp
      obtain ⟨a, _, h2⟩ := runBody_ok hp
      cases h2
      exact ⟨by dsimp only; omega, .inl ⟨rfl, rfl⟩⟩

theorem drive_order {p : Parser} {st : List Parser} {buf : List UInt8}
    {fut : List (List UInt8)} {tr out} (h : Drive p st buf fut tr out) :
    st = [] → p.encoding = .module → p.maxOffset = none → p.order.2 ≤ p.offset → fut = [] →
    (∀ ev ∈ tr, ¬ IsComponent ev.payload) →
    (sectionIds tr).Sublist (moduleOrder.drop p.order.1.rank) := by
  induction h with
  | more h1 h2 ih => intro _ _ _ _ hf; cases hf
  | @step p p' st buf fut n pl q st' tr out h1 h2 h3 ih =>
    intro hst hm hx ho hf hns
    subst hst hf
    obtain ⟨rfl, rfl, f1, f2, f3, f4⟩ :=
      module_next hm hx (hns ⟨n, pl⟩ (List.mem_cons_self ..)) h1 h2
    obtain ⟨o1, o2⟩ := parse_order hm ho h1
    have hi := ih rfl f1 f2 (by rw [f3]; exact o1) rfl (fun ev he => hns ev (by simp [he]))
    rcases o2 with ⟨o2, o3⟩ | ⟨id, o2, o3, o4⟩
    · rw [o3] at hi
      simpa [sectionIds, o2] using hi
    · obtain ⟨s1, s2, _⟩ := orderOf_spec o4
      have : sectionIds (⟨n, pl⟩ :: tr) = id :: sectionIds tr := by simp [sectionIds, o2]
      rw [this]
      exact order_cons (k := q.order.1.rank - 1) (by omega) s2
        (by rw [Nat.sub_add_cancel s1]; exact hi)
  | @done p p' st buf fut n pl h1 h2 =>
    intro hst hm hx ho hf hns
    subst hst hf
    have : sectionId? pl = none := by
      unfold next at h2
      split at h2
      · cases h2
      · rfl
      · cases h2
    simp [sectionIds, this]
  | err h1 => intro _ _ _ _ _ _; simp [sectionIds]

/-- An out-of-order error names a section that does not fit. -/
theorem sectionStart_ooo {p p' : Parser} {d : List UInt8} {e o}
    (hm : p.encoding = .module)
    (hh : parseSectionStart p (Reader.new d p.offset) e = (.error (.msg ooo o), p')) :
    ∃ id k, d.head? = some id ∧ orderOf id = some k ∧ k.rank ≤ p.order.1.rank := by
  unfold parseSectionStart at hh
  split at hh
  · split at hh
    · rename_i h1; cases hh; exact absurd h1 checkFunctionCodeCounts_ne
    · split at hh
      · rename_i h1; cases hh; exact absurd h1 checkDataCount_ne
      · cases hh
  · split at hh
    · simp [ooo] at hh
    · split at hh
      · rename_i h1; cases hh; exact absurd h1 (noooo_header _ _ _)
      · rename_i h r1 h1
        have hid := header_id h1
        unfold parseSection at hh
        split at hh
        · exact absurd hh (noooo_runBody (noooo_section fun r o => noooo_readString r o)
            (by intros; simp))
        · rw [hm] at hh
          dsimp only at hh
          split at hh
          · rename_i k hor
            split at hh
            · rename_i hu
              unfold updateOrder at hu
              split at hu
              · rename_i hc
                exact ⟨h.id, k, by simpa [Reader.rest, Reader.new] using hid, hor, hc.2.1⟩
              · cases hu
            · exact absurd hh moduleBody_ne
          · exact absurd hh unknownBody_ne

theorem parse_ooo {p p' : Parser} {d : List UInt8} {e o}
    (hm : p.encoding = .module) (hx : p.maxOffset = none) 
    (hh : parse p d e = (.error (.msg ooo o), p')) :
    ∃ id k, d.head? = some id ∧ orderOf id = some k ∧ k.rank ≤ p.order.1.rank := by
  by_cases hb : d.length ≤ p.maxLen
  · rw [parse_short hb] at hh
    obtain ⟨hp, _⟩ := finish_error hh
    unfold parseReader at hp
    split at hp
    · unfold parseHeader at hp
      dsimp only at hp
      split at hp
      · rename_i h1
        cases hp
        have : NoMsg ooo readHeaderVersion := (NoMsg.readBytes _ _).bind fun _ =>
          .ite ((NoMsg.readPos _).bind fun _ => .fail _ (by decide))
            ((NoMsg.readBytes _ _).bind fun _ => .pure _ _)
        exact absurd h1 (this _ _)
      · repeat' split at hp
        all_goals simp [ooo] at hp
    · exact sectionStart_ooo hm hp
    · repeat' split at hp
      · exact sectionStart_ooo (p := { p with state := .sectionStart }) hm hp
      · simp [ooo] at hp
      · unfold parseFunctionBody at hp
        refine absurd hp (noooo_runBody (noooo_delimited ?_) (by intros; simp))
        exact noooo_u32.bind fun _ => NoMsg.skipBytes _ _
  · unfold parse at hh
    have h1 : (p.maxOffset.getD u64Max - p.offset < d.length) := by
      unfold Parser.maxLen at hb; omega
    dsimp only at hh
    rw [if_pos ⟨h1, hx⟩] at hh
    simp [ooo] at hh

theorem drive_ooo {p : Parser} {st : List Parser} {buf : List UInt8}
    {fut : List (List UInt8)} {tr out} (h : Drive p st buf fut tr out) :
    st = [] → p.encoding = .module → p.maxOffset = none → p.order.2 ≤ p.offset → fut = [] →
    (∀ ev ∈ tr, ¬ IsComponent ev.payload) → ∀ o, out = some (.msg ooo o) →
    ∃ id ∈ moduleOrder, buf[totalConsumed tr]? = some id ∧
      ¬ (sectionIds tr ++ [id]).Sublist (moduleOrder.drop p.order.1.rank) := by
  induction h with
  | more h1 h2 ih => intro _ _ _ _ hf; cases hf
  | @step p p' st buf fut n pl q st' tr out h1 h2 h3 ih =>
    intro hst hm hx ho hf hns o hout
    subst hst hf
    obtain ⟨rfl, rfl, f1, f2, f3, f4⟩ :=
      module_next hm hx (hns ⟨n, pl⟩ (List.mem_cons_self ..)) h1 h2
    obtain ⟨o1, o2⟩ := parse_order hm ho h1
    obtain ⟨id, i1, i2, i3⟩ := ih rfl f1 f2 (by rw [f3]; exact o1) rfl
      (fun ev he => hns ev (by simp [he])) o hout
    refine ⟨id, i1, ?_, ?_⟩
    · rw [totalConsumed_cons]
      rw [List.getElem?_drop] at i2
      exact i2
    · rcases o2 with ⟨o2, o3⟩ | ⟨id', o2, o3, o4⟩
      · rw [o3] at i3
        simpa [sectionIds, o2] using i3
      · obtain ⟨s1, s2, _⟩ := orderOf_spec o4
        have : sectionIds (⟨n, pl⟩ :: tr) = id' :: sectionIds tr := by simp [sectionIds, o2]
        rw [this]
        intro hs
        have := (order_uncons s2 (by simpa using hs)).2
        rw [Nat.sub_add_cancel s1] at this
        exact i3 this
  | done h1 h2 => intro _ _ _ _ _ _ o h; cases h
  | @err p p' st buf fut e h1 =>
    intro hst hm hx ho hf hns o hout
    subst hf
    cases hout
    obtain ⟨id, k, h2, h3, h4⟩ := parse_ooo hm hx h1
    obtain ⟨s1, s2, _⟩ := orderOf_spec h3
    refine ⟨id, List.mem_of_getElem? s2, ?_, ?_⟩
    · simpa [totalConsumed, List.head?_eq_getElem?] using h2
    · intro hs
      have := (order_uncons (X := []) s2 hs).1
      omega

end Verif.Parser
