import Verif.Semver.Spec
import Verif.Std.Digits
/-! Lemmas on versions and merging. -/
namespace Verif.Semver
open Spec

/-! ### Tracks -/

theorem track_compatible {v w : Version} : track v = track w ↔ Compatible v w := by
  constructor
  · intro h
    obtain ⟨a, b, c, d, e⟩ := v
    obtain ⟨a', b', c', d', e'⟩ := w
    by_cases h1 : d = []
    · by_cases h1' : d' = []
      · subst h1 h1'
        by_cases h2 : a = 0
        · by_cases h2' : a' = 0
          · subst h2 h2'
            by_cases h3 : b = 0
            · by_cases h3' : b' = 0
              · subst h3 h3'
                simp [track] at h
                exact .same rfl rfl h rfl
              · simp [track, h3, h3'] at h
                exact absurd h.1.symm h3'
            · by_cases h3' : b' = 0
              · simp [track, h3, h3'] at h
              · simp [track, h3, h3'] at h
                exact .minor rfl rfl rfl h h3 rfl
          · by_cases h3 : b = 0 <;> simp [track, h2, h2', h3] at h <;> omega
        · by_cases h2' : a' = 0
          · by_cases h3' : b' = 0 <;> simp [track, h2, h2', h3'] at h
          · simp [track, h2, h2'] at h
            exact .major rfl rfl h h2
      · exfalso
        have := congrArg Version.pre h
        subst h1
        by_cases h2 : a = 0 <;> by_cases h3 : b = 0 <;> simp [track, h1', h2, h3] at this
    · by_cases h1' : d' = []
      · exfalso
        have := congrArg Version.pre h
        subst h1'
        by_cases h2 : a' = 0 <;> by_cases h3 : b' = 0 <;> simp [track, h1, h2, h3] at this
      · simp [track, h1, h1'] at h
        exact .same h.1 h.2.1 h.2.2.1 h.2.2.2
  · intro h
    cases h with
    | same h1 h2 h3 h4 => simp [track, h1, h2, h3, h4]
    | major h1 h2 h3 h4 =>
      have h5 : w.major ≠ 0 := h3 ▸ h4
      simp [track, h1, h2, h3, h5]
    | minor h1 h2 h3 h4 h5 h6 =>
      have h7 : w.major = 0 := h3 ▸ h6
      have h8 : w.minor ≠ 0 := h4 ▸ h5
      simp [track, h1, h2, h6, h7, h4, h8]

/-- Not a digit, or nothing. -/
def Stops : List Char → Prop
  | [] => True
  | c :: _ => c.isDigit = false

theorem dec_digit (n : Nat) : ∀ c ∈ dec n, c.isDigit = true := by
  intro c hc
  obtain ⟨d, hd, rfl⟩ := Std.mem_toDigits (by omega) n hc
  have : ∀ d < 10, (Nat.digitChar d).isDigit = true := by decide
  exact this d hd

theorem takeWhile_dec (n : Nat) {s : List Char} (h : Stops s) :
    (dec n ++ s).takeWhile Char.isDigit = dec n := by
  rw [List.takeWhile_append_of_pos (dec_digit n)]
  cases s with
  | nil => simp
  | cons c s => simp [List.takeWhile, show c.isDigit = false from h]

theorem dec_inj {m n : Nat} (h : dec m = dec n) : m = n := by
  have h1 := Std.readDigits_toDigits (b := 10) (by omega) (by omega) m
  have h2 := Std.readDigits_toDigits (b := 10) (by omega) (by omega) n
  have h : Nat.toDigits 10 m = Nat.toDigits 10 n := h
  rw [h, h2] at h1
  exact (Option.some.inj h1).symm

theorem dec_split {m n : Nat} {s t : List Char} (hs : Stops s) (ht : Stops t)
    (h : dec m ++ s = dec n ++ t) : m = n ∧ s = t := by
  have h1 := congrArg (List.takeWhile Char.isDigit) h
  rw [takeWhile_dec m hs, takeWhile_dec n ht] at h1
  have := dec_inj h1
  subst this
  exact ⟨rfl, List.append_cancel_left h⟩

/-- What follows the numbers. -/
def tail3 (v : Version) : List Char := if v.pre = [] then [] else '-' :: v.pre

def tail2 (v : Version) : List Char :=
  if v.pre = [] ∧ v.minor ≠ 0 then [] else '.' :: (dec v.patch ++ tail3 v)

def tail1 (v : Version) : List Char :=
  if v.pre = [] ∧ v.major ≠ 0 then [] else '.' :: (dec v.minor ++ tail2 v)

theorem trackString_eq (v : Version) : trackString v = dec v.major ++ tail1 v := by
  obtain ⟨a, b, c, d, e⟩ := v
  by_cases h1 : d = []
  · by_cases h2 : a = 0
    · by_cases h3 : b = 0 <;> simp [trackString, track, tail1, tail2, tail3, display, h1, h2, h3]
    · simp [trackString, track, tail1, h1, h2]
  · simp [trackString, track, tail1, tail2, tail3, display, h1]

theorem stops_dot (s : List Char) : Stops ('.' :: s) := by
  show Char.isDigit '.' = false
  decide

theorem stops_tail3 (v : Version) : Stops (tail3 v) := by
  unfold tail3
  split
  · trivial
  · show Char.isDigit '-' = false
    decide

theorem stops_tail2 (v : Version) : Stops (tail2 v) := by
  unfold tail2
  split
  · trivial
  · exact stops_dot _

theorem stops_tail1 (v : Version) : Stops (tail1 v) := by
  unfold tail1
  split
  · trivial
  · exact stops_dot _

theorem string_compatible {v w : Version} : trackString v = trackString w ↔ Compatible v w := by
  constructor
  · intro h
    rw [trackString_eq, trackString_eq] at h
    obtain ⟨h1, h2⟩ := dec_split (stops_tail1 v) (stops_tail1 w) h
    unfold tail1 at h2
    split at h2
    · next h3 =>
      split at h2
      · next h4 => exact .major h3.1 h4.1 h1 h3.2
      · cases h2
    · next h3 =>
      split at h2
      · cases h2
      · next h4 =>
        obtain ⟨h5, h6⟩ := dec_split (stops_tail2 v) (stops_tail2 w) (List.cons.inj h2).2
        unfold tail2 at h6
        split at h6
        · next h7 =>
          split at h6
          · next h8 =>
            have : v.major = 0 := Nat.eq_zero_of_not_pos fun hp => h3 ⟨h7.1, by omega⟩
            exact .minor h7.1 h8.1 h1 h5 h7.2 this
          · cases h6
        · split at h6
          · cases h6
          · obtain ⟨h9, h10⟩ := dec_split (stops_tail3 v) (stops_tail3 w) (List.cons.inj h6).2
            refine .same h1 h5 h9 ?_
            unfold tail3 at h10
            split at h10 <;> split at h10
            · simp [*]
            · cases h10
            · cases h10
            · exact (List.cons.inj h10).2
  · intro h
    have := track_compatible.2 h
    simp only [trackString, this]

/-! ### The first loop -/

variable {R : Nat → Iface} {cmp : Version → Version → Ordering}

theorem semverTrack_some {id : Nat} {t : Track} {v : Version} : semverTrack R id = some (t, v) ↔
    Is R id t.1.namespace_ t.1.name t.2 v ∧ t.1.version = some (track v) := by
  unfold semverTrack Is
  obtain ⟨⟨ns, p, tv⟩, i⟩ := t
  cases hR : R id with
  | mk pkg name =>
    cases pkg with
    | none => simp
    | some pkg =>
      obtain ⟨ns', p', ver⟩ := pkg
      cases ver with
      | none => simp
      | some ver =>
        cases name with
        | none => simp
        | some name =>
          simp
          grind

theorem mem_insert {x y : Nat} {l : List Nat} : y ∈ insert x l ↔ y = x ∨ y ∈ l := by
  unfold insert
  split <;> simp_all

theorem nodup_insert {x : Nat} {l : List Nat} (h : l.Nodup) : (insert x l).Nodup := by
  unfold insert
  split
  · exact h
  · exact List.nodup_cons.2 ⟨‹_›, h⟩

/-- What holds without any hypotheses. -/
structure Weak (R : Nat → Iface) (st : St) : Prop where
  valid : ∀ t v id, st.tracks t = some (v, id) → semverTrack R id = some (t, v)
  known : ∀ id ∈ st.toRemove, ∃ t v, semverTrack R id = some (t, v) ∧ ∃ x, st.tracks t = some x
  nodup : st.toRemove.Nodup

theorem weak_update {st : St} (h : Weak R st) {t : Track} {v : Version} {id : Nat}
    (hs : semverTrack R id = some (t, v)) {l : List Nat} (hn : l.Nodup)
    (hl : ∀ x ∈ l, x ∈ st.toRemove ∨ ∃ v, semverTrack R x = some (t, v)) :
    Weak R ⟨update st.tracks t (v, id), l⟩ := by
  refine ⟨fun u w x hu => ?_, fun x hx => ?_, hn⟩
  · simp only [update] at hu
    split at hu
    · next e => cases hu; rw [e]; exact hs
    · exact h.valid _ _ _ hu
  · rcases hl x hx with hx | ⟨w, hw⟩
    · obtain ⟨u, w, h1, y, h2⟩ := h.known x hx
      refine ⟨u, w, h1, ?_⟩
      by_cases e : u = t
      · exact ⟨(v, id), by simp [update, e]⟩
      · exact ⟨y, by simp [update, e, h2]⟩
    · exact ⟨t, w, hw, (v, id), by simp [update]⟩

theorem weak_visit {st : St} (h : Weak R st) (k : Key) : Weak R (visit R cmp st k) := by
  cases k with
  | name => exact h
  | iface id =>
    unfold visit
    simp only
    cases hs : semverTrack R id with
    | none => exact h
    | some p =>
      obtain ⟨t, v⟩ := p
      simp only
      cases ht : st.tracks t with
      | none => exact weak_update h hs h.nodup fun x hx => .inl hx
      | some q =>
        obtain ⟨v', id'⟩ := q
        simp only
        cases hc : cmp v v' with
        | gt =>
          refine weak_update h hs (nodup_insert h.nodup) fun x hx => ?_
          rcases mem_insert.1 hx with rfl | hx
          · exact .inr ⟨v', h.valid _ _ _ ht⟩
          · exact .inl hx
        | eq => exact h
        | lt =>
          refine ⟨h.valid, fun x hx => ?_, nodup_insert h.nodup⟩
          rcases mem_insert.1 hx with rfl | hx
          · exact ⟨t, v, hs, _, ht⟩
          · exact h.known x hx

theorem weak_pass : ∀ (ks : List Key) {st : St}, Weak R st → Weak R (ks.foldl (visit R cmp) st)
  | [], _, h => h
  | k :: ks, _, h => weak_pass ks (weak_visit h k)

theorem weak_start : Weak R {} := ⟨by simp, by simp, by simp⟩

/-- The maps after the keys `done`. -/
structure Inv (R : Nat → Iface) (cmp : Version → Version → Ordering) (done : List Key) (st : St) :
    Prop where
  free : ∀ t, st.tracks t = none → ∀ id v, Key.iface id ∈ done → semverTrack R id ≠ some (t, v)
  max : ∀ t v id, st.tracks t = some (v, id) → Key.iface id ∈ done ∧ semverTrack R id = some (t, v) ∧
    ∀ x w, Key.iface x ∈ done → semverTrack R x = some (t, w) → w = v ∨ cmp w v = .lt
  old : ∀ id, id ∈ st.toRemove ↔ ∃ t v l w, Key.iface id ∈ done ∧ Key.iface l ∈ done ∧
    semverTrack R id = some (t, v) ∧ semverTrack R l = some (t, w) ∧ cmp v w = .lt

/-- One id for each version of a track. -/
def One (R : Nat → Iface) (all : List Key) : Prop := ∀ id id' t v, Key.iface id ∈ all →
  Key.iface id' ∈ all → semverTrack R id = some (t, v) → semverTrack R id' = some (t, v) → id = id'

theorem irrefl (hc : Total cmp) (a : Version) : cmp a a ≠ .lt := by
  rw [(hc.eq a a).2 rfl]; simp

theorem inv_visit {all done : List Key} (hc : Total cmp) (ho : One R all) {st : St} {k : Key}
    (hsub : ∀ x ∈ done ++ [k], x ∈ all) (h : Inv R cmp done st) :
    Inv R cmp (done ++ [k]) (visit R cmp st k) := by
  cases k with
  | name s =>
    have e : ∀ id, Key.iface id ∈ done ++ [Key.name s] ↔ Key.iface id ∈ done := by simp
    show Inv R cmp _ st
    exact ⟨by simpa only [e] using h.free, by simpa only [e] using h.max,
      by simpa only [e] using h.old⟩
  | iface id =>
    have e : ∀ x, Key.iface x ∈ done ++ [Key.iface id] ↔ Key.iface x ∈ done ∨ x = id := by simp
    unfold visit
    simp only
    cases hs : semverTrack R id with
    | none =>
      refine ⟨?_, ?_, ?_⟩
      · intro t ht x v hx
        rcases (e x).1 hx with hx | rfl
        · exact h.free t ht x v hx
        · rw [hs]; simp
      · intro t v x hx
        obtain ⟨h1, h2, h3⟩ := h.max t v x hx
        refine ⟨(e x).2 (.inl h1), h2, fun y w hy hw => ?_⟩
        rcases (e y).1 hy with hy | rfl
        · exact h3 y w hy hw
        · rw [hs] at hw; cases hw
      · intro x
        rw [h.old]
        constructor
        · rintro ⟨t, v, l, w, h1, h2, h3⟩
          exact ⟨t, v, l, w, (e x).2 (.inl h1), (e l).2 (.inl h2), h3⟩
        · rintro ⟨t, v, l, w, k1, k2, h3, h4, h5⟩
          rcases (e x).1 k1 with h1 | rfl
          · rcases (e l).1 k2 with h2 | rfl
            · exact ⟨t, v, l, w, h1, h2, h3, h4, h5⟩
            · rw [hs] at h4; cases h4
          · rw [hs] at h3; cases h3
    | some p =>
      obtain ⟨t, v⟩ := p
      simp only
      cases ht : st.tracks t with
      | none =>
        have hf := h.free t ht
        refine ⟨?_, ?_, ?_⟩
        · intro u hu x w hx
          simp only [update] at hu
          split at hu
          · cases hu
          · next hne =>
            rcases (e x).1 hx with hx | rfl
            · exact h.free u hu x w hx
            · rw [hs]
              intro he
              cases he
              exact hne rfl
        · intro u w x hx
          simp only [update] at hx
          split at hx
          · next hu =>
            cases hx
            subst hu
            refine ⟨(e _).2 (.inr rfl), hs, fun y w hy hw => ?_⟩
            rcases (e y).1 hy with hy | rfl
            · exact absurd hw (hf y w hy)
            · rw [hs] at hw; cases hw; exact .inl rfl
          · next hu =>
            obtain ⟨h1, h2, h3⟩ := h.max u w x hx
            refine ⟨(e x).2 (.inl h1), h2, fun y w' hy hw => ?_⟩
            rcases (e y).1 hy with hy | rfl
            · exact h3 y w' hy hw
            · rw [hs] at hw; cases hw; exact absurd rfl hu
        · intro x
          rw [h.old]
          constructor
          · rintro ⟨t, v, l, w, h1, h2, h3⟩
            exact ⟨t, v, l, w, (e x).2 (.inl h1), (e l).2 (.inl h2), h3⟩
          · rintro ⟨u, v1, l, w, k1, k2, h3, h4, h5⟩
            rcases (e x).1 k1 with h1 | rfl
            · rcases (e l).1 k2 with h2 | rfl
              · exact ⟨u, v1, l, w, h1, h2, h3, h4, h5⟩
              · rw [hs] at h4; cases h4; exact absurd h3 (hf x v1 h1)
            · rw [hs] at h3; cases h3
              rcases (e l).1 k2 with h2 | rfl
              · exact absurd h4 (hf l w h2)
              · rw [hs] at h4; cases h4; exact absurd h5 (irrefl hc _)
      | some q =>
        obtain ⟨v0, id0⟩ := q
        obtain ⟨m1, m2, m3⟩ := h.max t v0 id0 ht
        simp only
        cases hcmp : cmp v v0 with
        | eq =>
          have hv := (hc.eq _ _).1 hcmp
          subst hv
          have hid : id = id0 := ho id id0 t v (hsub _ (by simp))
            (hsub _ (List.mem_append_left _ m1)) hs m2
          subst hid
          have e' : ∀ x, Key.iface x ∈ done ++ [Key.iface id] ↔ Key.iface x ∈ done := fun x => by
            rw [e]
            constructor
            · rintro (h | rfl)
              · exact h
              · exact m1
            · exact .inl
          exact ⟨by simpa only [e'] using h.free, by simpa only [e'] using h.max,
            by simpa only [e'] using h.old⟩
        | lt =>
          refine ⟨?_, ?_, ?_⟩
          · intro u hu x w hx
            rcases (e x).1 hx with hx | rfl
            · exact h.free u hu x w hx
            · rw [hs]
              intro he
              cases he
              rw [ht] at hu; cases hu
          · intro u w x hx
            obtain ⟨h1, h2, h3⟩ := h.max u w x hx
            refine ⟨(e x).2 (.inl h1), h2, fun y w' hy hw => ?_⟩
            rcases (e y).1 hy with hy | rfl
            · exact h3 y w' hy hw
            · rw [hs] at hw
              cases hw
              have hx : st.tracks t = some (w, x) := hx
              rw [ht] at hx
              cases hx
              exact .inr hcmp
          · intro x
            simp only
            rw [mem_insert, h.old]
            constructor
            · rintro (rfl | ⟨t, v, l, w, h1, h2, h3⟩)
              · exact ⟨t, v, id0, v0, (e _).2 (.inr rfl), (e _).2 (.inl m1), hs, m2, hcmp⟩
              · exact ⟨t, v, l, w, (e x).2 (.inl h1), (e l).2 (.inl h2), h3⟩
            · rintro ⟨u, v1, l, w, k1, k2, h3, h4, h5⟩
              rcases (e x).1 k1 with h1 | rfl
              · refine .inr ?_
                rcases (e l).1 k2 with h2 | rfl
                · exact ⟨u, v1, l, w, h1, h2, h3, h4, h5⟩
                · rw [hs] at h4; cases h4
                  exact ⟨t, v1, id0, v0, h1, m1, h3, m2, hc.trans _ _ _ h5 hcmp⟩
              · exact .inl rfl
        | gt =>
          have hlt : cmp v0 v = .lt := (hc.swap _ _).1 hcmp
          refine ⟨?_, ?_, ?_⟩
          · intro u hu x w hx
            simp only [update] at hu
            split at hu
            · cases hu
            · next hne =>
              rcases (e x).1 hx with hx | rfl
              · exact h.free u hu x w hx
              · rw [hs]
                intro he
                cases he
                exact hne rfl
          · intro u w x hx
            simp only [update] at hx
            split at hx
            · next hu =>
              cases hx
              subst hu
              refine ⟨(e _).2 (.inr rfl), hs, fun y w hy hw => ?_⟩
              rcases (e y).1 hy with hy | rfl
              · rcases m3 y w hy hw with rfl | hlt'
                · exact .inr hlt
                · exact .inr (hc.trans _ _ _ hlt' hlt)
              · rw [hs] at hw; cases hw; exact .inl rfl
            · next hu =>
              obtain ⟨h1, h2, h3⟩ := h.max u w x hx
              refine ⟨(e x).2 (.inl h1), h2, fun y w' hy hw => ?_⟩
              rcases (e y).1 hy with hy | rfl
              · exact h3 y w' hy hw
              · rw [hs] at hw; cases hw; exact absurd rfl hu
          · intro x
            simp only
            rw [mem_insert, h.old]
            constructor
            · rintro (rfl | ⟨t, v, l, w, h1, h2, h3⟩)
              · exact ⟨t, v0, id, v, (e _).2 (.inl m1), (e _).2 (.inr rfl), m2, hs, hlt⟩
              · exact ⟨t, v, l, w, (e x).2 (.inl h1), (e l).2 (.inl h2), h3⟩
            · rintro ⟨u, v1, l, w, k1, k2, h3, h4, h5⟩
              rcases (e x).1 k1 with h1 | rfl
              · rcases (e l).1 k2 with h2 | rfl
                · exact .inr ⟨u, v1, l, w, h1, h2, h3, h4, h5⟩
                · rw [hs] at h4; cases h4
                  rcases m3 x v1 h1 h3 with rfl | hlt'
                  · exact .inl (ho x id0 t v1 (hsub _ (List.mem_append_left _ h1))
                      (hsub _ (List.mem_append_left _ m1)) h3 m2)
                  · exact .inr ⟨t, v1, id0, v0, h1, m1, h3, m2, hlt'⟩
              · rw [hs] at h3; cases h3
                exfalso
                rcases (e l).1 k2 with h2 | rfl
                · rcases m3 l w h2 h4 with rfl | hlt'
                  · exact irrefl hc _ (hc.trans _ _ _ hlt h5)
                  · exact irrefl hc _ (hc.trans _ _ _ hlt (hc.trans _ _ _ h5 hlt'))
                · rw [hs] at h4; cases h4; exact irrefl hc _ h5

theorem inv_pass {all : List Key} (hc : Total cmp) (ho : One R all) : ∀ (ks done : List Key) {st : St},
    (∀ x ∈ done ++ ks, x ∈ all) → Inv R cmp done st →
    Inv R cmp (done ++ ks) (ks.foldl (visit R cmp) st)
  | [], done, st, _, h => by simpa using h
  | k :: ks, done, st, hs, h => by
    have h1 := inv_visit (st := st) (k := k) hc ho (fun x hx => hs x (by
      simp only [List.mem_append, List.mem_cons, List.not_mem_nil, or_false] at hx ⊢
      rcases hx with hx | hx
      · exact .inl hx
      · exact .inr (.inl hx))) h
    have := inv_pass hc ho ks (done ++ [k]) (by simpa using hs) h1
    simpa using this

theorem inv_start : Inv R cmp [] {} := ⟨by simp, by simp, by simp⟩

/-! ### The other loops -/

theorem replacements_ok {st : St} : ∀ {ids : List Nat} {acc : List (Nat × Nat)},
    (∀ id ∈ ids, ∃ t v, semverTrack R id = some (t, v) ∧ ∃ x, st.tracks t = some x) → ids.Nodup →
    (∀ id ∈ ids, ∀ l, (id, l) ∉ acc) →
    ∃ repl, replacements R st ids acc = .ok repl ∧ ∀ id l, (id, l) ∈ repl ↔ (id, l) ∈ acc ∨
      (id ∈ ids ∧ ∃ t v w, semverTrack R id = some (t, v) ∧ st.tracks t = some (w, l))
  | [], acc, _, _, _ => ⟨acc, rfl, by simp⟩
  | id :: ids, acc, hk, hn, ha => by
    obtain ⟨t, v, h1, ⟨w, l⟩, h2⟩ := hk id (List.mem_cons_self ..)
    have h3 : acc.any (·.1 == id) = false := by
      rw [List.any_eq_false]
      rintro ⟨a, b⟩ hx
      have := ha id (List.mem_cons_self ..) b
      simp only [beq_iff_eq]
      rintro rfl
      exact this hx
    obtain ⟨hn1, hn2⟩ := List.nodup_cons.1 hn
    obtain ⟨repl, h4, h5⟩ := replacements_ok (ids := ids) (acc := acc ++ [(id, l)])
      (fun x hx => hk x (List.mem_cons_of_mem _ hx)) hn2 (fun x hx y hy => by
        rcases List.mem_append.1 hy with hy | hy
        · exact ha x (List.mem_cons_of_mem _ hx) y hy
        · simp at hy
          exact hn1 (hy.1 ▸ hx))
    refine ⟨repl, ?_, fun x y => ?_⟩
    · unfold replacements
      simp only [h1, h2, h3]
      exact h4
    · rw [h5]
      simp only [List.mem_append, List.mem_cons, List.not_mem_nil, or_false, Prod.mk.injEq]
      constructor
      · rintro ((h | ⟨rfl, rfl⟩) | ⟨h, h'⟩)
        · exact .inl h
        · exact .inr ⟨.inl rfl, t, v, w, h1, h2⟩
        · exact .inr ⟨.inr h, h'⟩
      · rintro (h | ⟨rfl | h, h'⟩)
        · exact .inl (.inl h)
        · obtain ⟨t', v', w', h6, h7⟩ := h'
          rw [h1] at h6
          cases h6
          rw [h2] at h7
          cases h7
          exact .inl (.inr ⟨rfl, rfl⟩)
        · exact .inr ⟨h, h'⟩

theorem keep_ok {repl : List (Nat × Nat)} : ∀ {xs acc : List (Key × Item)},
    (acc.map (·.1) ++ xs.map (·.1)).Nodup →
    keep repl xs acc = .ok (acc ++ xs.filter fun x => !isReplaced repl x.2)
  | [], acc, _ => by simp [keep]
  | (k, item) :: xs, acc, hn => by
    unfold keep
    cases hr : isReplaced repl item with
    | true =>
      rw [if_pos rfl, keep_ok]
      · simp [hr]
      · refine hn.sublist ?_
        simp
    | false =>
      have h1 : acc.any (·.1 == k) = false := by
        rw [List.any_eq_false]
        rintro ⟨a, b⟩ hx
        simp only [beq_iff_eq]
        rintro rfl
        have := (List.nodup_append.1 hn).2.2 a (List.mem_map.2 ⟨_, hx, rfl⟩) a (by simp)
        exact this rfl
      simp only [h1]
      rw [if_neg (by simp), if_neg (by simp), keep_ok]
      · simp [hr]
      · simpa using hn

theorem isReplaced_iff {repl : List (Nat × Nat)} {item : Item} :
    isReplaced repl item = true ↔ ∃ id l, item = .iface id ∧ (id, l) ∈ repl := by
  cases item with
  | other => simp [isReplaced]
  | iface id =>
    simp only [isReplaced, List.any_eq_true, beq_iff_eq, Item.iface.injEq]
    constructor
    · rintro ⟨⟨a, b⟩, h, rfl⟩; exact ⟨_, b, rfl, h⟩
    · rintro ⟨_, b, rfl, h⟩; exact ⟨_, h, rfl⟩

/-! ### Tracks and interfaces -/

theorem newer_iff {id l : Nat} : Newer R cmp l id ↔ ∃ t v w, semverTrack R id = some (t, v) ∧
    semverTrack R l = some (t, w) ∧ cmp v w = .lt := by
  constructor
  · rintro ⟨ns, p, i, v, w, h1, h2, h3, h4⟩
    have := track_compatible.2 h3
    exact ⟨(⟨ns, p, some (track v)⟩, i), v, w, semverTrack_some.2 ⟨h1, rfl⟩,
      semverTrack_some.2 ⟨h2, by rw [this]⟩, h4⟩
  · rintro ⟨t, v, w, h1, h2, h3⟩
    obtain ⟨h4, h5⟩ := semverTrack_some.1 h1
    obtain ⟨h6, h7⟩ := semverTrack_some.1 h2
    rw [h5] at h7
    exact ⟨_, _, _, v, w, h4, h6, track_compatible.1 (Option.some.inj h7), h3⟩

theorem imported_iff {imports : List (Key × Item)} {id : Nat} :
    Imported imports id ↔ Key.iface id ∈ imports.map (·.1) := by
  simp [Imported]

theorem one_of {imports : List (Key × Item)} (h : Distinct R imports) :
    One R (imports.map (·.1)) := by
  intro id id' t v h1 h2 h3 h4
  exact h id id' _ _ _ v (imported_iff.2 h1) (imported_iff.2 h2) (semverTrack_some.1 h3).1
    (semverTrack_some.1 h4).1

/-- What the loops compute. -/
theorem replaces_iff {R : Nat → Iface} {cmp : Version → Version → Ordering}
    {imports : List (Key × Item)} {repl : List (Nat × Nat)} (hc : Total cmp) (hd : Distinct R imports)
    (h2 : ∀ id l, (id, l) ∈ repl ↔ (id, l) ∈ ([] : List (Nat × Nat)) ∨
      (id ∈ ((imports.map (·.1)).foldl (visit R cmp) {}).toRemove ∧ ∃ t v w,
        semverTrack R id = some (t, v) ∧
        ((imports.map (·.1)).foldl (visit R cmp) {}).tracks t = some (w, l))) :
    ∀ id l, (id, l) ∈ repl ↔ Replaces R cmp imports l id := by
  have hi := inv_pass hc (one_of hd) (imports.map (·.1)) [] (by simp) (inv_start (R := R) (cmp := cmp))
  rw [List.nil_append] at hi
  intro id l
  rw [h2, hi.old]
  constructor
  · rintro (h | ⟨⟨t, v, l', w, k1, k2, k3, k4, k5⟩, t', v', w', k6, k7⟩)
    · cases h
    · rw [k3] at k6
      cases k6
      obtain ⟨m1, m2, m3⟩ := hi.max _ _ _ k7
      have hlt : cmp v w' = .lt := by
        rcases m3 l' w k2 k4 with rfl | h
        · exact k5
        · exact hc.trans _ _ _ k5 h
      refine ⟨imported_iff.2 k1, imported_iff.2 m1, newer_iff.2 ⟨t, v, w', k3, m2, hlt⟩, ?_⟩
      intro x hx hnew
      obtain ⟨t2, v2, w2, n1, n2, n3⟩ := newer_iff.1 hnew
      rw [m2] at n1
      cases n1
      rcases m3 x w2 (imported_iff.1 hx) n2 with rfl | h
      · exact irrefl hc _ n3
      · exact irrefl hc _ (hc.trans _ _ _ n3 h)
  · rintro ⟨k1, k2, k3, k4⟩
    obtain ⟨t, v, w, n1, n2, n3⟩ := newer_iff.1 k3
    refine .inr ⟨⟨t, v, l, w, imported_iff.1 k1, imported_iff.1 k2, n1, n2, n3⟩, ?_⟩
    cases ht : ((imports.map (·.1)).foldl (visit R cmp) {}).tracks t with
    | none => exact absurd n1 (hi.free t ht id v (imported_iff.1 k1))
    | some p =>
      obtain ⟨w', l'⟩ := p
      obtain ⟨m1, m2, m3⟩ := hi.max _ _ _ ht
      rcases m3 l w (imported_iff.1 k2) n2 with rfl | h
      · have : l = l' := one_of hd l l' t w (imported_iff.1 k2) m1 n2 m2
        subst this
        exact ⟨t, v, w, n1, ht⟩
      · exact absurd (newer_iff.2 ⟨t, w, w', n2, m2, h⟩) (k4 l' (imported_iff.2 m1))

end Verif.Semver
