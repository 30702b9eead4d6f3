import Verif.Op.Mono
/-! The typed stacks that the operands of the innermost block stand for. -/
namespace Verif.Op.View
open Verif.Op.Typing
open Verif.Types (AbsHeap HeapType UnpackedIndex RefType ValType)
open Verif.Instr (FrameKind BlockType MemArg Catch Handle BrTable Operator)
open Verif.TypeList.Spec (Field Storage Comp SubT Decls HeapSub RefSub ValSub StorageSub)

variable {α β : Type} {E : Env} {F : Fn} {B B' B2 : Base} {C : Ctx} {u : Bool}

/-- The types that an operand stands for. -/
inductive G : MT → VT → Prop
  | bottom : G .bottom .bot
  | none : G (.unknownRef none) (.refBot false)
  | some {h} (s : Bool) : G (.unknownRef (some h)) (.val (.ref ⟨false, .abs s h⟩))
  | known {t} : G (.known t) (.val t)

/-- One of these types. -/
def gen : MT → VT
  | .bottom => .bot
  | .unknownRef none => .refBot false
  | .unknownRef (some h) => .val (.ref ⟨false, .abs false h⟩)
  | .known t => .val t

theorem G.gen : ∀ m, G m (gen m)
  | .bottom => .bottom
  | .unknownRef Option.none => .none
  | .unknownRef (Option.some _) => .some false
  | .known _ => .known

/-- The stacks that the operands of a block stand for; there may be anything below if the position
cannot be reached. -/
inductive Conc (u : Bool) : List MT → List VT → Prop
  | nil : Conc u [] []
  | low {fs} : u = true → Conc u [] fs
  | snoc {m v c fs} : G m v → Conc u c fs → Conc u (m :: c) (fs ++ [v])

theorem Conc.gen (u : Bool) : ∀ c, ∃ fs, Conc u c fs
  | [] => ⟨[], .nil⟩
  | m :: c => by
    obtain ⟨fs, h⟩ := Conc.gen u c
    exact ⟨_, .snoc (G.gen m) h⟩

theorem Conc.cons_inv {m : MT} {c : List MT} {ts : List VT} (h : Conc u (m :: c) ts) :
    ∃ fs v, ts = fs ++ [v] ∧ G m v ∧ Conc u c fs := by
  cases h with
  | snoc h1 h2 => exact ⟨_, _, rfl, h1, h2⟩

theorem Conc.pushed_inv {outs : List V} {c : List MT} {ts : List VT}
    (h : Conc u (pushed outs c) ts) : ∃ fs, ts = fs ++ vals outs ∧ Conc u c fs := by
  have : ∀ {ms : List V} {ts : List VT}, Conc u (ms.map MT.known ++ c) ts →
      ∃ fs, ts = fs ++ vals ms.reverse ∧ Conc u c fs := by
    intro ms
    induction ms with
    | nil => intro ts h; exact ⟨ts, by simp [vals], h⟩
    | cons m ms ih =>
      intro ts h
      obtain ⟨fs, v, rfl, h1, h2⟩ := h.cons_inv
      obtain ⟨gs, rfl, h3⟩ := ih h2
      cases h1
      exact ⟨gs, by simp [vals], h3⟩
  unfold pushed at h
  rw [← List.map_reverse] at h
  simpa using this h

theorem Conc.pushed {outs : List V} {c : List MT} {fs : List VT} (h : Conc u c fs) :
    Conc u (pushed outs c) (fs ++ vals outs) := by
  induction outs generalizing c fs with
  | nil => rw [pushed_nil]; simpa [vals] using h
  | cons t ts ih =>
    rw [pushed_cons]
    have := ih (c := .known t :: c) (fs := fs ++ [.val t]) (.snoc .known h)
    simpa [vals] using this

theorem conc_false_nil {ts : List VT} (h : Conc false [] ts) : ts = [] := by
  cases h with
  | nil => rfl
  | low h => cases h

theorem f2_append {γ δ : Type} {P : γ → δ → Prop} {as : List γ} {bs : List δ} {as' : List γ}
    {bs' : List δ} (h : List.Forall₂ P as bs) (h' : List.Forall₂ P as' bs') :
    List.Forall₂ P (as ++ as') (bs ++ bs') := by
  induction h with
  | nil => exact h'
  | cons h1 _ ih => exact .cons h1 ih

theorem VT.Sub.rfl' {D : Decls} : ∀ {t : VT}, VT.Sub D t t
  | .bot => .bot
  | .refBot _ => .refBot fun h => h
  | .val _ => .val .refl

theorem VTs.Sub.rfl' {D : Decls} : ∀ {ts : List VT}, VTs.Sub D ts ts
  | [] => .nil
  | _ :: _ => .cons VT.Sub.rfl' VTs.Sub.rfl'

theorem chk_G {t : V} {m : MT} (h : Chk C t m) : ∃ v, G m v ∧ VT.Sub C.decls v (.val t) := by
  match m, h with
  | .bottom, _ => exact ⟨_, .bottom, .bot⟩
  | .unknownRef none, ⟨r, hr⟩ =>
    subst hr
    exact ⟨_, .none, .refVal nofun⟩
  | .unknownRef (some h), ⟨r, hr, hs⟩ =>
    subst hr
    exact ⟨_, .some _, .val (valSub_ref_iff.2 ⟨nofun, hs⟩)⟩
  | .known t', h => exact ⟨_, .known, .val h⟩

theorem pop_back {t : V} {c c1 : List MT} {fs : List VT} (h : Pop C u t c c1) (hc : Conc u c1 fs) :
    ∃ v, VT.Sub C.decls v (.val t) ∧ Conc u c (fs ++ [v]) := by
  cases c with
  | nil => exact ⟨.bot, .bot, .low h.1⟩
  | cons m c =>
    obtain ⟨h1, rfl⟩ := h
    obtain ⟨v, h2, h3⟩ := chk_G h1
    exact ⟨v, h3, .snoc h2 hc⟩

theorem pops_back' : ∀ {ts : List V} {c c1 : List MT} {fs : List VT}, Pops C u ts c c1 →
    Conc u c1 fs → ∃ vs, VTs.Sub C.decls vs (vals ts.reverse) ∧ Conc u c (fs ++ vs)
  | [], c, c1, fs, h, hc => ⟨[], .nil, by cases h; simpa using hc⟩
  | t :: ts, c, c1, fs, ⟨c', h1, h2⟩, hc => by
    obtain ⟨vs, h3, h4⟩ := pops_back' h2 hc
    obtain ⟨v, h5, h6⟩ := pop_back h1 h4
    refine ⟨vs ++ [v], ?_, by simpa using h6⟩
    have := f2_append h3 (List.Forall₂.cons h5 .nil)
    simpa [vals] using this

theorem pops_back {ts : List V} {c c1 : List MT} {fs : List VT} (h : Pops C u ts.reverse c c1)
    (hc : Conc u c1 fs) : ∃ vs, VTs.Sub C.decls vs (vals ts) ∧ Conc u c (fs ++ vs) := by
  simpa using pops_back' h hc

/-- What an operand that is a reference stands for before null is removed. -/
theorem popR_back {c c1 : List MT} {m : MR} {fs : List VT} {v : VT} (h : PopR u c m c1)
    (hc : Conc u c1 fs) (hv : G m.asNonNull.toMT v) :
    ∃ t v1, NonNull t v ∧ VT.Sub C.decls v1 t ∧ Conc u c (fs ++ [v1]) := by
  rcases h with ⟨rfl, hu, rfl, rfl⟩ | ⟨m', rfl, h⟩
  · cases hv
    exact ⟨_, .bot, .bot, .bot, .low hu⟩
  · rcases h with ⟨rfl, rfl⟩ | ⟨o, rfl, rfl⟩ | ⟨r, rfl, rfl⟩
    · cases hv
      exact ⟨_, .bot, .bot, .bot, .snoc .bottom hc⟩
    · cases o with
      | none =>
        cases hv
        exact ⟨_, .refBot false, .bot, .refBot fun _ => rfl, .snoc .none hc⟩
      | some x =>
        cases hv with
        | some s =>
          exact ⟨_, .val (.ref ⟨false, .abs s x⟩), .ref,
            .val (valSub_ref_iff.2 ⟨fun _ => rfl, .refl⟩), .snoc (.some s) hc⟩
    · cases hv
      exact ⟨_, .val (.ref r), .ref, .val (valSub_ref_iff.2 ⟨fun _ => rfl, .refl⟩),
        .snoc .known hc⟩

/-- References of the type are not shared. -/
def Unshared (C : Ctx) (t : V) : Prop := ∀ r, t = .ref r → C.sharedHeap r.heap = false

theorem chk_gen {t : V} {m : MT} (h : Chk C t m) (ht : Unshared C t) :
    VT.Sub C.decls (gen m) (.val t) := by
  match m, h with
  | .bottom, _ => exact .bot
  | .unknownRef none, ⟨r, hr⟩ =>
    subst hr
    exact .refVal nofun
  | .unknownRef (some h), ⟨r, hr, hs⟩ =>
    rw [ht r hr] at hs
    subst hr
    exact .val (valSub_ref_iff.2 ⟨nofun, hs⟩)
  | .known t', h => exact .val h

/-- One stack that has all the types that operands match at the same time. -/
theorem match_common : ∀ (n : Nat) (c : List MT), (∀ i < n, (cell u c i).isSome) →
    ∃ below ts, Conc u c (below ++ ts) ∧ ∀ ls : List V, ls.length = n → Match C u ls.reverse c →
      (∀ t ∈ ls, Unshared C t) → VTs.Sub C.decls ts (vals ls)
  | 0, c, _ => by
    obtain ⟨fs, hf⟩ := Conc.gen u c
    refine ⟨fs, [], by simpa using hf, fun ls hl _ _ => ?_⟩
    rw [List.length_eq_zero_iff.1 hl]
    exact .nil
  | n + 1, c, h => by
    have hsplit : ∀ ls : List V, ls.length = n + 1 → ∃ xs x, ls = xs ++ [x] ∧ xs.length = n := by
      intro ls hl
      rcases List.eq_nil_or_concat ls with rfl | ⟨xs, x, rfl⟩
      · simp at hl
      · exact ⟨xs, x, List.concat_eq_append .., by simpa using hl⟩
    cases c with
    | nil =>
      have hu : u = true := by
        have := h 0 (by omega)
        rw [cell_nil] at this
        cases u
        · cases this
        · rfl
      obtain ⟨below, ts, -, hm⟩ := match_common n [] (fun i hi => by
        rw [cell_nil, if_pos hu]; rfl)
      refine ⟨below, ts ++ [.bot], .low hu, fun ls hl hma hun => ?_⟩
      obtain ⟨xs, x, rfl, hxl⟩ := hsplit ls hl
      rw [List.reverse_append, List.reverse_singleton, List.singleton_append, match_cons] at hma
      obtain ⟨c1, ⟨-, rfl⟩, hma⟩ := hma
      have := f2_append (hm xs hxl hma fun t ht => hun t (by simp [ht]))
        (List.Forall₂.cons (.bot (t := .val x)) .nil)
      simpa [vals] using this
    | cons m c =>
      obtain ⟨below, ts, hc, hm⟩ := match_common n c (fun i hi => by
        have := h (i + 1) (by omega)
        rwa [cell_succ] at this)
      refine ⟨below, ts ++ [gen m], by rw [← List.append_assoc]; exact .snoc (G.gen m) hc,
        fun ls hl hma hun => ?_⟩
      obtain ⟨xs, x, rfl, hxl⟩ := hsplit ls hl
      rw [List.reverse_append, List.reverse_singleton, List.singleton_append, match_cons] at hma
      obtain ⟨c1, ⟨hx, rfl⟩, hma⟩ := hma
      have := f2_append (hm xs hxl hma fun t ht => hun t (by simp [ht]))
        (List.Forall₂.cons (chk_gen hx (hun x (by simp))) .nil)
      simpa [vals] using this

theorem match_cells {ls : List V} {c : List MT} (h : Match C u ls.reverse c) :
    ∀ i < ls.length, (cell u c i).isSome := by
  intro i hi
  have : i < ls.reverse.length := by simpa using hi
  obtain ⟨m, hm, -⟩ := h i _ (List.getElem?_eq_getElem this)
  rw [hm]; rfl

end Verif.Op.View
