import Verif.TypeList.Intern
/-! # Features that types need -/
namespace Verif.TypeList
open Verif.Types
open Spec (SubT Comp Heap Ref Val Storage Field RefFeats ValFeats StorageFeats CompFeats SubFeats)

variable {sz : Prop} {f : Features} {T : TypeList}

theorem Res.and {α : Type} {r : M α} {P Q : α → Prop} (h : Res sz r P) (h' : Res False r Q) :
    Res sz r fun a => P a ∧ Q a := ⟨fun a e => ⟨h.1 a e, h'.1 a e⟩, h.2⟩

theorem Res.partly {α : Type} {r : M α} {P : α → Prop} (h : ∀ a, r = .ok a → P a) :
    Res False r P := ⟨h, fun _ h => h⟩

theorem bind_ok {α β : Type} {m : M α} {k : α → M β} {y : β} :
    (m >>= k) = .ok y ↔ ∃ x, m = .ok x ∧ k x = .ok y := by
  cases m with
  | error e => exact ⟨nofun, by rintro ⟨x, h, -⟩; cases h⟩
  | ok x => exact ⟨fun h => ⟨x, rfl, h⟩, by rintro ⟨_, h, h2⟩; cases h; exact h2⟩

theorem require_ok {b : Bool} {msg : String} {u : Unit} : require b msg = .ok u ↔ b = true := by
  cases b with
  | true => exact ⟨fun _ => rfl, fun _ => rfl⟩
  | false => exact ⟨nofun, nofun⟩

theorem require_bind {α : Type} {b : Bool} {msg : String} {k : Unit → M α} {y : α} :
    (require b msg >>= k) = .ok y ↔ b = true ∧ k () = .ok y := by
  rw [bind_ok]
  exact ⟨fun ⟨_, h, h'⟩ => ⟨require_ok.1 h, h'⟩, fun ⟨h, h'⟩ => ⟨(), require_ok.2 h, h'⟩⟩

theorem reqIf_ok {c : Prop} [Decidable c] {b : Bool} {msg : String} {α : Type} {k : M α} {y : α} :
    (if c then (do TypeList.require b msg; k) else k) = .ok y ↔ (c → b = true) ∧ k = .ok y := by
  split
  · next h => rw [require_bind]; simp [h]
  · next h => simp [h]

theorem pure_okM {α : Type} {a b : α} : (pure a : M α) = .ok b ↔ a = b := by
  show (Except.ok a = Except.ok b) ↔ _
  simp

theorem checkRefType_iff {r : RefType} {x : Ref U} (h : DRef r x) {u : Unit} :
    checkRefType f r = .ok u ↔ RefFeats f x := by
  unfold checkRefType RefFeats
  rw [require_bind, h.view.2]
  refine and_congr_right fun _ => ?_
  obtain ⟨n, hx⟩ := x
  have hn : r.isNullable = n := h.view.1
  simp only [unwrap, ok_bind]
  cases hx with
  | concrete u =>
    simp only [toHeap]
    cases f.gc <;> simp [require_ok, pure_okM]
  | exact u =>
    simp only [toHeap]
    exact require_ok
  | abs s t =>
    simp only [toHeap]
    rw [reqIf_ok, reqIf_ok]
    refine and_congr_right fun _ => and_congr ?_ ?_
    · exact ⟨fun h h1 h2 => h ⟨h1, h2⟩, fun h h1 => h h1.1 h1.2⟩
    · cases t <;> simp only [require_ok]
      all_goals rw [hn]; cases n <;> simp [require_ok, pure_okM]

theorem checkValueType_iff {t : ValType} {x : Val U} (h : DVal t x) {u : Unit} :
    checkValueType f t = .ok u ↔ ValFeats f x := by
  cases t <;> cases x <;> simp only [DVal] at h <;> unfold checkValueType ValFeats <;> first
    | exact ⟨fun _ => trivial, fun _ => rfl⟩
    | exact require_ok
    | exact checkRefType_iff h

theorem checkVal_feats {shared : Bool} {t : ValType} {x : Val U} (h : DVal t x) {u : Unit}
    (hr : checkVal f T shared t = .ok u) : ValFeats f x := by
  obtain ⟨_, h1, -⟩ := bind_ok.1 hr
  exact (checkValueType_iff h).1 h1

theorem checkStorage_feats {shared : Bool} {t : StorageType} {x : Storage U} (h : DStorage t x)
    {u : Unit} (hr : checkStorage f T shared t = .ok u) : StorageFeats f x := by
  cases t <;> cases x <;> simp only [DStorage] at h
  · trivial
  · trivial
  · exact checkVal_feats h hr

theorem forM'_ok {α β : Type} {D : α → β → Prop} {g : α → M Unit} {P : β → Prop} {l : List α}
    {xs : List β} (h : List.Forall₂ D l xs) (hg : ∀ a x u, D a x → g a = .ok u → P x) {u : Unit}
    (hr : forM' g l = .ok u) : ∀ x ∈ xs, P x := by
  induction h with
  | nil => simp
  | cons h1 _ ih =>
    obtain ⟨_, h2, h3⟩ := bind_ok.1 hr
    intro x hx
    rcases List.mem_cons.1 hx with rfl | hx
    · exact hg _ _ _ h1 h2
    · exact ih h3 x hx

theorem checkComposite_feats {t : CompositeType} {x : Comp U} (h : DComp t.inner x) {u : Unit}
    (hr : checkCompositeType f T t = .ok u) :
    (t.shared = true → f.sharedEverythingThreads = true) ∧ CompFeats f x := by
  obtain ⟨inner, sh, d, e⟩ := t
  unfold checkCompositeType at hr
  rw [reqIf_ok] at hr
  refine ⟨hr.1, ?_⟩
  replace hr := hr.2
  cases inner <;> cases x <;> simp only [DComp] at h <;> simp only at hr
  · rename_i t ps rs
    have hp := DComp.params (f := t) (ps := ps) (rs := rs) h
    obtain ⟨_, h1, h2⟩ := bind_ok.1 hr
    refine ⟨forM'_ok (List.rel_append hp.1 hp.2) (fun a x u hd h => checkVal_feats hd h) h1,
      fun hl => ?_⟩
    rw [← hp.2.length_eq] at hl
    rw [if_pos hl] at h2
    exact require_ok.1 h2
  · rw [require_bind, require_bind] at hr
    exact ⟨hr.1, hr.2.1, checkStorage_feats h.2 hr.2.2⟩
  · rw [require_bind, require_bind] at hr
    exact ⟨hr.1, hr.2.1, forM'_ok h (fun a x u hd h => checkStorage_feats hd.2 h) hr.2.2⟩
  · rw [require_bind, require_bind] at hr
    exact ⟨hr.1, hr.2.1⟩

/-! ## References do not matter -/

section map
variable {ρ σ : Type} (g : ρ → σ)

theorem refFeats_map (x : Ref ρ) : RefFeats f (x.map g) ↔ RefFeats f x := by
  obtain ⟨n, h⟩ := x
  cases h <;> rfl

theorem valFeats_map (x : Val ρ) : ValFeats f (x.map g) ↔ ValFeats f x := by
  cases x <;> first
    | rfl
    | exact refFeats_map g _

theorem storageFeats_map (x : Storage ρ) : StorageFeats f (x.map g) ↔ StorageFeats f x := by
  cases x <;> first
    | rfl
    | exact valFeats_map g _

theorem compFeats_map (x : Comp ρ) : CompFeats f (x.map g) ↔ CompFeats f x := by
  cases x with
  | func ps rs =>
    simp only [CompFeats, Comp.map, ← List.map_append, List.mem_map, List.length_map]
    refine and_congr_left fun _ => ⟨fun h v hv => ?_, ?_⟩
    · exact (valFeats_map g v).1 (h _ ⟨v, hv, rfl⟩)
    · rintro h _ ⟨v, hv, rfl⟩
      exact (valFeats_map g v).2 (h v hv)
  | array x => simp only [CompFeats, Comp.map, Field.map, storageFeats_map]
  | struct xs =>
    simp only [CompFeats, Comp.map, List.mem_map]
    refine and_congr_right fun _ => and_congr_right fun _ => ⟨fun h v hv => ?_, ?_⟩
    · exact (storageFeats_map g v.storage).1 (h _ ⟨v, hv, rfl⟩)
    · rintro h _ ⟨v, hv, rfl⟩
      exact (storageFeats_map g v.storage).2 (h v hv)
  | cont i => rfl

theorem subFeats_map (x : SubT ρ) : SubFeats f (x.map g) ↔ SubFeats f x := by
  simp only [SubFeats, SubT.map, compFeats_map, Option.isSome_map]

end map

end Verif.TypeList
