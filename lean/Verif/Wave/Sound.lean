import Verif.Wave.Spec
/-
Whatever the typed reader makes is a value of the type.
-/
namespace Verif.Wave

open Verif.Wave.Spec

variable {F D : Type} (E : Env F D)

theorem readInt_range {signed : Bool} {bits : Nat} {t : Text} {i : Int}
    (h : readInt signed bits t = some i) : HasTy (.int signed bits) (.int signed bits i : Val F D) := by
  unfold readInt at h
  simp only at h
  split at h
  · cases h
  · split at h
    · cases h
    · simp only [Option.ite_none_right_eq_some, Option.some.injEq] at h
      obtain ⟨hr, rfl⟩ := h
      cases signed
      · exact .uint _ _ (by simpa using hr.1) (by simpa using hr.2)
      · exact .sint _ _ (by simpa using hr.1) (by simpa using hr.2)

theorem toFields_sound {values : List (Text × Node)} {fs : List (Text × Ty)}
    (hf : ∀ f ∈ fs, ∀ (n : Node) (v : Val F D), toVal E f.2 n = some v → HasTy f.2 v)
    {vs : List (Text × Val F D)} (h : toFields E values fs = some vs) : FieldsHaveTy fs vs := by
  induction fs generalizing vs with
  | nil =>
    simp only [toFields, Option.some.injEq] at h
    exact h ▸ .nil
  | cons f fs ih =>
    obtain ⟨name, t⟩ := f
    simp only [toFields] at h
    split at h
    · rename_i v vs' hv hvs
      cases h
      refine .cons _ _ _ _ _ ?_ (ih (fun f hf' => hf f (List.mem_cons_of_mem _ hf')) hvs)
      split at hv
      · exact hf (name, t) List.mem_cons_self _ _ hv
      · split at hv
        · cases hv
          cases t <;> first | exact .none _ | (rename_i h; cases h)
        · cases hv
    · cases h

theorem toTuple_sound {ts : List Ty} {ns : List Node} (hl : ts.length = ns.length)
    (hf : ∀ t ∈ ts, ∀ (n : Node) (v : Val F D), toVal E t n = some v → HasTy t v)
    {vs : List (Val F D)} (h : toTuple E ts ns = some vs) : AllHaveTy ts vs := by
  induction ts generalizing vs ns with
  | nil =>
    simp only [toTuple, Option.some.injEq] at h
    exact h ▸ .nil
  | cons t ts ih =>
    cases ns with
    | nil => cases hl
    | cons n ns =>
      simp only [toTuple] at h
      split at h
      · rename_i v vs' hv hvs
        cases h
        exact .cons _ _ _ _ (hf t List.mem_cons_self _ _ hv)
          (ih (by simpa using hl) (fun t ht => hf t (List.mem_cons_of_mem _ ht)) hvs)
      · cases h

theorem toPayload_sound {t : Option Ty} {p : Option Node} {r : Option (Val F D)}
    (hf : ∀ t', t = some t' → ∀ (n : Node) (v : Val F D), toVal E t' n = some v → HasTy t' v)
    (h : toPayload E t p = some r) :
    (t = none ∧ r = none) ∨ ∃ t' v, t = some t' ∧ r = some v ∧ HasTy t' v := by
  cases t with
  | none =>
    cases p with
    | none => simp only [toPayload, Option.some.injEq] at h; exact .inl ⟨rfl, h.symm⟩
    | some _ => simp [toPayload] at h
  | some t =>
    cases p with
    | none => simp [toPayload] at h
    | some n =>
      simp only [toPayload, Option.map_eq_some_iff] at h
      obtain ⟨v, hv, rfl⟩ := h
      exact .inr ⟨t, v, rfl, rfl, hf t rfl _ _ hv⟩

theorem toCase_sound {cs : List (Text × Option Ty)} {label : Text} {p : Option Node} {r : Val F D}
    (h : toCase E cs label p = some r) :
    ∃ c ∈ cs, ∃ q, c.1 = label ∧ toPayload E c.2 p = some q ∧ r = .variant label q := by
  induction cs with
  | nil => simp [toCase] at h
  | cons c cs ih =>
    obtain ⟨name, t⟩ := c
    simp only [toCase] at h
    split at h
    · simp only [Option.map_eq_some_iff] at h
      obtain ⟨q, hq, rfl⟩ := h
      exact ⟨_, List.mem_cons_self, q, ‹_›, hq, rfl⟩
    · obtain ⟨c, hc, h⟩ := ih h
      exact ⟨c, List.mem_cons_of_mem _ hc, h⟩

theorem mapM_sound {t : Ty} {ns : List Node} {vs : List (Val F D)}
    (hf : ∀ (n : Node) (v : Val F D), toVal E t n = some v → HasTy t v)
    (h : ns.mapM (toVal E t) = some vs) : ∀ v ∈ vs, HasTy t v := by
  induction ns generalizing vs with
  | nil => simp at h; subst h; simp
  | cons n ns ih =>
    simp only [List.mapM_cons, Option.pure_def, Option.bind_eq_bind, Option.bind_eq_some_iff,
      Option.some.injEq] at h
    obtain ⟨v, hv, vs', hvs, rfl⟩ := h
    intro x hx
    rcases List.mem_cons.mp hx with rfl | hx
    · exact hf _ _ hv
    · exact ih hvs x hx

theorem variant_sound {cs : List (Text × Option Ty)} (hnd : (cs.map Prod.fst).Nodup)
    (hname : ∀ c ∈ cs, IsName c.1)
    (hf : ∀ c ∈ cs, ∀ t', c.2 = some t' → ∀ (n : Node) (v : Val F D),
      toVal E t' n = some v → HasTy t' v) {label : Text} {p : Option Node} {r : Val F D}
    (h : toCase E cs label p = some r) : HasTy (.variant cs) r := by
  obtain ⟨⟨name, t⟩, hc, q, hl, hq, rfl⟩ := toCase_sound E h
  dsimp only at hl hq
  subst hl
  rcases toPayload_sound E (hf _ hc) hq with ⟨rfl, rfl⟩ | ⟨t', v, rfl, rfl, hv⟩
  · exact .variantNone _ _ hnd hc (hname _ hc)
  · exact .variant _ _ _ _ hnd hc (hname _ hc) hv

theorem toVal_sound {t : Ty} (ht : TyOk t) (n : Node) (v : Val F D) (h : toVal E t n = some v) :
    HasTy t v := by
  induction ht generalizing n v with
  | bool =>
    simp only [toVal] at h
    split at h <;> cases h <;> exact .bool _
  | int s b =>
    simp only [toVal] at h
    split at h
    · cases h
    · simp only [Option.map_eq_some_iff] at h
      obtain ⟨i, hi, rfl⟩ := h
      exact readInt_range hi
  | f32 =>
    simp only [toVal] at h
    split at h
    · cases h
    · simp only [Option.map_eq_some_iff] at h
      obtain ⟨i, hi, rfl⟩ := h
      exact .f32 _
  | f64 =>
    simp only [toVal] at h
    split at h
    · cases h
    · simp only [Option.map_eq_some_iff] at h
      obtain ⟨i, hi, rfl⟩ := h
      exact .f64 _
  | char =>
    simp only [toVal, Option.map_eq_some_iff] at h
    obtain ⟨i, hi, rfl⟩ := h
    exact .char _
  | string =>
    simp only [toVal, Option.map_eq_some_iff] at h
    obtain ⟨i, hi, rfl⟩ := h
    exact .string _
  | list t _ ih =>
    simp only [toVal] at h
    split at h
    · cases h
    · simp only [Option.map_eq_some_iff] at h
      obtain ⟨i, hi, rfl⟩ := h
      exact .list _ _ (mapM_sound E ih hi)
  | record fs hnd hname _ ih =>
    simp only [toVal] at h
    split at h
    · cases h
    · split at h
      · cases h
      · simp only [Option.map_eq_some_iff] at h
        obtain ⟨i, hi, rfl⟩ := h
        exact .record _ _ hnd hname (toFields_sound E ih hi)
  | tuple ts hne _ ih =>
    simp only [toVal] at h
    split at h
    · cases h
    · split at h
      · cases h
      · rename_i hl
        simp only [Option.map_eq_some_iff] at h
        obtain ⟨i, hi, rfl⟩ := h
        have := toTuple_sound E (by simpa using hl) ih hi
        refine .tuple _ _ ?_ this
        rintro rfl
        cases this
        exact hne rfl
  | variant cs hnd hname _ ih =>
    simp only [toVal] at h
    split at h
    · split at h
      · cases h
      · exact variant_sound E hnd hname ih h
    · split at h
      · split at h
        · cases h
        · exact variant_sound E hnd hname ih h
      · cases h
    · cases h
  | enum cs hname =>
    simp only [toVal] at h
    split at h
    · cases h
    · split at h
      · cases h
        exact .enum _ _ ‹_› (hname _ ‹_›)
      · cases h
  | option t _ ih =>
    simp only [toVal] at h
    split at h
    · split at h
      · simp only [Option.map_eq_some_iff] at h
        obtain ⟨i, hi, rfl⟩ := h
        exact .some _ _ (ih _ _ hi)
      · cases h
    · cases h
      exact .none _
    · split at h
      · simp only [Option.map_eq_some_iff] at h
        obtain ⟨i, hi, rfl⟩ := h
        exact .some _ _ (ih _ _ hi)
      · cases h
  | result ok err _ _ ih1 ih2 =>
    simp only [toVal] at h
    split at h
    · simp only [Option.map_eq_some_iff] at h
      obtain ⟨i, hi, rfl⟩ := h
      rcases toPayload_sound E ih1 hi with ⟨rfl, rfl⟩ | ⟨t', v, rfl, rfl, hv⟩
      · exact .ok _
      · exact .okPayload _ _ _ hv
    · simp only [Option.map_eq_some_iff] at h
      obtain ⟨i, hi, rfl⟩ := h
      rcases toPayload_sound E ih2 hi with ⟨rfl, rfl⟩ | ⟨t', v, rfl, rfl, hv⟩
      · exact .err _
      · exact .errPayload _ _ _ hv
    · cases ok with
      | none => simp [toFlatResult] at h
      | some t =>
        simp only [toFlatResult] at h
        split at h
        · simp only [Option.map_eq_some_iff] at h
          obtain ⟨i, hi, rfl⟩ := h
          exact .okPayload _ _ _ (ih1 t rfl _ _ hi)
        · cases h
  | flags fs hnd hname =>
    simp only [toVal] at h
    split at h
    · cases h
    · split at h
      · cases h
        exact .flags _ _ hnd hname List.filter_sublist
      · cases h

end Verif.Wave
