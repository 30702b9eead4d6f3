import Verif.LinkLayout.Spec
import Verif.DlTable.Model
namespace Verif.LinkLayout
open Spec

/-- One after the other, from `lo` to `hi`. -/
def Within : Nat → List (Nat × Nat) → Nat → Prop
  | lo, [], hi => lo ≤ hi
  | lo, r :: rs, hi => lo ≤ r.1 ∧ Within (r.1 + r.2) rs hi

theorem Within.append {a b : List (Nat × Nat)} : ∀ {lo mid hi}, Within lo a mid → Within mid b hi →
    Within lo (a ++ b) hi := by
  induction a with
  | nil =>
    intro lo mid hi h1 h2
    cases b with
    | nil => exact Nat.le_trans h1 h2
    | cons r rs => exact ⟨Nat.le_trans h1 h2.1, h2.2⟩
  | cons r rs ih => intro lo mid hi h1 h2; exact ⟨h1.1, ih h1.2 h2⟩

theorem Within.bounds {a : List (Nat × Nat)} : ∀ {lo hi}, Within lo a hi →
    lo ≤ hi ∧ ∀ r ∈ a, lo ≤ r.1 ∧ r.1 + r.2 ≤ hi := by
  induction a with
  | nil => intro lo hi h; exact ⟨h, by simp⟩
  | cons r rs ih =>
    intro lo hi h
    obtain ⟨h1, h2⟩ := h
    obtain ⟨i1, i2⟩ := ih h2
    refine ⟨by omega, fun x hx => ?_⟩
    rcases List.mem_cons.1 hx with rfl | hx
    · exact ⟨h1, i1⟩
    · have := i2 x hx
      exact ⟨by omega, this.2⟩

theorem Within.separate {a : List (Nat × Nat)} {lo hi} (h : Within lo a hi) : Separate a hi := by
  refine ⟨?_, fun r hr => (h.bounds.2 r hr).2⟩
  induction a generalizing lo with
  | nil => exact .nil
  | cons r rs ih =>
    refine List.Pairwise.cons (fun x hx y => ?_) (ih h.2)
    have := (h.2.bounds.2 x hx).1
    omega

theorem u32_ok {v c : Nat} (h : u32 true v = .ok c) : v < 4294967296 ∧ c = v := by
  unfold u32 at h
  split at h
  · next hv => exact ⟨hv, by cases h; rfl⟩
  · simp at h

theorem tryFrom_ok {v c : Nat} (h : tryFrom v = .ok c) : v < 4294967296 ∧ c = v := by
  unfold tryFrom at h
  split at h
  · next hv => exact ⟨hv, by cases h; rfl⟩
  · simp at h

theorem shl1_ok {k c : Nat} (h : shl1 true k = .ok c) : c = 2 ^ k := by
  unfold shl1 at h
  split at h
  · cases h; rfl
  · simp at h

theorem bind_ok {α β : Type} {x : Except Panic α} {f : α → Except Panic β} {r : β}
    (h : x >>= f = .ok r) : ∃ a, x = .ok a ∧ f a = .ok r := by
  cases x with
  | error e => cases h
  | ok a => exact ⟨a, rfl, h⟩

theorem align_ok {a b c : Nat} (hb : 0 < b) (h : align true a b = .ok c) : a ≤ c ∧ c % b = 0 := by
  unfold align at h
  obtain ⟨s, hs, h⟩ := bind_ok h
  obtain ⟨-, rfl⟩ := u32_ok hs
  cases h
  refine ⟨?_, Nat.mul_mod_left _ _⟩
  have h1 := Nat.div_add_mod (a + (b - 1)) b
  have h2 := Nat.mod_lt (a + (b - 1)) hb
  rw [Nat.mul_comm] at h1
  omega

theorem placeLibs_ok : ∀ (libs : List Lib) (m t : Nat) (r m' t'),
    placeLibs true libs m t = .ok (r, m', t') →
    Within m (List.zipWith (fun l b => (b.1, l.memorySize)) libs r) m' ∧
    Within t (List.zipWith (fun l b => (b.2, l.tableSize)) libs r) t' ∧
    r.length = libs.length ∧
    ∀ (i : Nat) (l : Lib) (b : Nat × Nat), libs[i]? = some l → r[i]? = some b →
      b.1 % 2 ^ l.memoryAlignment = 0 ∧ b.2 % 2 ^ l.tableAlignment = 0 := by
  intro libs
  induction libs with
  | nil =>
    intro m t r m' t' h
    cases h
    exact ⟨Nat.le_refl _, Nat.le_refl _, rfl, by simp⟩
  | cons l ls ih =>
    intro m t r m' t' h
    unfold placeLibs at h
    obtain ⟨am, ham, h⟩ := bind_ok h
    obtain ⟨m1, hm1, h⟩ := bind_ok h
    obtain ⟨at_, hat, h⟩ := bind_ok h
    obtain ⟨t1, ht1, h⟩ := bind_ok h
    obtain ⟨m2, hm2, h⟩ := bind_ok h
    obtain ⟨t2, ht2, h⟩ := bind_ok h
    obtain ⟨⟨r', m3, t3⟩, hr, h⟩ := bind_ok h
    cases h
    have e1 := shl1_ok ham
    have e2 := shl1_ok hat
    subst e1 e2
    obtain ⟨a1, a2⟩ := align_ok (Nat.two_pow_pos _) hm1
    obtain ⟨b1, b2⟩ := align_ok (Nat.two_pow_pos _) ht1
    obtain ⟨-, rfl⟩ := u32_ok hm2
    obtain ⟨-, rfl⟩ := u32_ok ht2
    obtain ⟨i1, i2, i3, i4⟩ := ih _ _ _ _ _ hr
    refine ⟨⟨a1, i1⟩, ⟨b1, i2⟩, by simp [i3], ?_⟩
    intro i x b hx hb
    cases i with
    | zero =>
      simp at hx hb
      subst hx hb
      exact ⟨a2, b2⟩
    | succ i => exact i4 i x b (by simpa using hx) (by simpa using hb)

theorem calls_ok : ∀ (n t : Nat) (r t'), calls true n t = .ok (r, t') →
    r = (List.range n).map (t + ·) ∧ t' = t + n := by
  intro n
  induction n with
  | zero => intro t r t' h; cases h; exact ⟨rfl, rfl⟩
  | succ n ih =>
    intro t r t' h
    unfold calls at h
    obtain ⟨t1, ht1, h⟩ := bind_ok h
    obtain ⟨⟨r', t2⟩, hr, h⟩ := bind_ok h
    cases h
    obtain ⟨-, rfl⟩ := u32_ok ht1
    obtain ⟨rfl, rfl⟩ := ih _ _ _ hr
    refine ⟨?_, by omega⟩
    rw [List.range_succ_eq_map]
    simp only [List.map_cons, List.map_map, Nat.add_zero]
    congr 1
    apply List.map_congr_left
    intro a _
    simp only [Function.comp]
    omega

theorem withTls_length : ∀ (libs : List Lib) (i : Nat), (withTls libs i).length = tlsCount libs := by
  intro libs
  induction libs with
  | nil => intro i; rfl
  | cons l ls ih =>
    intro i
    unfold withTls tlsCount
    rw [List.countP_cons]
    split
    · next h => simp [h, ih, tlsCount]
    · next h => simp [h, ih, tlsCount]

theorem fillSlots_other : ∀ (is : List Nat) (s : Nat) (slots : List (Option Nat)) (j : Nat),
    j ∉ is → (fillSlots is s slots)[j]? = slots[j]? := by
  intro is
  induction is with
  | nil => intros; rfl
  | cons i is ih =>
    intro s slots j hj
    unfold fillSlots
    rw [ih _ _ _ (fun h => hj (List.mem_cons_of_mem _ h))]
    rw [List.getElem?_set_ne]
    intro h
    exact hj (h ▸ List.mem_cons_self)

theorem withTls_ge : ∀ (libs : List Lib) (i j : Nat), j ∈ withTls libs i → i ≤ j := by
  intro libs
  induction libs with
  | nil => intro i j h; simp [withTls] at h
  | cons l ls ih =>
    intro i j h
    unfold withTls at h
    split at h
    · rcases List.mem_cons.1 h with rfl | h
      · exact Nat.le_refl _
      · have := ih _ _ h; omega
    · have := ih _ _ h; omega

theorem fillSlots_right : ∀ (libs : List Lib) (i s : Nat) (slots : List (Option Nat)),
    (∀ k, i ≤ k → k < i + libs.length → slots[k]? = some none) →
    ∀ k l, libs[k]? = some l → (fillSlots (withTls libs i) s slots)[i + k]? =
      some (if l.hasLibraryTlsInfo then some (s + tlsCount (libs.take k)) else none) := by
  intro libs
  induction libs with
  | nil => intro i s slots _ k l h; simp at h
  | cons x xs ih =>
    intro i s slots hs k l hk
    have hi := hs i (Nat.le_refl _) (by simp)
    have hlt : i < slots.length := by
      rcases Nat.lt_or_ge i slots.length with h | h
      · exact h
      · rw [List.getElem?_eq_none h] at hi; cases hi
    unfold withTls
    split
    · next hx =>
      unfold fillSlots
      cases k with
      | zero =>
        simp at hk
        subst hk
        rw [fillSlots_other _ _ _ _ (fun h => by have := withTls_ge _ _ _ h; omega)]
        simp [hx, hlt, tlsCount]
      | succ k =>
        have := ih (i + 1) (s + 1) (slots.set i (some s)) (by
          intro j h1 h2
          rw [List.getElem?_set_ne (by omega)]
          exact hs j (by omega) (by simp; omega)) k l (by simpa using hk)
        rw [show i + (k + 1) = i + 1 + k by omega, this]
        simp [tlsCount, List.countP_cons, hx]
        split
        · congr 1; omega
        · rfl
    · next hx =>
      cases k with
      | zero =>
        simp at hk
        subst hk
        rw [fillSlots_other _ _ _ _ (fun h => by have := withTls_ge _ _ _ h; omega)]
        simp [hx, hi]
      | succ k =>
        have := ih (i + 1) s slots (by
          intro j h1 h2
          exact hs j (by omega) (by simp; omega)) k l (by simpa using hk)
        rw [show i + (k + 1) = i + 1 + k by omega, this]
        simp [tlsCount, List.countP_cons, hx]

theorem slots_right (libs : List Lib) :
    SlotsRight libs (fillSlots (withTls libs 0) 0 (List.replicate libs.length none)) := by
  intro i l h
  have := fillSlots_right libs 0 0 (List.replicate libs.length none) (by
    intro k _ hk
    simp at hk
    simp [List.getElem?_replicate, hk]) i l h
  simpa using this

theorem any_split (libs : List Lib) :
    libs.any (fun l => l.needsGetTlsBase || l.needsSetTlsBase || l.needsProgramTlsInfo) =
      (needsTlsBase libs || needsProgramInfo libs) := by
  induction libs with
  | nil => rfl
  | cons l ls ih =>
    simp only [needsTlsBase, needsProgramInfo, List.any_cons] at *
    rw [ih]
    cases l.needsGetTlsBase <;> cases l.needsSetTlsBase <;> cases l.needsProgramTlsInfo <;> simp

theorem tlsNew_ok (libs : List Lib) (o : Nat) (tls o') (h : tlsNew true libs o = .ok (tls, o'))
    (ho : 0 < o) : Within o (tlsRegions libs tls) o' ∧ TlsRight libs tls := by
  unfold tlsNew at h
  have e1 : libs.any (fun l => l.needsGetTlsBase || l.needsSetTlsBase) = needsTlsBase libs := rfl
  have e2 : libs.any (·.needsProgramTlsInfo) = needsProgramInfo libs := rfl
  split at h
  · next hn =>
    cases h
    simp at hn
    refine ⟨by simp [tlsRegions, e1, e2, hn, Within], ⟨by simp, ?_, ?_, ?_⟩⟩
    · rw [any_split]; simp [hn]
    · rw [e2]; simp [hn]
    · rw [e2]; simp [hn]
  · next hn =>
    obtain ⟨count, hc, h⟩ := bind_ok h
    obtain ⟨base, hb, h⟩ := bind_ok h
    obtain ⟨size, hs, h⟩ := bind_ok h
    obtain ⟨off, hoff, h⟩ := bind_ok h
    obtain ⟨-, rfl⟩ := tryFrom_ok hc
    obtain ⟨b1, b2⟩ := align_ok (by decide) hb
    obtain ⟨-, rfl⟩ := u32_ok hs
    obtain ⟨-, rfl⟩ := u32_ok hoff
    rw [withTls_length] at h
    split at h
    · next hp =>
      obtain ⟨info, hi, h⟩ := bind_ok h
      obtain ⟨o2, ho2, h⟩ := bind_ok h
      obtain ⟨-, rfl⟩ := u32_ok hi
      obtain ⟨-, rfl⟩ := u32_ok ho2
      cases h
      refine ⟨?_, ⟨?_, fun _ => slots_right libs, fun _ => rfl, ?_⟩⟩
      · simp only [tlsRegions, e2, hp, if_true, Within]
        omega
      · simp only; omega
      · rw [e2]; simp only [hp, iff_true]; omega
    · next hp =>
      cases h
      have hp' : needsProgramInfo libs = false := by simpa using hp
      have ht : needsTlsBase libs = true := by simpa [hp'] using hn
      refine ⟨?_, ⟨?_, fun _ => slots_right libs, ?_, ?_⟩⟩
      · rw [tlsRegions, e1, e2, hp', ht, if_neg (by decide), if_pos rfl]
        refine ⟨b1, ?_⟩
        show base + 4 * tlsCount libs ≤ base + tlsCount libs * 4
        omega
      · exact ⟨b2, rfl, rfl⟩
      · rw [e2, hp']; simp
      · rw [e2, hp']; simp

/-! With and without overflow checks the result is the same unless the checks fail. -/

theorem bind_same {α β : Type} {x y : Except Panic α} {f g : α → Except Panic β} {r : β}
    (hx : ∀ a, x = .ok a → y = .ok a) (hf : ∀ a, f a = .ok r → g a = .ok r)
    (h : x >>= f = .ok r) : y >>= g = .ok r := by
  obtain ⟨a, ha, h⟩ := bind_ok h
  rw [hx a ha]
  exact hf a h

theorem u32_same (v c : Nat) (h : u32 true v = .ok c) : u32 false v = .ok c := by
  obtain ⟨hv, rfl⟩ := u32_ok h
  simp [u32, hv]

theorem shl1_same (k c : Nat) (h : shl1 true k = .ok c) : shl1 false k = .ok c := by
  unfold shl1 at h ⊢
  split at h
  · next hk => rw [if_pos hk]; exact h
  · simp at h

theorem align_same (a b c : Nat) (h : align true a b = .ok c) : align false a b = .ok c :=
  bind_same (u32_same _) (fun _ h => h) h

theorem placeLibs_same : ∀ (libs : List Lib) (m t : Nat) (r), placeLibs true libs m t = .ok r →
    placeLibs false libs m t = .ok r := by
  intro libs
  induction libs with
  | nil => intro m t r h; exact h
  | cons l ls ih =>
    intro m t r h
    exact bind_same (shl1_same _) (fun _ => bind_same (align_same _ _) fun _ =>
      bind_same (shl1_same _) fun _ => bind_same (align_same _ _) fun _ =>
      bind_same (u32_same _) fun _ => bind_same (u32_same _) fun _ =>
      bind_same (ih _ _) fun _ h => h) h

theorem calls_same : ∀ (n t : Nat) (r), calls true n t = .ok r → calls false n t = .ok r := by
  intro n
  induction n with
  | zero => intro t r h; exact h
  | succ n ih =>
    intro t r h
    exact bind_same (u32_same _) (fun _ => bind_same (ih _) fun _ h => h) h

theorem tlsNew_same (libs : List Lib) (o : Nat) (r) (h : tlsNew true libs o = .ok r) :
    tlsNew false libs o = .ok r := by
  unfold tlsNew at h ⊢
  split at h
  · next hn => rw [if_pos hn]; exact h
  · next hn =>
    rw [if_neg hn]
    refine bind_same (fun _ h => h) (fun _ => bind_same (align_same _ _) fun _ =>
      bind_same (u32_same _) fun _ => bind_same (u32_same _) fun _ h => ?_) h
    split at h
    · next hp =>
      rw [if_pos hp]
      exact bind_same (u32_same _) (fun _ => bind_same (u32_same _) fun _ h => h) h
    · next hp => rw [if_neg hp]; exact h

end Verif.LinkLayout
