import Verif.Abi.Spec
import Mathlib.Data.List.Forall2
/-! # Lemmas for sizes and alignments -/
namespace Verif.Abi
open Spec

def Alignment.at (w : Nat) : Alignment → Nat
  | .pointer => w
  | .bytes n => n

def ASize.at (w : Nat) (s : ASize) : Nat := s.bytes + s.pointers * w

theorem ASize.at_four (s : ASize) : s.at 4 = s.size32 := rfl
theorem ASize.at_eight (s : ASize) : s.at 8 = s.size64 := rfl

def Alignment.ok : Alignment → Prop
  | .pointer => True
  | .bytes n => n = 1 ∨ n = 2 ∨ n = 4 ∨ n = 8

theorem alignTo_pow (x k : Nat) : alignTo x (2 ^ k) = alignUp x (2 ^ k) := by
  have hp : 0 < 2 ^ k := Nat.two_pow_pos k
  unfold alignTo alignUp
  dsimp only
  rw [Nat.and_two_pow_sub_one_eq_mod, show x + 2 ^ k - 1 = x + (2 ^ k - 1) by omega]
  have := Nat.div_add_mod (x + (2 ^ k - 1)) (2 ^ k)
  rw [Nat.mul_comm] at this
  omega

theorem alignTo_one (x : Nat) : alignTo x 1 = alignUp x 1 := alignTo_pow x 0
theorem alignTo_two (x : Nat) : alignTo x 2 = alignUp x 2 := alignTo_pow x 1
theorem alignTo_four (x : Nat) : alignTo x 4 = alignUp x 4 := alignTo_pow x 2
theorem alignTo_eight (x : Nat) : alignTo x 8 = alignUp x 8 := alignTo_pow x 3
theorem alignTo_32 (x : Nat) : alignTo x 32 = alignUp x 32 := alignTo_pow x 5

theorem alignToArch_at (v : ASize) (a : Alignment) (ha : a.ok) (w : Nat) (hw : w = 4 ∨ w = 8) :
    (alignToArch v a).at w = alignUp (v.at w) (a.at w) := by
  have h1 : v.pointers &&& 1 = v.pointers % 2 := Nat.and_one_is_mod _
  cases a with
  | pointer =>
    simp only [alignToArch, alignTo_four, alignTo_eight]
    unfold ASize.at Alignment.at alignUp
    rcases hw with rfl | rfl <;> dsimp only <;> split <;> dsimp only <;> omega
  | bytes n =>
    simp only [alignToArch, h1]
    rcases ha with rfl | rfl | rfl | rfl
    · simp only [alignTo_one]; unfold ASize.at Alignment.at alignUp
      rcases hw with rfl | rfl <;> dsimp only <;> split <;> (try split) <;> dsimp only <;> omega
    · simp only [alignTo_two]; unfold ASize.at Alignment.at alignUp
      rcases hw with rfl | rfl <;> dsimp only <;> split <;> (try split) <;> dsimp only <;> omega
    · simp only [alignTo_four]; unfold ASize.at Alignment.at alignUp
      rcases hw with rfl | rfl <;> dsimp only <;> split <;> (try split) <;> dsimp only <;> omega
    · simp only [alignTo_eight]; unfold ASize.at Alignment.at alignUp
      rcases hw with rfl | rfl <;> dsimp only <;> split <;> (try split) <;> dsimp only <;> omega

theorem alignToArch_pointers (v : ASize) (a : Alignment) (h : 0 < (alignToArch v a).pointers)  :
    0 < v.pointers ∨ 8 ≤ a.at 8 := by
  by_cases h0 : 0 < v.pointers
  · exact .inl h0
  · cases a with
    | pointer => exact .inr (Nat.le_refl 8)
    | bytes n =>
      have h0' : v.pointers = 0 := by omega
      simp [alignToArch, h0'] at h

theorem maxA_at (a b : Alignment) (ha : a.ok) (hb : b.ok) (w : Nat) (hw : w = 4 ∨ w = 8) :
    (a.max b).at w = max (a.at w) (b.at w) := by
  cases a with
  | pointer =>
    cases b with
    | pointer => rcases hw with rfl | rfl <;> rfl
    | bytes n => rcases hb with rfl | rfl | rfl | rfl <;> rcases hw with rfl | rfl <;> rfl
  | bytes m =>
    cases b with
    | pointer => rcases ha with rfl | rfl | rfl | rfl <;> rcases hw with rfl | rfl <;> rfl
    | bytes n =>
      simp only [Alignment.max, Alignment.gt, Alignment.at]
      by_cases h : m > n
      · simp only [h, decide_true, if_true]; omega
      · simp only [h, decide_false, Bool.false_eq_true, if_false]; omega

theorem Alignment.max_ok (a b : Alignment) (ha : a.ok) (hb : b.ok) : (a.max b).ok := by
  unfold Alignment.max; split <;> assumption

/-- The information is what the ABI says, for both widths. -/
def Good (i : Info) (v : VT) : Prop :=
  i.align.ok ∧ (0 < i.size.pointers → 8 ≤ i.align.at 8) ∧
    ∀ w, (w = 4 ∨ w = 8) → i.align.at w = align w v ∧ i.size.at w = Spec.size w v

theorem ASize.add_at (a b : ASize) (w : Nat) : (a.add b).at w = a.at w + b.at w := by
  simp only [ASize.add, ASize.at, Nat.add_mul]; omega

/-! ## Records -/

/-- What each known type of a list must satisfy. -/
def GoodAll (m : Infos) (ts : List Ty) (vs : List VT) : Prop :=
  List.Forall₂ (fun t v => ∀ i, infoOf m t = some i → Good i v) ts vs

theorem recordStep_some {m : Infos} {acc : Info} {t : Ty} {r : Info}
    (h : recordStep m acc t = some r) :
    ∃ f, infoOf m t = some f ∧
      r = ⟨(alignToArch acc.size f.align).add f.size, acc.align.max f.align⟩ := by
  unfold recordStep at h
  cases hf : infoOf m t with
  | none => simp [hf] at h
  | some f => simp [hf] at h; exact ⟨f, rfl, h.symm⟩

theorem record_fold {m : Infos} {ts : List Ty} {vs : List VT} (hg : GoodAll m ts vs) :
    ∀ (acc r : Info), ts.foldlM (recordStep m) acc = some r → acc.align.ok →
      (0 < acc.size.pointers → 8 ≤ acc.align.at 8) →
      r.align.ok ∧ (0 < r.size.pointers → 8 ≤ r.align.at 8) ∧
      ∀ w, (w = 4 ∨ w = 8) →
        r.align.at w = max (acc.align.at w) (maxAlign w vs) ∧
        r.size.at w = fieldsEnd w (acc.size.at w) vs := by
  induction hg with
  | nil =>
    intro acc r h ho hp
    simp at h
    subst h
    refine ⟨ho, hp, fun w hw => ⟨?_, rfl⟩⟩
    have : 1 ≤ acc.align.at w := by
      cases ha : acc.align with
      | pointer => simp only [Alignment.at]; omega
      | bytes n => simp only [ha, Alignment.ok] at ho; simp only [Alignment.at]; omega
    simp only [maxAlign, Nat.max_def]; split <;> omega
  | @cons t v ts vs h1 _ ih =>
    intro acc r h ho hp
    rw [List.foldlM_cons] at h
    cases hs : recordStep m acc t with
    | none => simp [hs] at h
    | some acc' =>
      simp only [hs] at h
      obtain ⟨f, hf, rfl⟩ := recordStep_some hs
      obtain ⟨fo, fp, fw⟩ := h1 f hf
      obtain ⟨r1, r2, r3⟩ := ih _ r h (Alignment.max_ok _ _ ho fo) (by
        intro hpos
        simp only [ASize.add] at hpos
        simp only
        rw [maxA_at _ _ ho fo _ (.inr rfl)]
        have : 0 < (alignToArch acc.size f.align).pointers ∨ 0 < f.size.pointers := by omega
        rcases this with h | h
        · rcases alignToArch_pointers _ _ h with h | h
          · exact Nat.le_trans (hp h) (Nat.le_max_left _ _)
          · exact Nat.le_trans h (Nat.le_max_right _ _)
        · exact Nat.le_trans (fp h) (Nat.le_max_right _ _))
      refine ⟨r1, r2, fun w hw => ?_⟩
      obtain ⟨r4, r5⟩ := r3 w hw
      obtain ⟨f1, f2⟩ := fw w hw
      rw [r4, r5]
      simp only [ASize.add_at, alignToArch_at _ _ fo w hw, f1, f2, maxA_at _ _ ho fo w hw,
        maxAlign, fieldsEnd]
      exact ⟨by omega, trivial⟩

theorem Alignment.default_ok : Alignment.default.ok := .inl rfl

theorem record_good {m : Infos} {ts : List Ty} {vs : List VT} (hg : GoodAll m ts vs) {r : Info}
    (h : record m ts = some r) : Good r (.record vs) := by
  unfold record at h
  cases hf : ts.foldlM (recordStep m) ⟨{}, .default⟩ with
  | none => simp [hf] at h
  | some acc =>
    simp [hf] at h
    subst h
    obtain ⟨h1, h2, h3⟩ := record_fold hg _ _ hf Alignment.default_ok (by simp)
    refine ⟨h1, ?_, fun w hw => ?_⟩
    · intro h
      rcases alignToArch_pointers _ _ h with h | h
      · exact h2 h
      · exact h
    · obtain ⟨h4, h5⟩ := h3 w hw
      have hA : acc.align.at w = maxAlign w vs := by
        rw [h4]
        have : 1 ≤ maxAlign w vs := by
          clear h4 h5 h3 hf hg
          induction vs with
          | nil => simp [maxAlign]
          | cons v vs ih => simp only [maxAlign]; exact Nat.le_trans ih (Nat.le_max_right _ _)
        simp only [Alignment.default, Alignment.at, Nat.max_def]; split <;> omega
      simp only [alignToArch_at _ _ h1 w hw, h5, hA, align, Spec.size, true_and]
      simp [ASize.at]

/-! ## Variants -/

/-- What each known payload of a list of cases must satisfy. -/
def GoodCases (m : Infos) (ts : List (Option Ty)) (vs : List (Option VT)) : Prop :=
  List.Forall₂ (fun t v => (t = none ∧ v = none) ∨
    ∃ t' v', t = some t' ∧ v = some v' ∧ ∀ i, infoOf m t' = some i → Good i v') ts vs

theorem maxS_at (a b : ASize) :
    (a.max b = a ∧ b.at 4 ≤ a.at 4 ∧ b.at 8 ≤ a.at 8) ∨
    (a.max b = b ∧ a.at 4 ≤ b.at 4 ∧ a.at 8 ≤ b.at 8) ∨
    ((0 < a.pointers ∨ 0 < b.pointers) ∧
      ∀ w, (w = 4 ∨ w = 8) → (a.max b).at w = alignUp (max (a.at w) (b.at w)) w) := by
  unfold ASize.max
  simp only [← ASize.at_four, ← ASize.at_eight, alignTo_four, alignTo_eight]
  split
  · rename_i h; exact .inl ⟨rfl, h.1, h.2⟩
  · split
    · rename_i h; exact .inr (.inl ⟨rfl, h.1, h.2⟩)
    · rename_i h1 h2
      refine .inr (.inr ⟨?_, ?_⟩)
      · unfold ASize.at at h1 h2; omega
      · unfold ASize.at at *
        simp only [alignUp, Nat.max_def] at *
        rintro w (rfl | rfl) <;> (try dsimp only) <;> split <;> split <;> omega

theorem alignUp_le {x y a : Nat} (h : x ≤ y) : alignUp x a ≤ alignUp y a := by
  unfold alignUp
  exact Nat.mul_le_mul_right _ (Nat.div_le_div_right (by omega))

/-- Powers of two up to eight. -/
def Pow (a : Nat) : Prop := a = 1 ∨ a = 2 ∨ a = 4 ∨ a = 8

theorem Alignment.ok_pow {a : Alignment} (h : a.ok) {w : Nat} (hw : w = 4 ∨ w = 8) : Pow (a.at w) := by
  cases a with
  | pointer => simp only [Alignment.at, Pow]; omega
  | bytes n => exact h

theorem le_alignUp {x a : Nat} (h : Pow a) : x ≤ alignUp x a := by
  unfold alignUp; rcases h with rfl | rfl | rfl | rfl <;> omega

theorem alignUp_mono {x a b : Nat} (ha : Pow a) (hb : Pow b) (h : a ≤ b) : alignUp x a ≤ alignUp x b := by
  unfold alignUp
  rcases ha with rfl | rfl | rfl | rfl <;> rcases hb with rfl | rfl | rfl | rfl <;> omega

theorem alignUp_alignUp {x a b : Nat} (ha : Pow a) (hb : Pow b) (h : a ≤ b) :
    alignUp (alignUp x a) b = alignUp x b := by
  unfold alignUp
  rcases ha with rfl | rfl | rfl | rfl <;> rcases hb with rfl | rfl | rfl | rfl <;> omega

theorem variant_fold {m : Infos} {ts : List (Option Ty)} {vs : List (Option VT)}
    (hg : GoodCases m ts vs) :
    ∀ (acc r : Info) (S : Nat → Nat), ts.foldlM (variantStep m) acc = some r → acc.align.ok →
      (0 < acc.size.pointers → 8 ≤ acc.align.at 8) →
      (∀ w, (w = 4 ∨ w = 8) → S w ≤ acc.size.at w ∧ acc.size.at w ≤ alignUp (S w) (acc.align.at w)) →
      r.align.ok ∧ (0 < r.size.pointers → 8 ≤ r.align.at 8) ∧
      ∀ w, (w = 4 ∨ w = 8) →
        r.align.at w = max (acc.align.at w) (maxCaseAlign w vs) ∧
        max (S w) (maxCaseSize w vs) ≤ r.size.at w ∧
        r.size.at w ≤ alignUp (max (S w) (maxCaseSize w vs)) (r.align.at w) := by
  induction hg with
  | nil =>
    intro acc r S h ho hp hS
    simp at h
    subst h
    refine ⟨ho, hp, fun w hw => ?_⟩
    have := Alignment.ok_pow ho hw
    have h1 : 1 ≤ acc.align.at w := by unfold Pow at this; omega
    simp only [maxCaseAlign, maxCaseSize]
    refine ⟨by simp only [Nat.max_def]; split <;> omega, ?_⟩
    have : max (S w) 0 = S w := Nat.max_zero _
    rw [this]; exact hS w hw
  | @cons t v ts vs h1 _ ih =>
    intro acc r S h ho hp hS
    rw [List.foldlM_cons] at h
    rcases h1 with ⟨rfl, rfl⟩ | ⟨t, v, rfl, rfl, hgood⟩
    · simp only [variantStep] at h
      simp only [maxCaseAlign, maxCaseSize]
      exact ih acc r S h ho hp hS
    · cases hf : infoOf m t with
      | none => simp [variantStep, hf] at h
      | some f =>
        simp only [variantStep, hf] at h
        obtain ⟨fo, fp, fw⟩ := hgood f hf
        have hmo := Alignment.max_ok _ _ ho fo
        have hm8 := maxA_at _ _ ho fo 8 (.inr rfl)
        have hm := fun w hw => maxA_at _ _ ho fo w hw
        have hbig : 0 < acc.size.pointers ∨ 0 < f.size.pointers → 8 ≤ (acc.align.max f.align).at 8 := by
          rw [hm8]
          rintro (h | h)
          · exact Nat.le_trans (hp h) (Nat.le_max_left _ _)
          · exact Nat.le_trans (fp h) (Nat.le_max_right _ _)
        have hM := maxS_at acc.size f.size
        obtain ⟨r1, r2, r3⟩ := ih ⟨acc.size.max f.size, acc.align.max f.align⟩ r
          (fun w => max (S w) (Spec.size w v)) h hmo (by
            intro hpos
            rcases hM with ⟨e, _⟩ | ⟨e, _⟩ | ⟨e, _⟩
            · simp only [e] at hpos; exact hbig (.inl hpos)
            · simp only [e] at hpos; exact hbig (.inr hpos)
            · exact hbig e) (by
            intro w hw
            obtain ⟨s1, s2⟩ := hS w hw
            obtain ⟨f1, f2⟩ := fw w hw
            have pa := Alignment.ok_pow ho hw
            have pf := Alignment.ok_pow fo hw
            have pm := Alignment.ok_pow hmo hw
            have la : acc.align.at w ≤ (acc.align.max f.align).at w := by
              rw [hm w hw]; exact Nat.le_max_left _ _
            have lS : S w ≤ max (S w) (Spec.size w v) := Nat.le_max_left _ _
            have lv : Spec.size w v ≤ max (S w) (Spec.size w v) := Nat.le_max_right _ _
            have up : acc.size.at w ≤ alignUp (max (S w) (Spec.size w v)) ((acc.align.max f.align).at w) :=
              Nat.le_trans s2 (Nat.le_trans (alignUp_le lS) (alignUp_mono pa pm la))
            have uf : f.size.at w ≤ alignUp (max (S w) (Spec.size w v)) ((acc.align.max f.align).at w) := by
              rw [f2]; exact Nat.le_trans lv (le_alignUp pm)
            have mx : max (acc.size.at w) (f.size.at w) ≤
                alignUp (max (S w) (Spec.size w v)) ((acc.align.max f.align).at w) :=
              Nat.max_le.2 ⟨up, uf⟩
            rcases hM with ⟨e, e4, e8⟩ | ⟨e, e4, e8⟩ | ⟨e, e'⟩
            · simp only [e]
              refine ⟨Nat.max_le.2 ⟨s1, ?_⟩, up⟩
              rw [← f2]; rcases hw with rfl | rfl <;> assumption
            · simp only [e]
              refine ⟨Nat.max_le.2 ⟨?_, Nat.le_of_eq f2.symm⟩, uf⟩
              exact Nat.le_trans s1 (by rcases hw with rfl | rfl <;> assumption)
            · rw [e' w hw]
              have pw : Pow w := by unfold Pow; omega
              constructor
              · refine Nat.le_trans (Nat.max_le.2 ⟨?_, ?_⟩) (le_alignUp pw)
                · exact Nat.le_trans s1 (Nat.le_max_left _ _)
                · rw [← f2]; exact Nat.le_max_right _ _
              · have hw' : w ≤ (acc.align.max f.align).at w := by
                  have := hbig e
                  rcases hw with rfl | rfl
                  · cases hc : acc.align.max f.align with
                    | pointer => exact Nat.le_refl _
                    | bytes n => rw [hc] at this; simp only [Alignment.at] at *; omega
                  · exact this
                have h1 := alignUp_le (a := w) mx
                refine Nat.le_trans (Nat.le_trans h1 (alignUp_mono (b := (acc.align.max f.align).at w) pw pm hw')) ?_
                exact Nat.le_of_eq (alignUp_alignUp pm pm (Nat.le_refl _)))
        refine ⟨r1, r2, fun w hw => ?_⟩
        obtain ⟨r4, r5, r6⟩ := r3 w hw
        obtain ⟨f1, f2⟩ := fw w hw
        simp only [maxCaseAlign, maxCaseSize]
        have e1 : max (max (S w) (Spec.size w v)) (maxCaseSize w vs)
            = max (S w) (max (Spec.size w v) (maxCaseSize w vs)) := Nat.max_assoc _ _ _
        rw [e1] at r5 r6
        refine ⟨?_, r5, r6⟩
        rw [r4, hm w hw, f1]
        exact Nat.max_assoc _ _ _

/-- A tag for `n` cases. -/
def TagOk (tag : Int') (n : Nat) : Prop :=
  (intInfo tag).size = ⟨discBytes n, 0⟩ ∧ (intInfo tag).align = .bytes (discBytes n)

theorem discBytes_pow (n : Nat) : discBytes n = 1 ∨ discBytes n = 2 ∨ discBytes n = 4 := by
  unfold discBytes; split <;> (try split) <;> omega

theorem tagOk {n : Nat} {tag : Int'} (h : discriminantType n = some tag) : TagOk tag n := by
  unfold discriminantType at h
  unfold TagOk discBytes
  split at h
  · simp at h; subst h; rw [if_pos (by omega)]; exact ⟨rfl, rfl⟩
  · dsimp only at h
    split at h
    · simp at h; subst h; rw [if_pos (by omega)]; exact ⟨rfl, rfl⟩
    · split at h
      · simp at h; subst h; rw [if_neg (by omega), if_pos (by omega)]; exact ⟨rfl, rfl⟩
      · split at h
        · simp at h; subst h; rw [if_neg (by omega), if_neg (by omega)]; exact ⟨rfl, rfl⟩
        · simp at h

theorem maxCaseAlign_pos (w : Nat) (vs : List (Option VT)) : 1 ≤ maxCaseAlign w vs := by
  induction vs with
  | nil => simp [maxCaseAlign]
  | cons v vs ih =>
    cases v with
    | none => simpa only [maxCaseAlign] using ih
    | some v => simp only [maxCaseAlign]; exact Nat.le_trans ih (Nat.le_max_right _ _)

theorem variant_good {m : Infos} {ts : List (Option Ty)} {vs us : List (Option VT)}
    (hg : GoodCases m ts us) {tag : Int'} (htag : TagOk tag vs.length)
    (hus : ∀ w, maxCaseAlign w us = maxCaseAlign w vs ∧ maxCaseSize w us = maxCaseSize w vs)
    {r : Info} (h : variant m tag ts = some r) : Good r (.variant vs) := by
  unfold variant at h
  cases hf : ts.foldlM (variantStep m) ⟨{}, .default⟩ with
  | none => simp [hf] at h
  | some c =>
    simp [hf] at h
    subst h
    obtain ⟨t1, t2⟩ := htag
    obtain ⟨h1, h2, h3⟩ := variant_fold hg _ _ (fun _ => 0) hf Alignment.default_ok (by simp)
      (by intro w hw; simp [ASize.at])
    have dok : Alignment.ok (.bytes (discBytes vs.length)) := by
      rcases discBytes_pow vs.length with h | h | h <;> simp [Alignment.ok, h]
    rw [t1, t2]
    have hmo := Alignment.max_ok _ _ dok h1
    refine ⟨hmo, ?_, fun w hw => ?_⟩
    · intro h
      rcases alignToArch_pointers _ _ h with h | h
      · simp only [ASize.add] at h
        rw [maxA_at _ _ dok h1 _ (.inr rfl)]
        have : 0 < (alignToArch ⟨discBytes vs.length, 0⟩ c.align).pointers ∨ 0 < c.size.pointers := by omega
        rcases this with h | h
        · rcases alignToArch_pointers _ _ h with h | h
          · simp at h
          · exact Nat.le_trans h (Nat.le_max_right _ _)
        · exact Nat.le_trans (h2 h) (Nat.le_max_right _ _)
      · exact h
    · obtain ⟨h4, h5, h6⟩ := h3 w hw
      obtain ⟨u1, u2⟩ := hus w
      have hA : c.align.at w = maxCaseAlign w vs := by
        rw [h4, u1]
        have := maxCaseAlign_pos w vs
        simp only [Alignment.default, Alignment.at, Nat.max_def]; split <;> omega
      have e : max 0 (maxCaseSize w us) = maxCaseSize w vs := by rw [← u2]; exact Nat.zero_max _
      rw [e] at h5 h6
      rw [hA] at h6
      have pA : Pow (maxCaseAlign w vs) := hA ▸ Alignment.ok_pow h1 hw
      simp only [alignToArch_at _ _ hmo w hw, maxA_at _ _ dok h1 w hw, ASize.add_at,
        alignToArch_at _ _ h1 w hw, hA, align, Spec.size]
      refine ⟨rfl, ?_⟩
      have ed : (ASize.mk (discBytes vs.length) 0).at w = discBytes vs.length := by simp [ASize.at]
      rw [ed]
      simp only [Alignment.at]
      generalize c.size.at w = cs at *
      generalize maxCaseSize w vs = S at *
      generalize maxCaseAlign w vs = A at *
      have hd := discBytes_pow vs.length
      generalize discBytes vs.length = D at *
      show alignUp _ (max D A) = _
      unfold alignUp at *
      rcases pA with rfl | rfl | rfl | rfl <;> rcases hd with rfl | rfl | rfl <;>
        simp only [Nat.max_def] <;> simp at * <;> omega

/-! ## `fill` -/

theorem fill_fold {types : List Kind} : ∀ (pre r : Infos), types.foldlM fillStep pre = some r →
    r.length = pre.length + types.length ∧ r.take pre.length = pre ∧
    ∀ i k, types[i]? = some k → calculate (r.take (pre.length + i)) k = r[pre.length + i]? := by
  induction types with
  | nil => intro pre r h; simp at h; subst h; simp
  | cons k ks ih =>
    intro pre r h
    rw [List.foldlM_cons] at h
    cases hc : calculate pre k with
    | none => simp [fillStep, hc] at h
    | some p =>
      simp only [fillStep, hc] at h
      obtain ⟨h1, h2, h3⟩ := ih (pre ++ [p]) r h
      simp only [List.length_append, List.length_cons, List.length_nil] at h1 h2 h3
      have hpre : r.take pre.length = pre := by
        have := congrArg (List.take pre.length) h2
        simpa [List.take_take, Nat.min_eq_left (Nat.le_succ _)] using this
      refine ⟨by simp; omega, hpre, ?_⟩
      intro i k' hk
      cases i with
      | zero =>
        simp at hk; subst hk
        rw [Nat.add_zero, hpre, hc]
        have := congrArg (fun l => l[pre.length]?) h2
        simp [List.getElem?_take] at this
        rw [this]
      | succ i =>
        have := h3 i k' (by simpa using hk)
        rw [show pre.length + (i + 1) = pre.length + 1 + i by omega]
        simpa using this

theorem infoOf_take {m : Infos} {n : Nat} {t : Ty} {i : Info} (h : infoOf (m.take n) t = some i) :
    infoOf m t = some i := by
  cases t <;> simp only [infoOf] at h ⊢ <;> try exact h
  rw [List.getElem?_take] at h
  split at h
  · exact h
  · simp at h

theorem mapM_forall {α β : Type} {f : α → Option β} : ∀ {xs : List α} {ys : List β},
    xs.mapM f = some ys → List.Forall₂ (fun x y => f x = some y) xs ys := by
  intro xs
  induction xs with
  | nil => intro ys h; simp at h; subst h; exact .nil
  | cons x xs ih =>
    intro ys h
    rw [List.mapM_cons] at h
    cases hx : f x with
    | none => simp [hx] at h
    | some y =>
      cases hy : xs.mapM f with
      | none => simp [hx, hy] at h
      | some ys' =>
        simp [hx, hy] at h
        subst h
        exact .cons hx (ih hy)

theorem maxCase_replicate (w n : Nat) :
    maxCaseAlign w (List.replicate n none) = 1 ∧ maxCaseSize w (List.replicate n none) = 0 := by
  induction n with
  | zero => simp [maxCaseAlign, maxCaseSize]
  | succ n ih => simpa [List.replicate_succ, maxCaseAlign, maxCaseSize] using ih

theorem good_of_const {i : Info} {v : VT} (h1 : i.align.ok)
    (h2 : 0 < i.size.pointers → 8 ≤ i.align.at 8)
    (h3 : i.align.at 4 = align 4 v ∧ i.size.at 4 = Spec.size 4 v)
    (h4 : i.align.at 8 = align 8 v ∧ i.size.at 8 = Spec.size 8 v) : Good i v :=
  ⟨h1, h2, fun w hw => by rcases hw with rfl | rfl <;> assumption⟩

theorem good_int4 {v : VT} (h : ∀ w, align w v = 4 ∧ Spec.size w v = 4) :
    Good ⟨⟨4, 0⟩, .bytes 4⟩ v :=
  good_of_const (by simp [Alignment.ok]) (by simp) ⟨(h 4).1.symm, (h 4).2.symm⟩
    ⟨(h 8).1.symm, (h 8).2.symm⟩

theorem flags_good {n : Nat} (h : 1 ≤ n ∧ n ≤ 32) {m : Infos} {r : Info}
    (hc : calculate m (.flags n) = some r) : Good r (.flags n) := by
  have hr : n ≤ 8 ∧ flagsRepr n = .u8 ∨ (8 < n ∧ n ≤ 16) ∧ flagsRepr n = .u16 ∨
      16 < n ∧ flagsRepr n = .u32 1 := by
    unfold flagsRepr
    rw [if_neg (by omega), alignTo_32]
    unfold alignUp
    by_cases h8 : n ≤ 8
    · rw [if_pos h8]; exact .inl ⟨h8, rfl⟩
    · rw [if_neg h8]
      by_cases h16 : n ≤ 16
      · rw [if_pos h16]; exact .inr (.inl ⟨⟨by omega, h16⟩, rfl⟩)
      · rw [if_neg h16]; refine .inr (.inr ⟨by omega, ?_⟩); congr; omega
  simp only [calculate] at hc
  rcases hr with ⟨h1, h2⟩ | ⟨h1, h2⟩ | ⟨h1, h2⟩ <;> rw [h2] at hc <;> simp only [Option.some.injEq] at hc <;>
    subst hc <;> refine good_of_const (by simp [intInfo, Alignment.ok]) (by simp [intInfo]) ?_ ?_ <;>
    simp only [intInfo, Alignment.at, ASize.at, align, Spec.size] <;>
    split <;> (try split) <;> omega

theorem good_fill {types : List Kind} {m : Infos} (hm : fill types = some m) :
    ∀ d ty v, unfold types d ty = some v → ∃ i, infoOf m ty = some i ∧ Good i v := by
  obtain ⟨hlen, _, hcalc⟩ := fill_fold [] m hm
  simp only [List.length_nil, Nat.zero_add] at hlen hcalc
  intro d
  induction d with
  | zero => intro ty v h; simp [unfold] at h
  | succ d ih =>
    intro ty v h
    -- what the induction says about a prefix of the map
    have good : ∀ n t u, unfold types d t = some u → ∀ i, infoOf (m.take n) t = some i → Good i u := by
      intro n t u hu i hi
      obtain ⟨j, hj, hg⟩ := ih t u hu
      rw [infoOf_take hi] at hj
      cases hj; exact hg
    have goodAll : ∀ n ts us, ts.mapM (unfold types d) = some us → GoodAll (m.take n) ts us := by
      intro n ts us h
      exact (mapM_forall h).imp fun t u hu => good n t u hu
    have goodCases : ∀ n ts us, ts.mapM (unfold.optional (unfold types d)) = some us →
        GoodCases (m.take n) ts us := by
      intro n ts us h
      refine (mapM_forall h).imp fun t u hu => ?_
      cases t with
      | none => simp [unfold.optional] at hu; exact .inl ⟨rfl, hu.symm⟩
      | some t =>
        cases hx : unfold types d t with
        | none => simp [unfold.optional, hx] at hu
        | some x =>
          simp [unfold.optional, hx] at hu
          exact .inr ⟨t, x, rfl, hu.symm, fun i hi => good n t x hx i hi⟩
    cases ty with
    | id i =>
      simp only [unfold] at h
      cases hk : types[i]? with
      | none => simp [hk] at h
      | some k =>
        have hi : i < m.length := by
          have := (List.getElem?_eq_some_iff.1 hk).1; omega
        obtain ⟨r, hr⟩ : ∃ r, m[i]? = some r := ⟨m[i], List.getElem?_eq_getElem hi⟩
        refine ⟨r, hr, ?_⟩
        have hc := hcalc i k hk
        rw [hr] at hc
        rw [hk] at h
        cases k with
        | resource => simp at h
        | unknown => simp at h
        | type t => exact good i t v h r hc
        | handle =>
          simp [calculate] at h hc; subst h; subst hc; exact good_int4 (fun w => by simp [align, Spec.size])
        | future =>
          simp [calculate] at h hc; subst h; subst hc; exact good_int4 (fun w => by simp [align, Spec.size])
        | stream =>
          simp [calculate] at h hc; subst h; subst hc; exact good_int4 (fun w => by simp [align, Spec.size])
        | list =>
          simp [calculate] at h hc; subst h; subst hc
          exact good_of_const trivial (by simp [Alignment.at]) (by simp [ASize.at, Alignment.at, align, Spec.size])
            (by simp [ASize.at, Alignment.at, align, Spec.size])
        | map =>
          simp [calculate] at h hc; subst h; subst hc
          exact good_of_const trivial (by simp [Alignment.at]) (by simp [ASize.at, Alignment.at, align, Spec.size])
            (by simp [ASize.at, Alignment.at, align, Spec.size])
        | flags n =>
          dsimp only at h
          split at h
          · rename_i hn
            simp at h; subst h; exact flags_good hn hc
          · simp at h
        | fixedLengthList t n =>
          dsimp only at h
          split at h
          · simp at h
          · cases hx : unfold types d t with
            | none => simp [hx] at h
            | some x =>
              simp [hx] at h; subst h
              simp only [calculate] at hc
              cases hf : infoOf (m.take i) t with
              | none => simp [hf] at hc
              | some f =>
                obtain ⟨g1, g2, g3⟩ := good i t x hx f hf
                simp only [hf, Option.bind_eq_bind, Option.bind_some, checkedMul] at hc
                split at hc
                · simp only [Option.bind_some] at hc
                  split at hc
                  · simp only [Option.bind_some, Option.some.injEq] at hc
                    subst hc
                    refine ⟨g1, ?_, fun w hw => ?_⟩
                    · intro hp; exact g2 (Nat.pos_of_mul_pos_right hp)
                    · obtain ⟨g4, g5⟩ := g3 w hw
                      simp only [align, Spec.size]
                      refine ⟨g4, ?_⟩
                      rw [← g5]
                      simp only [ASize.at, Nat.mul_add]
                      rw [Nat.mul_comm n f.size.bytes, Nat.mul_comm n, Nat.mul_right_comm]
                  · simp at hc
                · simp at hc
        | record ts =>
          dsimp only at h
          split at h
          · simp at h
          · cases hx : ts.mapM (unfold types d) with
            | none => simp [hx] at h
            | some x => simp [hx] at h; subst h; exact record_good (goodAll i ts x hx) hc
        | tuple ts =>
          dsimp only at h
          split at h
          · simp at h
          · cases hx : ts.mapM (unfold types d) with
            | none => simp [hx] at h
            | some x => simp [hx] at h; subst h; exact record_good (goodAll i ts x hx) hc
        | variant cs =>
          dsimp only at h
          split at h
          · simp at h
          · cases hx : cs.mapM (unfold.optional (unfold types d)) with
            | none => simp [hx] at h
            | some x =>
              simp [hx] at h; subst h
              have hl : cs.length = x.length := (mapM_forall hx).length_eq
              simp only [calculate] at hc
              cases ht : discriminantType cs.length with
              | none => simp [ht] at hc
              | some tag =>
                simp only [ht] at hc
                exact variant_good (goodCases i cs x hx) (hl ▸ tagOk ht) (fun w => ⟨rfl, rfl⟩) hc
        | enum n =>
          dsimp only at h
          split at h
          · simp at h
          · simp at h; subst h
            simp only [calculate] at hc
            cases ht : discriminantType n with
            | none => simp [ht] at hc
            | some tag =>
              simp only [ht] at hc
              refine variant_good (m := m.take i) (us := []) .nil (by simpa using tagOk ht) (fun w => ?_) hc
              obtain ⟨e1, e2⟩ := maxCase_replicate w n
              simp [maxCaseAlign, maxCaseSize, e1, e2]
        | option t =>
          cases hx : unfold types d t with
          | none => simp [hx] at h
          | some x =>
            simp [hx] at h; subst h
            exact variant_good (us := [some x]) (.cons (.inr ⟨t, x, rfl, rfl, good i t x hx⟩) .nil)
              ⟨rfl, rfl⟩ (fun w => by simp [maxCaseAlign, maxCaseSize]) hc
        | result a b =>
          dsimp only at h
          cases hx : [a, b].mapM (unfold.optional (unfold types d)) with
          | none => rw [hx] at h; simp at h
          | some x =>
            rw [hx] at h
            simp at h; subst h
            have hl : 2 = x.length := (mapM_forall hx).length_eq
            exact variant_good (goodCases i _ x hx) (hl ▸ ⟨rfl, rfl⟩) (fun w => ⟨rfl, rfl⟩) hc
    | string =>
      simp [unfold] at h; subst h
      exact ⟨_, rfl, good_of_const trivial (by simp [Alignment.at])
        (by simp [ASize.at, Alignment.at, align, Spec.size])
        (by simp [ASize.at, Alignment.at, align, Spec.size])⟩
    | _ =>
      simp [unfold] at h; subst h
      exact ⟨_, rfl, good_of_const (by simp [Alignment.ok]) (by simp)
        (by simp [ASize.at, Alignment.at, align, Spec.size])
        (by simp [ASize.at, Alignment.at, align, Spec.size])⟩

end Verif.Abi

namespace Verif.Abi
open Spec

theorem Alignment.at_four (a : Alignment) : a.at 4 = a.align32 := by cases a <;> rfl
theorem Alignment.at_eight (a : Alignment) : a.at 8 = a.align64 := by cases a <;> rfl

theorem offsets_fold {m : Infos} {ts : List Ty} {vs : List VT}
    (hg : List.Forall₂ (fun t v => ∃ i, infoOf m t = some i ∧ Good i v) ts vs) :
    ∀ (os : List ASize) (cur : ASize), ∃ os' cur',
      ts.foldlM (offsetStep m) (os, cur) = some (os ++ os', cur') ∧
      ∀ w, (w = 4 ∨ w = 8) → os'.map (·.at w) = offsets w (cur.at w) vs := by
  induction hg with
  | nil => intro os cur; exact ⟨[], cur, by simp, by simp [offsets]⟩
  | @cons t v ts vs h _ ih =>
    intro os cur
    obtain ⟨i, hi, g1, g2, g3⟩ := h
    obtain ⟨os', cur', e, hw⟩ := ih (os ++ [alignToArch cur i.align])
      ((alignToArch cur i.align).add i.size)
    refine ⟨alignToArch cur i.align :: os', cur', ?_, ?_⟩
    · rw [List.foldlM_cons]
      simp only [offsetStep, hi, Option.bind_eq_bind, Option.bind_some, e, List.append_assoc,
        List.singleton_append]
    · intro w hw'
      obtain ⟨g4, g5⟩ := g3 w hw'
      simp only [List.map_cons, offsets, hw w hw', ASize.add_at, alignToArch_at _ _ g1 w hw', g4, g5]

theorem payload_fold {m : Infos} {ts : List (Option Ty)} {vs : List (Option VT)}
    (hg : List.Forall₂ (fun t v => (t = none ∧ v = none) ∨
      ∃ t' v' i, t = some t' ∧ v = some v' ∧ infoOf m t' = some i ∧ Good i v') ts vs) :
    ∀ (acc : Alignment), acc.ok → ∃ a, ts.foldlM (payloadStep m) acc = some a ∧ a.ok ∧
      ∀ w, (w = 4 ∨ w = 8) → a.at w = max (acc.at w) (maxCaseAlign w vs) := by
  induction hg with
  | nil =>
    intro acc ho
    refine ⟨acc, by simp, ho, fun w hw => ?_⟩
    have := Alignment.ok_pow ho hw
    unfold Pow at this
    simp only [maxCaseAlign]; omega
  | @cons t v ts vs h _ ih =>
    intro acc ho
    rw [List.foldlM_cons]
    rcases h with ⟨rfl, rfl⟩ | ⟨t, v, i, rfl, rfl, hi, g1, g2, g3⟩
    · obtain ⟨a, e, o, hw⟩ := ih acc ho
      exact ⟨a, by simpa [payloadStep] using e, o, by simpa only [maxCaseAlign] using hw⟩
    · obtain ⟨a, e, o, hw⟩ := ih _ (Alignment.max_ok _ _ ho g1)
      refine ⟨a, by simpa [payloadStep, hi] using e, o, fun w hw' => ?_⟩
      rw [hw w hw', maxA_at _ _ ho g1 w hw', (g3 w hw').1]
      simp only [maxCaseAlign]; omega

/-! ## When `fill` succeeds -/

theorem infoOf_some {m : Infos} {t : Ty} (h : ∀ i, t = .id i → i < m.length) :
    ∃ r, infoOf m t = some r := by
  cases t with
  | id i => exact ⟨_, List.getElem?_eq_getElem (h i rfl)⟩
  | _ => exact ⟨_, rfl⟩

theorem foldlM_some {α β : Type} {f : β → α → Option β} {P : α → Prop}
    (h : ∀ b a, P a → ∃ r, f b a = some r) : ∀ (xs : List α) (b : β), (∀ x ∈ xs, P x) →
    ∃ r, xs.foldlM f b = some r := by
  intro xs
  induction xs with
  | nil => intro b _; exact ⟨b, by simp⟩
  | cons x xs ih =>
    intro b hx
    obtain ⟨r, hr⟩ := h b x (hx x (by simp))
    obtain ⟨s, hs⟩ := ih r (fun y hy => hx y (by simp [hy]))
    exact ⟨s, by rw [List.foldlM_cons, hr]; exact hs⟩

end Verif.Abi

namespace Verif.Abi
open Spec

theorem variant_some {m : Infos} {tag : Int'} {cs : List (Option Ty)}
    (h : ∀ j, some (.id j) ∈ cs → j < m.length) : ∃ r, variant m tag cs = some r := by
  obtain ⟨c, hc⟩ := foldlM_some (f := variantStep m) (P := fun c => ∀ j, c = some (.id j) → j < m.length)
    (by
      intro b a ha
      cases a with
      | none => exact ⟨b, rfl⟩
      | some t =>
        obtain ⟨f, hf⟩ := infoOf_some (m := m) (t := t) (fun j hj => ha j (by rw [hj]))
        exact ⟨_, by simp only [variantStep, hf]; rfl⟩) cs ⟨{}, .default⟩
    (by rintro x hx j rfl; exact h j hx)
  exact ⟨_, by simp only [variant, hc]; rfl⟩

theorem record_some {m : Infos} {ts : List Ty} (h : ∀ j, .id j ∈ ts → j < m.length) :
    ∃ r, record m ts = some r := by
  obtain ⟨c, hc⟩ := foldlM_some (f := recordStep m) (P := fun t => ∀ j, t = .id j → j < m.length)
    (by
      intro b t ha
      obtain ⟨f, hf⟩ := infoOf_some (m := m) (t := t) ha
      exact ⟨_, by simp only [recordStep, hf]; rfl⟩) ts ⟨{}, .default⟩
    (by rintro x hx j rfl; exact h j hx)
  exact ⟨_, by simp only [record, hc]; rfl⟩

theorem discriminantType_some {n : Nat} (h : n ≤ 2 ^ 32) : ∃ t, discriminantType n = some t := by
  unfold discriminantType
  split
  · exact ⟨_, rfl⟩
  · dsimp only
    split
    · exact ⟨_, rfl⟩
    · split
      · exact ⟨_, rfl⟩
      · rw [if_pos (by omega)]; exact ⟨_, rfl⟩

theorem calculate_some {m : Infos} {k : Kind} (h : ∀ j, .id j ∈ refs k → j < m.length)
    (hu : k ≠ .unknown) (hf : ∀ t n, k ≠ .fixedLengthList t n)
    (h1 : ∀ cs, k = .variant cs → cs.length ≤ 2 ^ 32) (h2 : ∀ n, k = .enum n → n ≤ 2 ^ 32) :
    ∃ r, calculate m k = some r := by
  cases k with
  | unknown => exact absurd rfl hu
  | fixedLengthList t n => exact absurd rfl (hf t n)
  | type t => exact infoOf_some (fun j hj => h j (by simp [refs, hj]))
  | record ts => exact record_some h
  | tuple ts => exact record_some h
  | flags n =>
    simp only [calculate]
    cases flagsRepr n <;> exact ⟨_, rfl⟩
  | variant cs =>
    obtain ⟨tag, ht⟩ := discriminantType_some (h1 cs rfl)
    simp only [calculate, ht]
    exact variant_some (fun j hj => h j (by simp [refs, hj]))
  | enum n =>
    obtain ⟨tag, ht⟩ := discriminantType_some (h2 n rfl)
    simp only [calculate, ht]
    exact variant_some (m := m) (tag := tag) (cs := []) (fun j hj => by simp at hj)
  | option t => exact variant_some (fun j hj => h j (by simpa [refs] using hj))
  | result a b =>
    exact variant_some (fun j hj => h j (by
      simp only [List.mem_cons, List.not_mem_nil, or_false] at hj
      simp only [refs, List.mem_append, Option.mem_toList]
      rcases hj with hj | hj
      · exact .inl hj.symm
      · exact .inr hj.symm))
  | _ => exact ⟨_, rfl⟩

end Verif.Abi
