import Verif.DlSym.Spec
import Verif.DlTable.Props
namespace Verif.DlSym
open DlTable DlTable.Spec Spec

theorem lexLe_total : ∀ a b : Name, lexLe a b = true ∨ lexLe b a = true := by
  intro a
  induction a with
  | nil => intro b; left; simp [lexLe]
  | cons x xs ih =>
    intro b
    cases b with
    | nil => right; simp [lexLe]
    | cons y ys =>
      simp only [lexLe, Bool.or_eq_true, Bool.and_eq_true, decide_eq_true_eq]
      have := ih ys
      rcases UInt8.lt_or_lt_of_ne (a := x) (b := y) |> fun f => (Classical.em (x = y)).imp id f with h | h | h
      · rcases this with h' | h'
        · exact .inl (.inr ⟨h, h'⟩)
        · exact .inr (.inr ⟨h.symm, h'⟩)
      · exact .inl (.inl h)
      · exact .inr (.inl h)

theorem lexLe_antisymm : ∀ a b : Name, lexLe a b = true → lexLe b a = true → a = b := by
  intro a
  induction a with
  | nil => intro b _ h; cases b <;> simp_all [lexLe]
  | cons x xs ih =>
    intro b h1 h2
    cases b with
    | nil => simp [lexLe] at h1
    | cons y ys =>
      simp only [lexLe, Bool.or_eq_true, Bool.and_eq_true, decide_eq_true_eq] at h1 h2
      rcases h1 with h1 | ⟨rfl, h1⟩
      · rcases h2 with h2 | ⟨rfl, h2⟩
        · exact absurd (UInt8.lt_trans h1 h2) (UInt8.lt_irrefl _)
        · exact absurd h1 (UInt8.lt_irrefl _)
      · rcases h2 with h2 | ⟨-, h2⟩
        · exact absurd h2 (UInt8.lt_irrefl _)
        · rw [ih _ h1 h2]

theorem lexLe_trans : ∀ a b c : Name, lexLe a b = true → lexLe b c = true → lexLe a c = true := by
  intro a
  induction a with
  | nil => intro b c _ _; simp [lexLe]
  | cons x xs ih =>
    intro b c h1 h2
    cases b with
    | nil => simp [lexLe] at h1
    | cons y ys =>
      cases c with
      | nil => simp [lexLe] at h2
      | cons z zs =>
        simp only [lexLe, Bool.or_eq_true, Bool.and_eq_true, decide_eq_true_eq] at h1 h2 ⊢
        rcases h1 with h1 | ⟨rfl, h1⟩
        · rcases h2 with h2 | ⟨rfl, h2⟩
          · exact .inl (UInt8.lt_trans h1 h2)
          · exact .inl h1
        · rcases h2 with h2 | ⟨rfl, h2⟩
          · exact .inl h2
          · exact .inr ⟨rfl, ih _ _ h1 h2⟩

theorem lexTotal : Total lexLe := ⟨lexLe_total, lexLe_trans⟩

theorem cmp_eq {a b : Name} : cmp a b = .eq ↔ a = b := by
  constructor
  · intro h
    unfold cmp at h
    split at h
    · split at h
      · next h1 h2 => exact lexLe_antisymm _ _ h1 h2
      · cases h
    · cases h
  · rintro rfl
    have : lexLe a a = true := by rcases lexLe_total a a with h | h <;> exact h
    simp [cmp, this]

theorem cmp_gt {a b : Name} : cmp a b = .gt ↔ lexLe a b = false := by
  unfold cmp
  split
  · next h => split <;> simp [h]
  · next h => simpa using h

theorem cmp_lt {a b : Name} : cmp a b = .lt ↔ lexLe b a = false := by
  unfold cmp
  split
  · split
    · next h => simp [h]
    · next h => simpa using h
  · next h =>
    have := (lexLe_total a b).resolve_left h
    simp [this]

theorem readBytes_of {m base p x} (h : HasBytes m base p x) :
    readBytes m base p x.length = some x := by
  obtain ⟨a, c, rfl, rfl⟩ := h
  unfold readBytes
  rw [if_pos (by simp; omega)]
  simp [List.append_assoc]

theorem readWord_of {m base p v} (h : Word m base p v) : readWord m base p = some v := by
  obtain ⟨b0, b1, b2, b3, h, rfl⟩ := h
  have := readBytes_of h
  unfold readWord
  rw [show 4 = [b0, b1, b2, b3].length from rfl, this]

theorem word_bound {m base p v} (h : Word m base p v) : base ≤ p ∧ p + 4 ≤ base + m.length := by
  obtain ⟨b0, b1, b2, b3, h, rfl⟩ := h
  exact hasBytes_bound h

theorem readName_of {m base p name} (h : IsName m base p name) : readName m base p = some name := by
  obtain ⟨h1, a, h2, h3⟩ := h
  unfold readName
  rw [readWord_of h1, readWord_of h2]
  exact readBytes_of h3

theorem searchLoop_one (f : Nat → Option Ordering) (lo : Nat) : searchLoop f lo 1 = some lo := by
  unfold searchLoop
  simp

theorem searchLoop_two (f : Nat → Option Ordering) (lo : Nat) : searchLoop f lo 2 =
    (f (lo + 1)).bind fun c => some (if c = .gt then lo else lo + 1) := by
  unfold searchLoop
  simp [searchLoop_one]

theorem searchLoop_ok (f : Nat → Option Ordering) (g : Nat → Ordering) (n : Nat)
    (hf : ∀ i, i < n → f i = some (g i))
    (hgt : ∀ i j, i ≤ j → j < n → g i = .gt → g j = .gt) :
    ∀ size lo, 0 < size → lo + size ≤ n → (∀ i, lo + size ≤ i → i < n → g i = .gt) →
      (lo = 0 ∨ g lo ≠ .gt) →
      ∃ r, searchLoop f lo size = some r ∧ r < n ∧ (∀ i, r < i → i < n → g i = .gt) ∧
        (r = 0 ∨ g r ≠ .gt) := by
  intro size
  induction size using Nat.strongRecOn with
  | ind size ih =>
    intro lo h0 hn hhi hlo
    unfold searchLoop
    by_cases h1 : 1 < size
    · rw [if_pos h1]
      have hm : lo + size / 2 < n := by omega
      simp only [hf _ hm, Option.bind_eq_bind, Option.bind_some]
      by_cases hg : g (lo + size / 2) = .gt
      · rw [if_pos hg]
        exact ih _ (by omega) _ (by omega) (by omega)
          (fun i hi hin => hgt _ _ (by omega) hin hg) hlo
      · rw [if_neg hg]
        exact ih _ (by omega) _ (by omega) (by omega)
          (fun i hi hin => hhi i (by omega) hin) (.inr hg)
    · rw [if_neg h1]
      exact ⟨lo, rfl, by omega, fun i hi hin => hhi i (by omega) hin, hlo⟩

theorem binarySearch_ok (f : Nat → Option Ordering) (g : Nat → Ordering) (n : Nat)
    (hf : ∀ i, i < n → f i = some (g i))
    (hgt : ∀ i j, i ≤ j → j < n → g i = .gt → g j = .gt)
    (hlt : ∀ i j, i ≤ j → j < n → g j = .lt → g i = .lt) :
    ∃ r, binarySearch f n = some r ∧ (∀ i, r = some i → i < n ∧ g i = .eq) ∧
      (r = none → ∀ i, i < n → g i ≠ .eq) := by
  unfold binarySearch
  by_cases h0 : n = 0
  · rw [if_pos h0]
    exact ⟨none, rfl, by simp, fun _ i hi => by omega⟩
  · rw [if_neg h0]
    obtain ⟨r, hr, h1, h2, h3⟩ := searchLoop_ok f g n hf hgt n 0 (by omega) (by omega)
      (fun i hi hin => by omega) (.inl rfl)
    rw [hr]
    simp only [Option.bind_eq_bind, Option.bind_some, hf _ h1]
    refine ⟨_, rfl, ?_, ?_⟩
    · intro i hi
      split at hi
      · next he => cases hi; exact ⟨h1, he⟩
      · cases hi
    · intro hnone i hi he
      split at hnone
      · cases hnone
      · next hne =>
        rcases Nat.lt_or_ge r i with hlt' | hge
        · have := h2 i hlt' hi; rw [he] at this; cases this
        · cases hg : g r with
          | eq => exact hne hg
          | lt => have := hlt i r hge h1 hg; rw [he] at this; cases this
          | gt =>
            rcases h3 with rfl | h3
            · have : i = 0 := by omega
              subst this; rw [he] at hg; cases hg
            · exact h3 hg

/-- The search in a sorted array. -/
theorem array_search {α : Type} {memoryBase : Nat} {t : Table} {size : Nat} {name : α → Name}
    {xs : List α} {a : Nat} (hs : xs.Pairwise (fun x y => lexLe (name x) (name y) = true))
    (hn : ∀ (i : Nat) (x : α), xs[i]? = some x →
      IsName t.buffer memoryBase (a + size * i) (name x)) (target : Name) :
    ∃ r, binarySearch (fun i => (readName t.buffer memoryBase (a + size * i)).map (cmp · target))
        xs.length = some r ∧
      (∀ i, r = some i → ∃ x, xs[i]? = some x ∧ name x = target) ∧
      (r = none → ∀ x ∈ xs, name x ≠ target) := by
  have hle : ∀ i j (hi : i < xs.length) (hj : j < xs.length), i ≤ j →
      lexLe (name xs[i]) (name xs[j]) = true := by
    intro i j hi hj hij
    rcases Nat.lt_or_eq_of_le hij with h | h
    · exact List.pairwise_iff_getElem.1 hs i j hi hj h
    · subst h
      rcases lexLe_total (name xs[i]) (name xs[i]) with h | h <;> exact h
  let g : Nat → Ordering := fun i => if h : i < xs.length then cmp (name xs[i]) target else .eq
  have gi : ∀ i (h : i < xs.length), g i = cmp (name xs[i]) target := fun i h => dif_pos h
  obtain ⟨r, h1, h2, h3⟩ := binarySearch_ok
    (fun i => (readName t.buffer memoryBase (a + size * i)).map (cmp · target)) g xs.length
    (fun i hi => by
      simp only [readName_of (hn i xs[i] (List.getElem?_eq_getElem hi)), Option.map_some, gi i hi])
    (fun i j hij hj hi => by
      rw [gi j hj, cmp_gt]
      rw [gi i (by omega), cmp_gt] at hi
      cases hc : lexLe (name xs[j]) target with
      | false => rfl
      | true => rw [lexLe_trans _ _ _ (hle i j (by omega) hj hij) hc] at hi; cases hi)
    (fun i j hij hj hjl => by
      rw [gi i (by omega), cmp_lt]
      rw [gi j hj, cmp_lt] at hjl
      cases hc : lexLe target (name (xs[i]'(by omega))) with
      | false => rfl
      | true => rw [lexLe_trans _ _ _ hc (hle i j (by omega) hj hij)] at hjl; cases hjl)
  refine ⟨r, h1, ?_, ?_⟩
  · intro i hi
    obtain ⟨hl, he⟩ := h2 i hi
    rw [gi i hl, cmp_eq] at he
    exact ⟨xs[i], List.getElem?_eq_getElem hl, he⟩
  · intro hr x hx he
    obtain ⟨i, hi, rfl⟩ := List.getElem_of_mem hx
    exact h3 hr i hi (by rw [gi i hi, cmp_eq]; exact he)

theorem supported_ok {flags : BitVec 32} (h : Supported flags) :
    ¬ flags &&& ~~~(1#32 ||| 2#32 ||| 256#32) ≠ 0#32 := by
  intro hne
  apply hne
  apply BitVec.eq_of_getLsbD_eq
  intro i hi
  rw [BitVec.getLsbD_and]
  cases hf : flags.getLsbD i with
  | false => simp
  | true => rcases h i hf with rfl | rfl | rfl <;> decide

end Verif.DlSym
