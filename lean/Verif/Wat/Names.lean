import Verif.Wat.Tile
/-
The identifiers of the items of one name map differ.
-/
namespace Verif.Wat

open Verif.Std Spec

/-- The name is printed as it is. -/
def Naming.plain (n : Naming) : Prop := ∀ p, n.kind ≠ .syntheticPrefix p

theorem Naming.new_used (name : Text) (index : Nat) (group : Text) (used : List Text) :
    ∃ used', (Naming.new name index group (some used)).2 = some used' ∧ (∀ x ∈ used, x ∈ used') ∧
      ((Naming.new name index group (some used)).1.plain → name ∉ used ∧ name ∈ used') := by
  unfold Naming.new
  simp only
  split
  · exact ⟨used, rfl, fun _ h => h, fun h => absurd rfl (h _)⟩
  · split
    · exact ⟨used, rfl, fun _ h => h, fun h => absurd rfl (h _)⟩
    · next h => exact ⟨name :: used, rfl, fun _ h => List.mem_cons_of_mem _ h, fun _ => ⟨h, List.mem_cons_self ..⟩⟩

theorem nameMapLoop_fine (group : Text) : ∀ names used, ∀ e ∈ nameMapLoop group used names, e.2.Fine group e.1
  | [], _, e, h => by cases h
  | (i, name) :: rest, used, e, h => by
    simp only [nameMapLoop, List.mem_cons] at h
    rcases h with rfl | h
    · exact (Naming.new_fine name i group used).1
    · exact nameMapLoop_fine group rest _ e h

theorem nameMapLoop_distinct (group : Text) : ∀ names used,
    (∀ e ∈ nameMapLoop group (some used) names, e.2.plain → e.2.name ∉ used) ∧
    (nameMapLoop group (some used) names).Pairwise (fun a b => a.2.plain → b.2.plain → a.2.name ≠ b.2.name)
  | [], _ => ⟨(fun _ h => by cases h), .nil⟩
  | (i, name) :: rest, used => by
    obtain ⟨used', hu, hsub, hpl⟩ := Naming.new_used name i group used
    have hname := (Naming.new_fine name i group (some used)).2
    obtain ⟨h1, h2⟩ := nameMapLoop_distinct group rest used'
    simp only [nameMapLoop, hu]
    refine ⟨?_, ?_⟩
    · intro e he hp
      rcases List.mem_cons.mp he with rfl | he
      · simp only [hname]; exact (hpl hp).1
      · exact fun hin => h1 e he hp (hsub _ hin)
    · refine List.pairwise_cons.mpr ⟨?_, h2⟩
      intro b hb hp1 hp2 heq
      simp only [hname] at heq
      exact h1 b hb hp2 (heq ▸ (hpl hp1).2)

theorem getName_mem {entries : List (Nat × Naming)} {i : Nat} {n : Naming} (h : getName entries i = some n) :
    (i, n) ∈ entries := by
  unfold getName at h
  rw [Option.map_eq_some_iff] at h
  obtain ⟨⟨j, m⟩, hf, rfl⟩ := h
  have h1 := List.find?_some hf
  have h2 := List.mem_of_find?_eq_some hf
  simp only [beq_iff_eq] at h1
  subst h1
  simpa using h2

theorem pairwise_of_ne {α : Type} {R : α → α → Prop} {l : List α} (hp : l.Pairwise R) (hsym : ∀ a b, R a b → R b a)
    {a b : α} (ha : a ∈ l) (hb : b ∈ l) (hne : a ≠ b) : R a b := by
  induction hp with
  | nil => cases ha
  | cons h1 _ ih =>
    rcases List.mem_cons.mp ha with e1 | ha'
    · rcases List.mem_cons.mp hb with e2 | hb'
      · exact absurd (e1.trans e2.symm) hne
      · rw [e1]; exact h1 b hb'
    · rcases List.mem_cons.mp hb with e2 | hb'
      · rw [e2]; exact hsym _ _ (h1 a ha')
      · exact ih ha' hb'

theorem toDigits_inj {i j : Nat} (h : Nat.toDigits 10 i = Nat.toDigits 10 j) : i = j := by
  have h1 := readDigits_toDigits (b := 10) (by decide) (by decide) i
  rw [h, readDigits_toDigits (b := 10) (by decide) (by decide) j] at h1
  exact (Option.some.inj h1).symm

/-- Texts without a character in front of the character are determined. -/
theorem before_char {z : Char} : ∀ {p q x y : Text}, z ∉ p → z ∉ q → p ++ z :: x = q ++ z :: y → p = q
  | [], [], _, _, _, _, _ => rfl
  | [], c :: q, _, _, _, hq, h => by
    simp only [List.nil_append, List.cons_append, List.cons.injEq] at h
    exact absurd (h.1 ▸ List.mem_cons_self ..) hq
  | c :: p, [], _, _, hp, _, h => by
    simp only [List.nil_append, List.cons_append, List.cons.injEq] at h
    exact absurd (h.1 ▸ List.mem_cons_self ..) hp
  | c :: p, d :: q, x, y, hp, hq, h => by
    simp only [List.cons_append, List.cons.injEq] at h
    rw [h.1, before_char (fun hx => hp (List.mem_cons_of_mem _ hx)) (fun hx => hq (List.mem_cons_of_mem _ hx)) h.2]

theorem digits_no_brace {strict : Bool} {t : Text} {n : Nat} (h : Digits 16 strict t n) : '}' ∉ t := by
  have hb : toDigit 16 '}' = none := by decide
  induction h with
  | one h =>
    rw [List.mem_singleton]
    rintro rfl
    rw [hb] at h; cases h
  | more h1 hu hs hc ih =>
    simp only [List.mem_append, List.mem_singleton, not_or]
    refine ⟨⟨ih, fun h => absurd (hu _ h) (by decide)⟩, ?_⟩
    rintro rfl
    rw [hb] at hc; cases hc

theorem hash_inj {g : Text} {i j : Nat} (h : '#' :: g ++ Nat.toDigits 10 i = '#' :: g ++ Nat.toDigits 10 j) : i = j :=
  toDigits_inj (List.append_cancel_left h)

theorem hash_no_space {g : Text} (hg : Letters g) (n : Nat) : ' ' ∉ '#' :: g ++ Nat.toDigits 10 n :=
  fun h => (hash_plain hg n ' ' h).1 rfl

/-- What is printed for an item stands for a name or an index. -/
def refOf (nameUnnamed : Bool) (desc : Text) (entries : List (Nat × Naming)) (idx : Nat) : Sum Text Nat :=
  match getName entries idx with
  | some n => .inl n.decoded
  | none => if nameUnnamed then .inl ('#' :: desc ++ Nat.toDigits 10 idx) else .inr idx

theorem oneToken_word {k : TokenKind} {t : Text} (h : Word true k t) (ha : ∀ c ∈ t, c.toNat < 128)
    (hk : k ≠ .reserved) (allow : Bool) (pre rest : Text) (hr : EndsWord rest) (hlen : strLen t < 2 ^ 32) :
    OneToken allow pre t rest k :=
  oneToken pre (Tok.word h (plain_ascii allow ha) hr) (.inr hk) hlen

theorem word_hash {g : Text} (hg : Letters g) (n : Nat) :
    Word true .id ('$' :: '#' :: g ++ Nat.toDigits 10 n) ∧
    (∀ c ∈ '$' :: '#' :: g ++ Nat.toDigits 10 n, c.toNat < 128) ∧
    tokenId ('$' :: '#' :: g ++ Nat.toDigits 10 n) = some ('#' :: g ++ Nat.toDigits 10 n) := by
  have h := idChars_hash hg n
  refine ⟨.id h, ?_, tokenId_plain h (by simp)⟩
  intro c hc
  rcases List.mem_cons.mp hc with rfl | hc
  · decide
  · exact idChars_lt h c hc

theorem printNat_denotes (i : Nat) : Denotes (Nat.toDigits 10 i) (.inr i) := by
  have hlit := printInt_lit i
  have e : printInt (i : Int) = Nat.toDigits 10 i := by
    unfold printInt
    rw [if_neg (by omega)]; simp
  have hneg : ¬ (i : Int) < 0 := by omega
  rw [e, if_neg hneg] at hlit
  refine .index (k := ⟨none, false, false⟩) ?_ ?_
  · intro allow pre rest hr hlen
    exact oneToken_word (.number (intLit_numTok hlit)) (by rw [← e]; exact printInt_ascii i) (by simp) allow pre rest hr hlen
  · intro bits hb
    obtain ⟨sg, s, hex, base, p, t, n, hs, hbase, ht, hsrc, hk, hv⟩ := hlit
    simp only [IntegerKind.mk.injEq] at hk
    obtain ⟨rfl, hu, rfl⟩ := hk
    have hbits : 0 < bits ∨ bits = 0 := by omega
    rcases hbits with h0 | rfl
    · have hpi := parseInteger_eq false bits h0 hs hbase ht
      rw [← hu] at hpi
      rw [hsrc, hpi]
      simp only [reduceCtorEq, if_false] at hv
      have : (i : Int) = n := hv
      have hn : i = n := by omega
      subst hn
      simp only [Bool.false_eq_true, if_false, reduceCtorEq]
      rw [if_pos (by exact_mod_cast hb)]
    · have : i = 0 := by simpa using hb
      subst this
      decide

theorem refOf_denotes (nameUnnamed : Bool) {group desc : Text} (hg : Letters group) (hd : Letters desc)
    {entries : List (Nat × Naming)} (he : ∀ e ∈ entries, e.2.Fine group e.1) (idx : Nat) :
    Denotes (printIdx nameUnnamed desc entries idx) (refOf nameUnnamed desc entries idx) := by
  unfold printIdx refOf
  cases hn : getName entries idx with
  | some n =>
    obtain ⟨h1, h2, h3⟩ := Naming.identifier_ok hg (he _ (getName_mem hn))
    exact .name (fun allow pre rest hr hlen => oneToken_word h1 h2 (by simp) allow pre rest hr hlen) h3
  | none =>
    simp only
    cases nameUnnamed with
    | true =>
      simp only [if_true]
      obtain ⟨h1, h2, h3⟩ := word_hash hd idx
      exact .name (fun allow pre rest hr hlen => oneToken_word h1 h2 (by simp) allow pre rest hr hlen) h3
    | false =>
      simp only [Bool.false_eq_true, if_false]
      exact printNat_denotes idx

theorem Naming.decoded_plain {group : Text} {i : Nat} {n : Naming} (h : n.Fine group i) (hp : n.plain) :
    n.decoded = n.name ∧ n.name.head? ≠ some '#' := by
  obtain ⟨name, kind⟩ := n
  cases kind with
  | dollarName => exact ⟨rfl, (h.dollar rfl).2.1⟩
  | dollarQuotedName => exact ⟨rfl, (h.quoted rfl).2⟩
  | syntheticPrefix p => exact absurd rfl (hp p)

theorem Naming.decoded_synthetic {group : Text} {i : Nat} {n : Naming} (h : n.Fine group i) (hp : ¬ n.plain) :
    n.decoded = '#' :: group ++ Nat.toDigits 10 i ++ ' ' :: n.name := by
  obtain ⟨name, kind⟩ := n
  cases kind with
  | dollarName => exact absurd (fun p h => by cases h) hp
  | dollarQuotedName => exact absurd (fun p h => by cases h) hp
  | syntheticPrefix p => rw [Naming.decoded, h.synthetic p rfl]

theorem refOf_inj (nameUnnamed : Bool) {group desc : Text} (hg : Letters group) (hd : Letters desc)
    {entries : List (Nat × Naming)} (he : ∀ e ∈ entries, e.2.Fine group e.1)
    (hpw : entries.Pairwise (fun a b => a.2.plain → b.2.plain → a.2.name ≠ b.2.name)) {i j : Nat}
    (h : refOf nameUnnamed desc entries i = refOf nameUnnamed desc entries j) : i = j := by
  -- a name and an unnamed item
  have mixed : ∀ {i j : Nat} {n : Naming}, n.Fine group i → n.decoded ≠ '#' :: desc ++ Nat.toDigits 10 j := by
    intro i j n hn heq
    by_cases hp : n.plain
    · obtain ⟨h1, h2⟩ := Naming.decoded_plain hn hp
      rw [← h1, heq] at h2
      exact h2 rfl
    · rw [Naming.decoded_synthetic hn hp] at heq
      have := hash_no_space hd j
      rw [← heq] at this
      exact this (by simp)
  unfold refOf at h
  cases hi : getName entries i with
  | some n =>
    have hni := he _ (getName_mem hi)
    cases hj : getName entries j with
    | some m =>
      have hmj := he _ (getName_mem hj)
      rw [hi, hj] at h
      simp only [Sum.inl.injEq] at h
      by_cases hpn : n.plain
      · obtain ⟨h1, h2⟩ := Naming.decoded_plain hni hpn
        by_cases hpm : m.plain
        · obtain ⟨h3, -⟩ := Naming.decoded_plain hmj hpm
          by_cases hij : i = j
          · exact hij
          · exfalso
            have := pairwise_of_ne hpw (fun a b hab ha hb => (hab hb ha).symm) (getName_mem hi) (getName_mem hj)
              (fun e => hij (congrArg Prod.fst e))
            exact this hpn hpm (by rw [← h1, ← h3]; exact h)
        · have h3 := Naming.decoded_synthetic hmj hpm
          rw [← h1, h, h3] at h2
          exact absurd rfl h2
      · have h1 := Naming.decoded_synthetic hni hpn
        by_cases hpm : m.plain
        · obtain ⟨h3, h4⟩ := Naming.decoded_plain hmj hpm
          rw [← h3, ← h, h1] at h4
          exact absurd rfl h4
        · have h3 := Naming.decoded_synthetic hmj hpm
          rw [h1, h3] at h
          exact hash_inj (before_char (hash_no_space hg i) (hash_no_space hg j) h)
    | none =>
      rw [hi, hj] at h
      simp only at h
      split at h
      · exact absurd (Sum.inl.inj h) (mixed hni)
      · cases h
  | none =>
    cases hj : getName entries j with
    | some m =>
      have hmj := he _ (getName_mem hj)
      rw [hi, hj] at h
      simp only at h
      split at h
      · exact absurd (Sum.inl.inj h).symm (mixed hmj)
      · cases h
    | none =>
      rw [hi, hj] at h
      simp only at h
      split at h
      · exact hash_inj (Sum.inl.inj h)
      · exact Sum.inr.inj h

end Verif.Wat
