import Verif.Fold.Lemmas
/-! Instructions are folded only if they leave the operands that are taken. -/
namespace Verif.Fold

theorem left_append (xs ys : List (Tree α)) : left (xs ++ ys) = left xs + left ys := by
  induction xs with
  | nil => simp [left]
  | cons x xs ih => simp only [List.cons_append, left, ih]; omega

theorem left_reverse (xs : List (Tree α)) : left xs.reverse = left xs := by
  induction xs with
  | nil => rfl
  | cons x xs ih => simp only [List.reverse_cons, left_append, left, ih]; omega

theorem scan_eq {params : Nat} (hp : params < u32Max) : ∀ {l : List (Tree α)} {seen count k : Nat} {u : Bool},
    count ≤ params → scan params l seen count = (k, u) →
    (k = 0 ∨ (u = false ∧ ∃ j, k = seen + j ∧ count + left (l.take j) = params))
  | [], seen, count, k, u, hc, h => by cases h; exact .inl rfl
  | t :: ts, seen, count, k, u, hc, h => by
    simp only [scan] at h
    split at h
    · next e =>
      cases h
      refine .inr ⟨rfl, 1, rfl, ?_⟩
      simp only [satAdd] at e
      simp only [List.take_succ_cons, List.take_zero, left]
      omega
    · split at h
      · cases h; exact .inl rfl
      · next h1 h2 =>
        rcases scan_eq hp (by omega) h with h3 | ⟨h3, j, h4, h5⟩
        · exact .inl h3
        · refine .inr ⟨h3, j + 1, by omega, ?_⟩
          simp only [List.take_succ_cons, left]
          simp only [satAdd] at h5 h2
          omega

/-- All operands are found, if nothing but the first of them is enough. -/
theorem scan_found {params : Nat} (hp : params < u32Max) (t : Tree α) (xs : List (Tree α))
    (ht : 0 < t.results) : ∀ (cs : List (Tree α)) (seen count : Nat),
    count + left cs + t.results = params →
    scan params (cs ++ t :: xs) seen count = (seen + cs.length + 1, false)
  | [], seen, count, h => by
    simp only [left] at h
    have : satAdd count t.results = params := by unfold satAdd; omega
    simp [scan, this]
  | c :: cs, seen, count, h => by
    simp only [left] at h
    have e : satAdd count c.results = count + c.results := by unfold satAdd; omega
    simp only [List.cons_append, scan, e]
    rw [if_neg (by omega), if_neg (by omega), scan_found hp t xs ht cs _ _ (by omega)]
    simp only [List.length_cons]
    congr 1; omega

/-- Everything in the block is fed. -/
def FedIn (arity : Ins α → Nat × Nat) (b : Block α) : Prop :=
  (∀ t ∈ b.folded, Fed arity t) ∧
  (∀ ps, b.predicate = some ps → ps.length ≤ 1 ∧ ∀ t ∈ ps, Fed arity t) ∧
  ∀ q, b.consequent = some q → ∀ t ∈ q, Fed arity t

/-- The text of the block is that of its first instruction. -/
def Shape (b : Block α) : Prop :=
  (b.kind = .block → ∃ a, b.plain = .ins (.block a)) ∧ (b.kind ≠ .block → ∃ a, b.plain = .ins (.iff a))

/-- All blocks are; the first one has no instruction. -/
def FedAll (arity : Ins α → Nat × Nat) : List (Block α) → Prop
  | [] => True
  | [b] => FedIn arity b ∧ b.kind = .block
  | b :: c :: bs => FedIn arity b ∧ Shape b ∧ FedAll arity (c :: bs)

theorem FedAll.head {arity : Ins α → Nat × Nat} {b : Block α} {bs : List (Block α)}
    (h : FedAll arity (b :: bs)) : FedIn arity b := by
  cases bs with
  | nil => exact h.1
  | cons => exact h.1

theorem FedAll.folded {arity : Ins α → Nat × Nat} {b : Block α} {bs : List (Block α)}
    (h : FedAll arity (b :: bs)) {fs : List (Tree α)} (hf : ∀ t ∈ fs, Fed arity t) :
    FedAll arity ({ b with folded := fs } :: bs) := by
  cases bs with
  | nil => exact ⟨⟨hf, h.1.2⟩, h.2⟩
  | cons => exact ⟨⟨hf, h.1.2⟩, h.2⟩

theorem visit_fed {arity : Ins α → Nat × Nat} (ha : ∀ i, (arity i).1 < u32Max) {p p' : Printer α}
    {i : Ins α} (hp : p.control ≠ []) (hd : FedAll arity p.control) (hv : visit (fun _ => arity) p i = .ok p') :
    p'.control ≠ [] ∧ FedAll arity p'.control := by
  obtain ⟨con, hint⟩ := p
  obtain ⟨b, bs, rfl⟩ := List.exists_cons_of_ne_nil hp
  replace hd : FedAll arity (b :: bs) := hd
  have hb := hd.head
  cases i with
  | plain a =>
    simp only [visit, handlePlain] at hv
    have hq : (if (arity (.plain a)).1 > 0 then scan (arity (.plain a)).1 b.folded.reverse 0 0
        else (0, false)).1 = 0 ∨ ((if (arity (.plain a)).1 > 0 then
        scan (arity (.plain a)).1 b.folded.reverse 0 0 else (0, false)).2 = false ∧
        left (b.folded.drop (b.folded.length - (if (arity (.plain a)).1 > 0 then
          scan (arity (.plain a)).1 b.folded.reverse 0 0 else (0, false)).1)) = (arity (.plain a)).1) := by
      split
      · obtain ⟨k, u, hk⟩ : ∃ k u, scan (arity (.plain a)).1 b.folded.reverse 0 0 = (k, u) := ⟨_, _, rfl⟩
        rw [hk]
        rcases scan_eq (ha _) (Nat.zero_le _) hk with h0 | ⟨h0, j, hj, hl⟩
        · exact .inl h0
        · rw [List.take_reverse, left_reverse] at hl
          simp only [Nat.zero_add] at hj hl
          exact .inr ⟨h0, by rw [hj]; exact hl⟩
      · exact .inl rfl
    generalize (if (arity (.plain a)).1 > 0 then scan (arity (.plain a)).1 b.folded.reverse 0 0
        else (0, false)) = q at hq hv
    cases hv
    refine ⟨by simp, hd.folded fun t ht => ?_⟩
    rcases List.mem_append.1 ht with ht | ht
    · exact hb.1 t (List.mem_of_mem_take ht)
    · rw [List.mem_singleton.1 ht]
      refine .plain (fun c hc => hb.1 c (List.mem_of_mem_drop hc)) ?_ ?_
      · intro hne
        rcases hq with hq | ⟨-, hq⟩
        · rw [hq] at hne; simp at hne
        · exact hq
      · split
        · next hu =>
          rcases hq with hq | ⟨hq, -⟩
          · right; rw [hq]; simp
          · rw [hq] at hu; cases hu
        · exact .inl rfl
  | block a =>
    simp only [visit, pushBlock] at hv
    split at hv
    · cases hv
    · cases hv
      exact ⟨by simp, ⟨by simp, by simp, by simp⟩, ⟨fun _ => ⟨a, rfl⟩, fun h => absurd rfl h⟩, hd⟩
  | iff a =>
    simp only [visit, pushIf] at hv
    cases hv
    refine ⟨by simp, ⟨by simp, ?_, by simp⟩, ⟨fun h => (by cases h), fun _ => ⟨a, rfl⟩⟩,
      hd.folded fun t ht => hb.1 t (List.dropLast_subset _ ht)⟩
    intro ps hps
    cases hps
    refine ⟨by simp only [List.length_drop]; omega, fun t ht => hb.1 t (List.mem_of_mem_drop ht)⟩
  | else_ =>
    simp only [visit, handleElse] at hv
    split at hv
    · cases hv
    · obtain ⟨k, pl, fs, pr, co, hi⟩ := b
      cases k with
      | block => cases hv
      | else_ => cases hv
      | iff =>
        cases hv
        cases bs with
        | nil => exact absurd hd.2 (by simp)
        | cons c bs =>
          obtain ⟨⟨h1, h2, h3⟩, h4, h5⟩ := hd
          refine ⟨by simp, ⟨by simp, h2, ?_⟩, ⟨fun h => (by cases h), fun _ => h4.2 (by simp)⟩, h5⟩
          intro q hq
          cases hq
          exact h1
  | end_ =>
    simp only [visit, handleEnd] at hv
    split at hv
    · cases hv
    · cases bs with
      | nil =>
        cases hc : close b (arity .end_).2 with
        | error e => rw [hc] at hv; cases hv
        | ok t => rw [hc] at hv; cases hv
      | cons c bs =>
        obtain ⟨⟨h1, h2, h3⟩, h4, h5⟩ := hd
        obtain ⟨k, pl, fs, pr, co, hi⟩ := b
        cases k with
        | block =>
          cases hv
          obtain ⟨a, e⟩ := h4.1 rfl
          cases e
          refine ⟨by simp, h5.folded fun t ht => ?_⟩
          rcases List.mem_append.1 ht with ht | ht
          · exact h5.head.1 t ht
          · rw [List.mem_singleton.1 ht]; exact .block h1
        | iff =>
          obtain ⟨a, e⟩ := h4.2 (by simp)
          cases e
          cases pr with
          | none => cases hv
          | some pr =>
            cases hv
            refine ⟨by simp, h5.folded fun t ht => ?_⟩
            rcases List.mem_append.1 ht with ht | ht
            · exact h5.head.1 t ht
            · rw [List.mem_singleton.1 ht]; exact .iff (h2 _ rfl).1 (h2 _ rfl).2 h1
        | else_ =>
          obtain ⟨a, e⟩ := h4.2 (by simp)
          cases e
          cases pr with
          | none => cases hv
          | some pr =>
            cases co with
            | none => cases hv
            | some co =>
              cases hv
              refine ⟨by simp, h5.folded fun t ht => ?_⟩
              rcases List.mem_append.1 ht with ht | ht
              · exact h5.head.1 t ht
              · rw [List.mem_singleton.1 ht]; exact .ifElse (h2 _ rfl).1 (h2 _ rfl).2 (h3 _ rfl) h1
  | legacy a => cases hv

theorem setHint_control (p : Printer α) (h : Option Bool) : (setHint p h).control = p.control := by
  cases h <;> rfl

theorem run_fed {arity : Ins α → Nat × Nat} (ha : ∀ i, (arity i).1 < u32Max) :
    ∀ {ops : List (Op α)} {p p' : Printer α}, p.control ≠ [] → FedAll arity p.control →
      run (fun _ => arity) p ops = .ok p' → FedAll arity p'.control
  | [], p, p', _, hd, hr => by cases hr; exact hd
  | (i, h) :: ops, p, p', hn, hd, hr => by
    unfold run at hr
    cases hv : visit (fun _ => arity) (setHint p h) i with
    | error e => rw [hv] at hr; cases hr
    | ok q =>
      rw [hv] at hr
      have := visit_fed ha (by rwa [setHint_control]) (by rwa [setHint_control]) hv
      exact run_fed ha this.1 this.2 hr

end Verif.Fold
