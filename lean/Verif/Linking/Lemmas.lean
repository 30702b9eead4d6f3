import Verif.Linking.Spec
/-! The loops end, with the dependencies. -/
namespace Verif.Linking
open Spec

theorem mem_insert [DecidableEq α] {x y : α} {l : List α} : y ∈ insert x l ↔ y = x ∨ y ∈ l := by
  unfold insert
  split <;> simp <;> grind

theorem nodup_insert [DecidableEq α] {x : α} {l : List α} (h : l.Nodup) : (insert x l).Nodup := by
  unfold insert
  split
  · exact h
  · next hx =>
    rw [List.nodup_append]
    refine ⟨h, by simp, fun a ha b hb => ?_⟩
    rw [List.mem_singleton.1 hb]
    rintro rfl
    exact hx ha

theorem mem_extend [DecidableEq α] {y : α} : ∀ {xs l : List α}, y ∈ extend l xs ↔ y ∈ l ∨ y ∈ xs
  | [], l => by simp [extend]
  | x :: xs, l => by
    have h : extend l (x :: xs) = extend (insert x l) xs := rfl
    rw [h, mem_extend, mem_insert]
    simp
    grind

theorem nodup_extend [DecidableEq α] : ∀ {xs l : List α}, l.Nodup → (extend l xs).Nodup
  | [], _, h => h
  | x :: xs, l, h => nodup_extend (xs := xs) (l := insert x l) (nodup_insert h)

/-! ### Direct dependencies -/

theorem addImports_ok {exporters : κ → Option String} : ∀ {ks : List κ} {row : List String},
    row.Nodup → (addImports exporters ks row = .error .refused ∧ ∃ k ∈ ks, exporters k = none) ∨
      ∃ r, addImports exporters ks row = .ok r ∧ r.Nodup ∧ (∀ k ∈ ks, exporters k ≠ none) ∧
        ∀ n, n ∈ r ↔ n ∈ row ∨ ∃ k ∈ ks, exporters k = some n
  | [], row, h => .inr ⟨row, rfl, h, by simp, by simp⟩
  | k :: ks, row, h => by
    unfold addImports
    cases hk : exporters k with
    | none => exact .inl ⟨rfl, k, by simp, hk⟩
    | some name =>
      rcases addImports_ok (exporters := exporters) (ks := ks) (nodup_insert (x := name) h) with
        ⟨h1, k', h2, h3⟩ | ⟨r, h1, h2, h3, h4⟩
      · exact .inl ⟨h1, k', List.mem_cons_of_mem _ h2, h3⟩
      · refine .inr ⟨r, h1, h2, ?_, fun n => ?_⟩
        · intro k' hk'
          rcases List.mem_cons.1 hk' with rfl | hk'
          · simp [hk]
          · exact h3 k' hk'
        · rw [h4, mem_insert]
          simp only [List.mem_cons, exists_eq_or_imp, hk, Option.some.injEq]
          grind

/-- What is in a row. -/
def RowOf (exporters : κ → Option String) (a : Lib κ) (r : List String) : Prop :=
  r.Nodup ∧ ∀ n, n ∈ r ↔ n ∈ a.needed ∨ ∃ k ∈ a.imports, exporters k = some n

inductive Rows (exporters : κ → Option String) : List (Lib κ) → List (List String) → Prop
  | nil : Rows exporters [] []
  | cons {a r as rs} : RowOf exporters a r → Rows exporters as rs → Rows exporters (a :: as) (r :: rs)

theorem directNames_ok {exporters : κ → Option String} : ∀ {libs : List (Lib κ)}
    {seen : List String}, (libs.map (·.name)).Nodup → (∀ a ∈ libs, a.name ∉ seen) →
    (directNames exporters libs seen = .error .refused ∧
      ∃ a ∈ libs, ∃ k ∈ a.imports, exporters k = none) ∨
    ∃ rows, directNames exporters libs seen = .ok rows ∧
      (∀ a ∈ libs, ∀ k ∈ a.imports, exporters k ≠ none) ∧
      Rows exporters libs rows
  | [], _, _, _ => .inr ⟨[], rfl, by simp, .nil⟩
  | lib :: libs, seen, hn, hs => by
    have hn' := List.nodup_cons.1 hn
    unfold directNames
    rw [if_neg (hs lib (List.mem_cons_self ..))]
    rcases addImports_ok (exporters := exporters) (ks := lib.imports)
        (nodup_extend (xs := lib.needed) (l := []) List.nodup_nil) with
      ⟨h1, k, h2, h3⟩ | ⟨r, h1, h2, h3, h4⟩
    · rw [h1]
      exact .inl ⟨rfl, lib, by simp, k, h2, h3⟩
    · rw [h1]
      rcases directNames_ok (exporters := exporters) (libs := libs) (seen := lib.name :: seen) hn'.2
          (fun a ha => by
            simp only [List.mem_cons, not_or]
            refine ⟨fun e => hn'.1 (List.mem_map.2 ⟨a, ha, e⟩), hs a (List.mem_cons_of_mem _ ha)⟩) with
        ⟨k1, a, k2, k3⟩ | ⟨rows, k1, k2, k3⟩
      · rw [k1]
        exact .inl ⟨rfl, a, List.mem_cons_of_mem _ k2, k3⟩
      · rw [k1]
        refine .inr ⟨_, rfl, ?_, .cons ⟨h2, fun n => ?_⟩ k3⟩
        · intro a ha
          rcases List.mem_cons.1 ha with rfl | ha
          · exact h3
          · exact k2 a ha
        · rw [h4, mem_extend]
          simp

theorem indexOf_iff {name : String} : ∀ {libs : List (Lib κ)}, (libs.map (·.name)).Nodup →
    ∀ {i : Nat}, indexOf name libs = some i ↔ ∃ b, libs[i]? = some b ∧ b.name = name
  | [], _, i => by simp [indexOf]
  | lib :: libs, hn, i => by
    have hn' := List.nodup_cons.1 hn
    unfold indexOf
    by_cases h : lib.name = name
    · rw [if_pos h]
      constructor
      · intro k
        cases k
        exact ⟨lib, rfl, h⟩
      · rintro ⟨b, h1, h2⟩
        cases i with
        | zero => rfl
        | succ i =>
          simp only [List.getElem?_cons_succ] at h1
          exact absurd (List.mem_map.2 ⟨b, List.mem_of_getElem? h1, h2.trans h.symm⟩) hn'.1
    · rw [if_neg h]
      cases i with
      | zero => simp [h]
      | succ i =>
        simp only [List.getElem?_cons_succ, ← indexOf_iff hn'.2]
        cases indexOf name libs <;> simp

theorem toIndexes_ok {libs : List (Lib κ)} (hn : (libs.map (·.name)).Nodup) :
    ∀ {row : List String} {acc : List Nat}, row.Nodup → acc.Nodup →
      (∀ n ∈ row, ∃ b ∈ libs, b.name = n) →
      (∀ i ∈ acc, ∀ b, libs[i]? = some b → b.name ∉ row) →
      ∃ r, toIndexes libs row acc = .ok r ∧ r.Nodup ∧
        ∀ i, i ∈ r ↔ i ∈ acc ∨ ∃ b, libs[i]? = some b ∧ b.name ∈ row
  | [], acc, _, ha, _, _ => ⟨acc, rfl, ha, by simp⟩
  | name :: names, acc, hr, ha, hb, hd => by
    have hr' := List.nodup_cons.1 hr
    obtain ⟨b, hbm, hbn⟩ := hb name (List.mem_cons_self ..)
    obtain ⟨i, hi⟩ := List.getElem?_of_mem hbm
    have hix : indexOf name libs = some i := (indexOf_iff hn).2 ⟨b, hi, hbn⟩
    have hni : i ∉ acc := fun k => hd i k b hi (by rw [hbn]; exact List.mem_cons_self ..)
    unfold toIndexes
    simp only [hix]
    rw [if_neg hni]
    obtain ⟨r, h1, h2, h3⟩ := toIndexes_ok hn (row := names) (acc := acc ++ [i]) hr'.2 (by
        rw [List.nodup_append]
        refine ⟨ha, by simp, fun a h1 c h2 => ?_⟩
        rw [List.mem_singleton.1 h2]
        rintro rfl
        exact hni h1) (fun n h => hb n (List.mem_cons_of_mem _ h)) (fun j hj c hc => by
        rcases List.mem_append.1 hj with hj | hj
        · exact fun k => hd j hj c hc (List.mem_cons_of_mem _ k)
        · rw [List.mem_singleton.1 hj, hi] at hc
          cases hc
          rw [hbn]
          exact hr'.1)
    refine ⟨r, h1, h2, fun j => ?_⟩
    rw [h3]
    have hj : (∃ c, libs[j]? = some c ∧ c.name = name) ↔ j = i := by
      rw [← indexOf_iff hn, hix]
      simp [eq_comm]
    simp only [List.mem_append, List.mem_singleton, List.mem_cons, ← hj]
    grind

theorem convert_ok {libs : List (Lib κ)} {exporters : κ → Option String} (hc : Complete exporters libs) :
    ∀ {as : List (Lib κ)} {rows : List (List String)}, (∀ a ∈ as, a ∈ libs) →
      Rows exporters as rows → ∃ D, convert libs rows = .ok D ∧
        D.length = as.length ∧ ∀ i a, as[i]? = some a → (D.getD i []).Nodup ∧
          ∀ j, j ∈ D.getD i [] ↔ ∃ b, libs[j]? = some b ∧
            (b.name ∈ a.needed ∨ ∃ k ∈ a.imports, exporters k = some b.name)
  | [], _, _, .nil => ⟨[], rfl, rfl, by simp⟩
  | a :: as, row :: rows, hm, .cons h hs => by
    obtain ⟨r, h1, h2, h3⟩ := toIndexes_ok hc.unique (row := row) (acc := []) h.1 List.nodup_nil
      (fun n hn => by
        rcases (h.2 n).1 hn with k | ⟨k, -, k2⟩
        · exact hc.needed a (hm a (List.mem_cons_self ..)) n k
        · exact hc.exporters k n k2) (by simp)
    obtain ⟨D, k1, k2, k3⟩ := convert_ok hc (fun a ha => hm a (List.mem_cons_of_mem _ ha)) hs
    refine ⟨r :: D, ?_, by simp [k2], fun i b hb => ?_⟩
    · unfold convert
      rw [h1, k1]
    · cases i with
      | zero =>
        cases hb
        refine ⟨h2, fun j => ?_⟩
        show j ∈ r ↔ _
        rw [h3]
        simp only [List.not_mem_nil, false_or, h.2]
      | succ i => exact k3 i b hb

/-! ### Counting -/

theorem countP_lt {p q : α → Bool} : ∀ {l : List α}, (∀ a ∈ l, p a = true → q a = true) →
    (∃ a ∈ l, p a = false ∧ q a = true) → l.countP p < l.countP q
  | [], _, ⟨_, h, _⟩ => by cases h
  | x :: l, h, ⟨a, ha, h1, h2⟩ => by
    have hle : l.countP p ≤ l.countP q :=
      List.countP_mono_left fun a ha => h a (List.mem_cons_of_mem _ ha)
    rw [List.countP_cons, List.countP_cons]
    rcases List.mem_cons.1 ha with rfl | ha
    · rw [h1, h2]
      simp
      omega
    · have ih := countP_lt (fun a ha => h a (List.mem_cons_of_mem _ ha)) ⟨a, ha, h1, h2⟩
      cases hp : p x with
      | false => simp; split <;> omega
      | true => simp [h x (List.mem_cons_self ..) hp]; omega

/-- Pairs that are not yet dependencies. -/
def pairs (n : Nat) : List (Nat × Nat) := (List.range n).flatMap fun i => (List.range n).map (i, ·)

theorem mem_pairs {n i j : Nat} : (i, j) ∈ pairs n ↔ i < n ∧ j < n := by
  simp [pairs]

def missing (n : Nat) (D : Nat → List Nat) : Nat := (pairs n).countP fun p => p.2 ∉ D p.1

theorem mem_newDeps {D : Nat → List Nat} {i k : Nat} :
    k ∈ newDeps D i ↔ (∃ j ∈ D i, k ∈ D j) ∧ k ∉ D i := by
  unfold newDeps
  rw [mem_extend]
  simp

/-- The fixpoint loop ends with the transitive closure. -/
theorem closure_ok {n : Nat} {P : Nat → Nat → Prop} (hP : ∀ i j k, P i j → P j k → P i k) :
    ∀ {fuel : Nat} {D : Nat → List Nat}, missing n D < fuel → (∀ i j, j ∈ D i → i < n ∧ j < n) →
      (∀ i j, j ∈ D i → P i j) → ∃ D', closure n fuel D = some D' ∧
        (∀ i j, j ∈ D i → j ∈ D' i) ∧ (∀ i j, j ∈ D' i → i < n ∧ j < n) ∧
        (∀ i j, j ∈ D' i → P i j) ∧ ∀ i j k, j ∈ D' i → k ∈ D' j → k ∈ D' i
  | 0, _, h, _, _ => by omega
  | fuel + 1, D, h, hb, hd => by
    unfold closure
    split
    · next hall =>
      simp only [List.all_eq_true, List.mem_range, decide_eq_true_eq] at hall
      refine ⟨D, rfl, fun _ _ k => k, hb, hd, fun i j k h1 h2 => ?_⟩
      by_cases hk : k ∈ D i
      · exact hk
      · have := mem_newDeps.2 ⟨⟨j, h1, h2⟩, hk⟩
        rw [hall i (hb i j h1).1] at this
        cases this
    · next hall =>
      simp only [List.all_eq_true, List.mem_range, decide_eq_true_eq, Classical.not_forall] at hall
      obtain ⟨i, hi, hne⟩ := hall
      obtain ⟨k, hk⟩ := List.exists_mem_of_ne_nil _ hne
      obtain ⟨⟨j, h1, h2⟩, h3⟩ := mem_newDeps.1 hk
      have hmem : ∀ a b, b ∈ extend (D a) (newDeps D a) ↔ b ∈ D a ∨ ∃ c ∈ D a, b ∈ D c := by
        intro a b
        rw [mem_extend, mem_newDeps]
        grind
      obtain ⟨D', k1, k2, k3, k4, k5⟩ := closure_ok (n := n) hP (fuel := fuel)
        (D := fun i => extend (D i) (newDeps D i)) (by
          refine Nat.lt_of_lt_of_le (countP_lt ?_ ⟨(i, k), mem_pairs.2 ⟨hi, (hb j k h2).2⟩, ?_, ?_⟩)
            (Nat.le_of_lt_succ h)
          · rintro ⟨a, b⟩ - hab
            simp only [hmem, decide_eq_true_eq] at hab ⊢
            exact fun hh => hab (.inl hh)
          · simp only [hmem, decide_eq_false_iff_not, Classical.not_not]
            exact .inr ⟨j, h1, h2⟩
          · simpa using h3)
        (fun a b hab => by
          rcases (hmem a b).1 hab with k | ⟨c, k1, k2⟩
          · exact hb a b k
          · exact ⟨(hb a c k1).1, (hb c b k2).2⟩)
        (fun a b hab => by
          rcases (hmem a b).1 hab with k | ⟨c, k1, k2⟩
          · exact hd a b k
          · exact hP _ _ _ (hd a c k1) (hd c b k2))
      exact ⟨D', k1, fun a b hab => k2 a b ((hmem a b).2 (.inl hab)), k3, k4, k5⟩

/-! ### Sorting -/

theorem foldlM_ok {P : List Nat → Prop} {Q : Nat → List Nat → Prop}
    {f : List Nat → Nat → Option (List Nat)}
    (hQ : ∀ x s s', (∀ y ∈ s, y ∈ s') → Q x s → Q x s') :
    ∀ {l : List Nat} {s : List Nat}, (∀ x ∈ l, ∀ s, P s →
      ∃ s', f s x = some s' ∧ P s' ∧ (∀ y ∈ s, y ∈ s') ∧ Q x s') → P s →
      ∃ s', l.foldlM f s = some s' ∧ P s' ∧ (∀ y ∈ s, y ∈ s') ∧ ∀ x ∈ l, Q x s'
  | [], s, _, hs => ⟨s, rfl, hs, fun _ h => h, by simp⟩
  | x :: l, s, h, hs => by
    obtain ⟨s1, h1, h2, h3, h4⟩ := h x (List.mem_cons_self ..) s hs
    obtain ⟨s2, k1, k2, k3, k4⟩ := foldlM_ok (P := P) (f := f) hQ (l := l)
      (fun y hy => h y (List.mem_cons_of_mem _ hy)) h2
    refine ⟨s2, by rw [List.foldlM_cons, h1]; exact k1, k2, fun y hy => k3 y (h3 y hy), ?_⟩
    intro y hy
    rcases List.mem_cons.1 hy with rfl | hy
    · exact hQ _ _ _ k3 h4
    · exact k4 y hy

/-- A list as far as it is sorted. -/
structure Part (D : Nat → List Nat) (n : Nat) (s : List Nat) : Prop where
  nodup : s.Nodup
  lt : ∀ i ∈ s, i < n
  order : ∀ a i c, s = a ++ i :: c → ∀ j ∈ D i, i ∉ D j → j ∈ a

theorem part_insert {D : Nat → List Nat} {n x : Nat} {s : List Nat} (h : Part D n s) (hx : x < n)
    (hd : ∀ j ∈ D x, x ∉ D j → j ∈ s) : Part D n (insert x s) := by
  refine ⟨nodup_insert h.nodup, fun i hi => ?_, ?_⟩
  · rcases mem_insert.1 hi with rfl | hi
    · exact hx
    · exact h.lt i hi
  · unfold insert
    split
    · exact h.order
    · intro a i c he j hj hij
      rcases List.eq_nil_or_concat c with rfl | ⟨c', z, rfl⟩
      · obtain ⟨h1, h2⟩ := List.append_inj' he rfl
        cases h2
        rw [← h1]
        exact hd j hj hij
      · have he' : s ++ [x] = (a ++ i :: c') ++ [z] := by rw [he]; simp
        obtain ⟨h1, -⟩ := List.append_inj' he' rfl
        exact h.order a i c' h1 j hj hij

def down (D : Nat → List Nat) (n x : Nat) : Nat := (List.range n).countP fun y => y = x ∨ y ∈ D x

def rest (n : Nat) (s : List Nat) : Nat := (List.range n).countP fun y => y ∉ s

theorem count_le (n : Nat) (p : Nat → Bool) : (List.range n).countP p ≤ n := by
  have := List.countP_le_length (p := p) (l := List.range n)
  simpa using this

theorem rest_le {n : Nat} {s s' : List Nat} (h : ∀ y ∈ s, y ∈ s') : rest n s' ≤ rest n s :=
  List.countP_mono_left fun a _ ha => by
    simp only [decide_eq_true_eq] at ha ⊢
    exact fun k => ha (h a k)

theorem topoAdd_ok {D : Nat → List Nat} {n : Nat} (hb : ∀ i j, j ∈ D i → i < n ∧ j < n)
    (ht : ∀ i j k, j ∈ D i → k ∈ D j → k ∈ D i) : ∀ {fuel : Nat} {s : List Nat} {x : Nat},
    x < n → Part D n s →
    (x ∉ s ∧ down D n x * (n + 1) + rest n s < fuel ∨ (n + 1) * (n + 1) < fuel) →
    ∃ s', topoAdd D fuel s x = some s' ∧ Part D n s' ∧ (∀ y ∈ s, y ∈ s') ∧ x ∈ s'
  | 0, _, _, _, _, h => by omega
  | fuel + 1, s, x, hx, hs, hf => by
    have hdown : down D n x ≤ n := count_le _ _
    have hrest : ∀ s, rest n s ≤ n := fun s => count_le _ _
    obtain ⟨s1, h1, h2, h3, h4⟩ := foldlM_ok (P := fun t => Part D n t ∧ ∀ y ∈ s, y ∈ t)
      (Q := fun dep t => x ∉ D dep → dep ∈ t) (l := D x) (s := s)
      (f := fun s dep => if dep ∈ s ∨ x ∈ D dep then some s else topoAdd D fuel s dep)
      (fun _ _ _ hm hq hh => hm _ (hq hh)) (fun dep hdep t ht' => by
        by_cases hc : dep ∈ t ∨ x ∈ D dep
        · rw [if_pos hc]
          refine ⟨t, rfl, ht', fun _ h => h, fun hn => ?_⟩
          rcases hc with hc | hc
          · exact hc
          · exact absurd hc hn
        · rw [if_neg hc]
          have hc1 : dep ∉ t := fun k => hc (.inl k)
          have hc2 : x ∉ D dep := fun k => hc (.inr k)
          have hlt : down D n dep < down D n x := by
            refine countP_lt (fun a _ ha => ?_) ⟨x, List.mem_range.2 hx, ?_, by simp⟩
            · simp only [decide_eq_true_eq] at ha ⊢
              rcases ha with rfl | ha
              · exact .inr hdep
              · exact .inr (ht x dep a hdep ha)
            · simp only [decide_eq_false_iff_not, not_or]
              refine ⟨?_, hc2⟩
              rintro rfl
              exact hc2 hdep
          have hm : down D n dep * (n + 1) + rest n t < fuel := by
            have h1 := hrest t
            have h2 : (down D n dep + 1) * (n + 1) ≤ down D n x * (n + 1) := Nat.mul_le_mul_right _ hlt
            have h3 : down D n x * (n + 1) ≤ n * (n + 1) := Nat.mul_le_mul_right _ hdown
            rw [Nat.add_mul] at h2
            rcases hf with ⟨-, hf⟩ | hf
            · omega
            · rw [Nat.add_mul n 1 (n + 1)] at hf
              omega
          obtain ⟨t', k1, k2, k3, k4⟩ := topoAdd_ok hb ht (hb _ _ hdep).2 ht'.1 (.inl ⟨hc1, hm⟩)
          exact ⟨t', k1, ⟨k2, fun y hy => k3 y (ht'.2 y hy)⟩, k3, fun _ => k4⟩)
      ⟨hs, fun _ h => h⟩
    have hp := part_insert h2.1 hx (fun j hj hn => h4 j hj hn)
    obtain ⟨s2, k1, k2, k3, -⟩ := foldlM_ok
      (P := fun t => Part D n t ∧ ∀ y, y = x ∨ y ∈ s → y ∈ t)
      (Q := fun _ _ => True) (l := D x) (s := insert x s1)
      (f := fun s dep => if dep ∉ s ∧ x ∈ D dep then topoAdd D fuel s dep else some s)
      (fun _ _ _ _ _ => trivial) (fun dep hdep t ht' => by
        by_cases hc : dep ∉ t ∧ x ∈ D dep
        · rw [if_pos hc]
          have heq : down D n dep ≤ down D n x := by
            refine List.countP_mono_left fun a _ ha => ?_
            simp only [decide_eq_true_eq] at ha ⊢
            rcases ha with rfl | ha
            · exact .inr hdep
            · exact .inr (ht x dep a hdep ha)
          have hmul : down D n dep * (n + 1) ≤ down D n x * (n + 1) := Nat.mul_le_mul_right _ heq
          have hm : down D n dep * (n + 1) + rest n t < fuel := by
            rcases hf with ⟨hxs, hf⟩ | hf
            · have hlt : rest n t < rest n s := by
                refine countP_lt (fun a _ ha => ?_) ⟨x, List.mem_range.2 hx, ?_, ?_⟩
                · simp only [decide_eq_true_eq] at ha ⊢
                  exact fun k => ha (ht'.2 a (.inr k))
                · simpa using ht'.2 x (.inl rfl)
                · simpa using hxs
              omega
            · have h3 : down D n x * (n + 1) ≤ n * (n + 1) := Nat.mul_le_mul_right _ hdown
              have h1 := hrest t
              rw [Nat.add_mul n 1 (n + 1)] at hf
              omega
          obtain ⟨t', k1, k2, k3, -⟩ := topoAdd_ok hb ht (hb _ _ hdep).2 ht'.1 (.inl ⟨hc.1, hm⟩)
          exact ⟨t', k1, ⟨k2, fun y hy => k3 y (ht'.2 y hy)⟩, k3, trivial⟩
        · rw [if_neg hc]
          exact ⟨t, rfl, ht', fun _ h => h, trivial⟩)
      ⟨hp, fun y hy => mem_insert.2 (hy.imp id (h3 y))⟩
    refine ⟨s2, ?_, k2.1, fun y hy => k2.2 y (.inr hy), k2.2 x (.inl rfl)⟩
    unfold topoAdd
    rw [h1]
    exact k1

theorem topoSort_ok {D : Nat → List Nat} {n fuel : Nat} (hb : ∀ i j, j ∈ D i → i < n ∧ j < n)
    (ht : ∀ i j k, j ∈ D i → k ∈ D j → k ∈ D i) (hf : (n + 1) * (n + 1) < fuel) :
    ∃ l, topoSort D fuel n = some l ∧ Part D n l ∧ ∀ i, i ∈ l ↔ i < n := by
  obtain ⟨l, h1, h2, -, h4⟩ := foldlM_ok (P := Part D n) (Q := fun x s => x ∈ s)
    (f := topoAdd D fuel) (l := List.range n) (s := []) (fun _ _ _ hm hq => hm _ hq)
    (fun x hx s hs => topoAdd_ok hb ht (List.mem_range.1 hx) hs (.inr hf))
    ⟨List.nodup_nil, by simp, by simp⟩
  exact ⟨l, h1, h2, fun i => ⟨h2.lt i, fun hi => h4 i (List.mem_range.2 hi)⟩⟩

end Verif.Linking
