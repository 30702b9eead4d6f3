import Verif.Wat.Print
/-
The tokens of a text, one after the other.
-/
namespace Verif.Wat

open Verif.Std Spec

theorem reservedKind_some {n m : Nat} (h : 0 < n + m) (t : Text) : reservedKind n m t ≠ none := by
  unfold reservedKind
  rw [if_neg (by omega)]
  split
  · simp
  · split
    · simp
    · split
      · simp
      · split <;> simp

/-- Only the empty text has no token; errors are at the start of a suffix. -/
def CTok.Rest (s : Text) : CTok → Prop
  | .eof => s = []
  | .tok _ _ => True
  | .err r _ => r <:+ s

theorem lexChars_rest (allow : Bool) (s : Text) : (lexChars allow s).Rest s := by
  have hcomment : ∀ k t r, t ++ r = s → (commentChars allow k t r).Rest s := by
    intro k t r e
    unfold commentChars
    split
    · trivial
    · cases hf : firstConfusing t with
      | none => trivial
      | some p =>
        obtain ⟨c, t'⟩ := p
        have := firstConfusing_suffix hf
        obtain ⟨u, hu⟩ := this
        exact ⟨u, by rw [← e, ← hu]; simp⟩
  unfold lexChars
  cases s with
  | nil => rfl
  | cons c r =>
    simp only
    split
    · cases r with
      | nil => trivial
      | cons d r' =>
        simp only
        split
        · cases hb : blockChars 1 r' with
          | none => exact List.suffix_refl _
          | some rest =>
            have h1 := blockChars_suffix _ r' (Nat.le_refl _) 1 rest hb
            have h2 : rest <:+ c :: d :: r' := h1.trans ((List.suffix_cons _ _).trans (List.suffix_cons _ _))
            exact hcomment _ _ _ (taken_of_suffix h2)
        · trivial
    · split
      · trivial
      · split
        · trivial
        · split
          · next h5 =>
            have hc : isIdCode c.toNat = true ∨ c = '"' := by simpa using h5
            have hsuf := resChars_suffix allow ((c :: r).length + 1) (c :: r) 0 0
            cases hres : resChars allow ((c :: r).length + 1) 0 0 (c :: r) with
            | error p => rw [hres] at hsuf; exact hsuf
            | ok p =>
              obtain ⟨n, m, rest⟩ := p
              have h0 := (resChars_first hc hres).1
              simp only
              cases hk : reservedKind n m (taken (c :: r) rest) with
              | none => exact absurd hk (reservedKind_some h0 _)
              | some k => trivial
          · split
            · cases r with
              | nil => trivial
              | cons d r' =>
                simp only
                split
                · exact hcomment _ _ _ List.takeWhile_append_dropWhile
                · trivial
            · split
              · trivial
              · exact List.suffix_refl _

/-- The three outcomes of `Lexer::parse`. -/
theorem parse_cases (L : Lexer) (pre s : Text) (h : L.input = pre ++ s) (hlen : strLen L.input < 2 ^ 32) :
    (s = [] ∧ parse L (strLen pre) = .ok (none, strLen pre)) ∨
    (∃ k t rest, s = t ++ rest ∧ t ≠ [] ∧ Tok false L.allowConfusing k t rest ∧
      parse L (strLen pre) = .ok (some ⟨k, strLen pre, strLen t⟩, strLen (pre ++ t))) ∨
    (∃ mid rest e, s = mid ++ rest ∧ parse L (strLen pre) = .err (strLen (pre ++ mid)) e) := by
  have hp := parseKind_eq L pre s h
  have hr := lexChars_rest L.allowConfusing s
  have htot : strLen L.input = strLen pre + strLen s := by rw [h, strLen_append]
  cases hl : lexChars L.allowConfusing s with
  | eof =>
    rw [hl] at hr hp
    refine .inl ⟨hr, ?_⟩
    simp only [parse, hp, kindOut]
  | tok k rest =>
    obtain ⟨t, hs, hne, htok⟩ := lex_sound hl
    rw [hl] at hp
    refine .inr (.inl ⟨k, t, rest, hs, hne, htok, ?_⟩)
    simp only [parse, hp, kindOut]
    have e : strLen L.input - strLen rest = strLen (pre ++ t) := by
      rw [htot, hs]; simp only [strLen_append]; omega
    have e2 : strLen (pre ++ t) - strLen pre = strLen t := by
      simp only [strLen_append]; omega
    have e3 : strLen t < 2 ^ 32 := by
      rw [hs, strLen_append] at htot; omega
    rw [e, e2, if_pos e3]
  | err r e =>
    rw [hl] at hr hp
    obtain ⟨mid, hmid⟩ := hr
    refine .inr (.inr ⟨mid, r, e, hmid.symm, ?_⟩)
    simp only [parse, hp, kindOut]
    have e : strLen L.input - strLen r = strLen (pre ++ mid) := by
      rw [htot, ← hmid]; simp only [strLen_append]; omega
    rw [e]

theorem iterFrom_spec (L : Lexer) (hlen : strLen L.input < 2 ^ 32) : ∀ fuel pre s, L.input = pre ++ s →
    strLen s < fuel →
    (∃ ts, iterFrom L fuel (strLen pre) = .done ts ∧ Tiles (strLen pre) s ts) ∨
    (∃ ts e u mid rest, iterFrom L fuel (strLen pre) = .failed ts (strLen (pre ++ u ++ mid)) e ∧
      s = u ++ mid ++ rest ∧ Tiles (strLen pre) u ts) := by
  intro fuel
  induction fuel with
  | zero => intro pre s _ h; omega
  | succ fuel ih =>
    intro pre s hin hf
    simp only [iterFrom]
    rcases parse_cases L pre s hin hlen with ⟨rfl, hp⟩ | ⟨k, t, rest, hs, hne, -, hp⟩ | ⟨mid, rest, e, hs, hp⟩
    · rw [hp]
      exact .inl ⟨[], rfl, .nil⟩
    · rw [hp]
      simp only
      have hpos := strLen_pos hne
      have hlt : strLen rest < fuel := by rw [hs, strLen_append] at hf; omega
      rcases ih (pre ++ t) rest (by rw [hin, hs, List.append_assoc]) hlt with ⟨ts, h1, h2⟩ | ⟨ts, e, u, mid, r, h1, h2, h3⟩
      · refine .inl ⟨⟨k, strLen pre, strLen t⟩ :: ts, by rw [h1]; rfl, ?_⟩
        rw [hs]
        rw [strLen_append] at h2
        exact .cons hne h2
      · refine .inr ⟨⟨k, strLen pre, strLen t⟩ :: ts, e, t ++ u, mid, r, ?_, ?_, ?_⟩
        · rw [h1]
          simp only [Items.cons, List.append_assoc]
        · rw [hs, h2]; simp
        · rw [strLen_append] at h3
          exact .cons hne h3
    · rw [hp]
      refine .inr ⟨[], e, [], mid, rest, ?_, by simpa using hs, .nil⟩
      simp

end Verif.Wat
