import Verif.Wat.Chars
/-
The lexer on bytes computes what the lexer on characters computes.
-/
namespace Verif.Wat

open Verif.Std

theorem char_ext {c d : Char} (h : c.toNat = d.toNat) : c = d := by
  apply Char.ext
  apply UInt32.toNat_inj.mp
  exact h

/-- The bytes of a character. -/
structure HeadByte (c : Char) (b : UInt8) (bs : List UInt8) : Prop where
  eq : String.utf8EncodeChar c = b :: bs
  ascii : c.toNat < 128 → b.toNat = c.toNat ∧ bs = []
  other : 128 ≤ c.toNat → 0xc0 ≤ b.toNat ∧ ∀ x ∈ bs, 0x80 ≤ x.toNat ∧ x.toNat < 0xc0

theorem headByte (c : Char) : ∃ b bs, HeadByte c b bs := by
  by_cases h : c.toNat < 128
  · refine ⟨_, _, encode_ascii h, fun _ => ⟨?_, rfl⟩, fun h' => absurd h (by omega)⟩
    simp only [UInt8.toNat_ofNat']; omega
  · obtain ⟨b, bs, h1, h2, h3⟩ := encode_other (c := c) (by omega)
    exact ⟨b, bs, h1, fun h' => absurd h' h, fun _ => ⟨h2, h3⟩⟩

theorem HeadByte.eq_iff {c : Char} {b : UInt8} {bs : List UInt8} (h : HeadByte c b bs) (k : UInt8)
    (d : Char) (hk : k.toNat = d.toNat) (hd : d.toNat < 128) : b = k ↔ c = d := by
  constructor
  · intro e
    subst e
    apply char_ext
    by_cases hc : c.toNat < 128
    · rw [← (h.ascii hc).1, hk]
    · have := (h.other (by omega)).1; omega
  · intro e
    subst e
    apply UInt8.toNat_inj.mp
    rw [(h.ascii hd).1, hk]

theorem isIdCode_lt {n : Nat} (h : isIdCode n = true) : n < 128 := by
  simp only [isIdCode, Bool.or_eq_true, Bool.and_eq_true, decide_eq_true_eq, List.contains_eq_mem,
    List.mem_cons, List.not_mem_nil, or_false] at h
  omega

theorem isWsCode_lt {n : Nat} (h : isWsCode n = true) : n < 128 := by
  simp only [isWsCode, Bool.or_eq_true, beq_iff_eq] at h
  omega

/-- A class of ASCII characters. -/
theorem HeadByte.class {c : Char} {b : UInt8} {bs : List UInt8} (h : HeadByte c b bs)
    (f : Nat → Bool) (hf : ∀ n, f n = true → n < 128) : f b.toNat = f c.toNat := by
  by_cases hc : c.toNat < 128
  · rw [(h.ascii hc).1]
  · have h1 := (h.other (by omega)).1
    rw [Bool.eq_iff_iff]
    constructor
    · intro h2; have := hf _ h2; omega
    · intro h2; have := hf _ h2; omega

/-! ## Positions -/

theorem utf8_drop (pre r : Text) : (utf8 (pre ++ r)).drop (strLen pre) = utf8 r := by
  rw [utf8_append, strLen, List.drop_left]

theorem utf8_get (pre r : Text) : (utf8 (pre ++ r))[strLen pre]? = (utf8 r)[0]? := by
  rw [← utf8_drop pre r, List.getElem?_drop, Nat.add_zero]

theorem slice_append (pre t r : Text) : slice (pre ++ t ++ r) (strLen pre) (strLen (pre ++ t)) = some t := by
  unfold slice
  rw [List.append_assoc, sliceFrom_append]
  simp only
  rw [if_pos (by rw [strLen_append]; omega), strLen_append,
    show strLen pre + strLen t - strLen pre = strLen t by omega, sliceTo_append]

theorem taken_append (t r : Text) : taken (t ++ r) r = t := by
  simp [taken]

theorem taken_of_suffix {s r : Text} (h : r <:+ s) : taken s r ++ r = s := by
  obtain ⟨t, rfl⟩ := h
  rw [taken_append]

/-! ## Comments -/

theorem blockLoop_skip (level : Nat) (bs t : List UInt8) (h : ∀ x ∈ bs, 0x80 ≤ x.toNat) :
    blockLoop level (bs ++ t) = blockLoop level t := by
  induction bs with
  | nil => rfl
  | cons x bs ih =>
    have hx := h x (by simp)
    rw [← ih (fun y hy => h y (by simp [hy]))]
    rw [List.cons_append]
    cases hbt : bs ++ t with
    | nil => rfl
    | cons y r =>
      rw [blockLoop, if_neg, if_neg]
      · rintro ⟨rfl, -⟩; simp at hx
      · rintro ⟨rfl, -⟩; simp at hx

theorem blockLoop_one (level : Nat) (b : UInt8) (r : List UInt8) (hb : b ≠ 0x28) (hb' : b ≠ 0x3b) :
    blockLoop level (b :: r) = blockLoop level r := by
  cases r with
  | nil => rfl
  | cons y r => rw [blockLoop, if_neg (by simp_all), if_neg (by simp_all)]

theorem blockChars_one (level : Nat) (c : Char) (r : Text) (hb : c ≠ '(') (hb' : c ≠ ';') :
    blockChars level (c :: r) = blockChars level r := by
  cases r with
  | nil => rfl
  | cons y r => rw [blockChars, if_neg (by simp_all), if_neg (by simp_all)]

theorem encode_lparen : String.utf8EncodeChar '(' = [0x28] := by decide
theorem encode_semi : String.utf8EncodeChar ';' = [0x3b] := by decide
theorem encode_rparen : String.utf8EncodeChar ')' = [0x29] := by decide

theorem blockLoop_eq : ∀ (n : Nat) (s : Text), s.length ≤ n → ∀ level,
    blockLoop level (utf8 s) = (blockChars level s).map utf8 := by
  intro n
  induction n with
  | zero =>
    intro s hs level
    obtain rfl : s = [] := List.length_eq_zero_iff.mp (by omega)
    rfl
  | succ n ih =>
    intro s hs level
    cases s with
    | nil => rfl
    | cons c s =>
      simp only [List.length_cons] at hs
      obtain ⟨b, bs, hb⟩ := headByte c
      by_cases h1 : c = '('
      · subst h1
        rw [utf8_cons, encode_lparen]
        cases s with
        | nil => rfl
        | cons d s =>
          obtain ⟨b2, bs2, hb2⟩ := headByte d
          have hd := hb2.eq_iff 0x3b ';' rfl (by decide)
          by_cases h2 : d = ';'
          · subst h2
            rw [utf8_cons, encode_semi]
            simp only [List.singleton_append, blockLoop, blockChars, and_self, if_true]
            exact ih s (by simp only [List.length_cons] at hs; omega) _
          · have h3 : b2 ≠ 0x3b := fun e => h2 (hd.mp e)
            have h4 := ih (d :: s) (by omega) level
            rw [blockChars, if_neg (by simp_all), if_neg (by rintro ⟨h, -⟩; exact absurd h (by decide)), ← h4]
            rw [utf8_cons, hb2.eq]
            simp only [List.cons_append, List.nil_append, blockLoop]
            rw [if_neg (by simp_all), if_neg (by rintro ⟨h, -⟩; exact absurd h (by decide))]
      · by_cases h5 : c = ';'
        · subst h5
          rw [utf8_cons, encode_semi]
          cases s with
          | nil => rfl
          | cons d s =>
            obtain ⟨b2, bs2, hb2⟩ := headByte d
            have hd := hb2.eq_iff 0x29 ')' rfl (by decide)
            by_cases h2 : d = ')'
            · subst h2
              rw [utf8_cons, encode_rparen]
              rw [List.singleton_append, List.singleton_append, blockLoop, blockChars,
                if_neg (c := (0x3b : UInt8) = 0x28 ∧ (0x29 : UInt8) = 0x3b) (by decide),
                if_neg (c := ';' = '(' ∧ ')' = ';') (by decide), 
                if_pos (c := (0x3b : UInt8) = 0x3b ∧ (0x29 : UInt8) = 0x29) ⟨rfl, rfl⟩,
                if_pos (c := ';' = ';' ∧ ')' = ')') ⟨rfl, rfl⟩]
              by_cases hl : level = 1
              · rw [if_pos hl, if_pos hl]; rfl
              · rw [if_neg hl, if_neg hl]
                exact ih s (by simp only [List.length_cons] at hs; omega) _
            · have h3 : b2 ≠ 0x29 := fun e => h2 (hd.mp e)
              have h4 := ih (d :: s) (by omega) level
              rw [blockChars, if_neg (by rintro ⟨h, -⟩; exact absurd h (by decide)), if_neg (by simp_all), ← h4]
              rw [utf8_cons, hb2.eq]
              simp only [List.cons_append, List.nil_append, blockLoop]
              rw [if_neg (by rintro ⟨h, -⟩; exact absurd h (by decide)), if_neg (by simp_all)]
        · rw [blockChars_one _ _ _ h1 h5, ← ih s (by omega) level, utf8_cons]
          by_cases hc : c.toNat < 128
          · obtain ⟨h6, rfl⟩ := hb.ascii hc
            rw [hb.eq, List.singleton_append]
            apply blockLoop_one
            · intro e; exact h1 ((hb.eq_iff 0x28 '(' rfl (by decide)).mp e)
            · intro e; exact h5 ((hb.eq_iff 0x3b ';' rfl (by decide)).mp e)
          · apply blockLoop_skip
            obtain ⟨h6, h7⟩ := hb.other (by omega)
            rw [hb.eq]
            intro x hx
            rcases List.mem_cons.mp hx with rfl | hx
            · omega
            · exact (h7 x hx).1

theorem blockChars_suffix : ∀ (n : Nat) (s : Text), s.length ≤ n → ∀ level r,
    blockChars level s = some r → r <:+ s := by
  intro n
  induction n with
  | zero =>
    intro s hs level r h
    obtain rfl : s = [] := List.length_eq_zero_iff.mp (by omega)
    cases h
  | succ n ih =>
    intro s hs level r h
    match s, hs, h with
    | [], _, h => cases h
    | [_], _, h => cases h
    | a :: b :: s, hs, h =>
      simp only [List.length_cons] at hs
      rw [blockChars] at h
      have h2 : s <:+ a :: b :: s := ⟨[a, b], rfl⟩
      split at h
      · exact (ih s (by omega) _ _ h).trans h2
      · split at h
        · split at h
          · cases h; exact h2
          · exact (ih s (by omega) _ _ h).trans h2
        · exact (ih (b :: s) (by simp only [List.length_cons]; omega) _ _ h).trans (List.suffix_cons _ _)

theorem confusing_lead : ∀ n ∈ [0x202a, 0x202b, 0x202d, 0x202e, 0x2066, 0x2067, 0x2068, 0x206c, 0x2069],
    (String.utf8EncodeChar (Char.ofNat n)).head? = some 0xe2 := by decide

theorem isConfusing_head {c : Char} (h : isConfusing c = true) :
    (String.utf8EncodeChar c).head? = some 0xe2 := by
  rw [isConfusing, List.contains_eq_mem, decide_eq_true_eq] at h
  have := confusing_lead _ h
  rwa [Char.ofNat_toNat] at this

theorem confusingLoop_skip (start : Nat) (comment : Text) (bs t : List UInt8)
    (h : ∀ x ∈ bs, x ≠ 0xe2) : ∀ pos,
    confusingLoop start comment pos (bs ++ t) = confusingLoop start comment (pos + bs.length) t := by
  induction bs with
  | nil => intro pos; rfl
  | cons b bs ih =>
    intro pos
    rw [List.cons_append, confusingLoop, if_neg (h b (by simp)), ih (fun x hx => h x (by simp [hx]))]
    rw [List.length_cons, Nat.add_assoc, Nat.add_comm 1]

theorem confusingLoop_eq (start : Nat) (s : Text) : ∀ pre,
    confusingLoop start (pre ++ s) (strLen pre) (utf8 s) =
      match firstConfusing s with
      | none => .ok ()
      | some (c, t) => .err (start + strLen (pre ++ s) - strLen t) (.confusingUnicode c) := by
  induction s with
  | nil => intro pre; rfl
  | cons c s ih =>
    intro pre
    obtain ⟨b, bs, hb⟩ := headByte c
    have hskip : ∀ x ∈ bs, x ≠ 0xe2 := by
      intro x hx e
      subst e
      by_cases hc : c.toNat < 128
      · rw [(hb.ascii hc).2] at hx; cases hx
      · have := ((hb.other (by omega)).2 _ hx).2; simp at this
    have hnext := ih (pre ++ [c])
    have hlen : strLen (pre ++ [c]) = strLen pre + 1 + bs.length := by
      rw [strLen_append, strLen_cons, hb.eq]; simp [strLen]; omega
    rw [List.append_assoc, List.singleton_append, hlen] at hnext
    rw [utf8_cons, hb.eq, List.cons_append, confusingLoop, sliceFrom_append]
    simp only [firstConfusing]
    by_cases hcf : isConfusing c
    · have h := isConfusing_head hcf
      rw [hb.eq] at h
      simp only [List.head?_cons, Option.some.injEq] at h
      rw [if_pos h, if_pos hcf, if_pos hcf]
      simp only [Res.err.injEq, and_true]
      rw [strLen_append]; omega
    · rw [if_neg hcf, if_neg hcf]
      rw [confusingLoop_skip _ _ _ _ hskip, hnext, ite_self]

theorem firstConfusing_suffix {s : Text} : ∀ {c t}, firstConfusing s = some (c, t) → t <:+ s := by
  induction s with
  | nil => intro c t h; cases h
  | cons d s ih =>
    intro c t h
    rw [firstConfusing] at h
    split at h
    · cases h; exact List.suffix_refl _
    · exact (ih h).trans (List.suffix_cons _ _)

/-! ## Runs of bytes -/

theorem takeWhile_utf8 (f : Nat → Bool) (g : Char → Bool) (s : Text)
    (h : ∀ c ∈ s, ∀ x ∈ String.utf8EncodeChar c, f x.toNat = g c) :
    (utf8 s).takeWhile (fun b => f b.toNat) = utf8 (s.takeWhile g) := by
  induction s with
  | nil => rfl
  | cons c s ih =>
    obtain ⟨b, bs, hb⟩ := headByte c
    have hc := h c (by simp)
    rw [utf8_cons, List.takeWhile_cons]
    by_cases hg : g c
    · rw [if_pos hg, utf8_cons, List.takeWhile_append_of_pos (fun x hx => by rw [hc x hx]; exact hg)]
      rw [ih (fun d hd => h d (by simp [hd]))]
    · rw [if_neg hg, hb.eq, List.cons_append, List.takeWhile_cons, if_neg]
      · rfl
      · rw [hc b (by rw [hb.eq]; simp)]; exact hg

theorem ws_run (s : Text) : (utf8 s).takeWhile (fun b => isWsCode b.toNat) = utf8 (s.takeWhile wsChar) := by
  apply takeWhile_utf8
  intro c hc x hx
  obtain ⟨b, bs, hb⟩ := headByte c
  rw [hb.eq] at hx
  by_cases h : c.toNat < 128
  · obtain ⟨h1, rfl⟩ := hb.ascii h
    rw [List.mem_singleton] at hx
    subst hx
    rw [h1]; rfl
  · obtain ⟨h1, h2⟩ := hb.other (by omega)
    have hx' : 128 ≤ x.toNat := by
      rcases List.mem_cons.mp hx with rfl | hx
      · omega
      · exact (h2 x hx).1
    have e1 : isWsCode x.toNat = false := by
      cases e : isWsCode x.toNat with
      | false => rfl
      | true => exact absurd (isWsCode_lt e) (by omega)
    have e2 : isWsCode c.toNat = false := by
      cases e : isWsCode c.toNat with
      | false => rfl
      | true => exact absurd (isWsCode_lt e) (by omega)
    rw [e1, wsChar, e2]

theorem nl_run (s : Text) :
    (utf8 s).takeWhile (fun b => b != 0x0a && b != 0x0d) = utf8 (s.takeWhile notNl) := by
  have h0 : (fun b : UInt8 => b != 0x0a && b != 0x0d)
      = (fun b : UInt8 => (fun n : Nat => n != 0x0a && n != 0x0d) b.toNat) := by
    funext b
    have e : ∀ k : UInt8, (b == k) = (b.toNat == k.toNat) := by
      intro k
      rw [Bool.eq_iff_iff]
      simp only [beq_iff_eq]
      exact UInt8.toNat_inj.symm
    simp only [bne]
    rw [e, e]
    rfl
  rw [h0]
  apply takeWhile_utf8 (fun n : Nat => n != 0x0a && n != 0x0d)
  intro c hc x hx
  obtain ⟨b, bs, hb⟩ := headByte c
  rw [hb.eq] at hx
  have en : ∀ d : Char, (c == d) = (c.toNat == d.toNat) := by
    intro d
    rw [Bool.eq_iff_iff]
    simp only [beq_iff_eq]
    exact ⟨fun e => by rw [e], char_ext⟩
  simp only [notNl, bne]
  rw [en, en]
  by_cases h : c.toNat < 128
  · obtain ⟨h1, rfl⟩ := hb.ascii h
    rw [List.mem_singleton] at hx
    subst hx
    rw [h1]; rfl
  · obtain ⟨h1, h2⟩ := hb.other (by omega)
    have hx' : 128 ≤ x.toNat := by
      rcases List.mem_cons.mp hx with rfl | hx
      · omega
      · exact (h2 x hx).1
    have e : ∀ k, k < 128 → (x.toNat == k) = (c.toNat == k) := by
      intro k hk
      rw [Bool.eq_iff_iff]
      simp only [beq_iff_eq]
      omega
    rw [e _ (by decide), e _ (by decide)]
    rfl

end Verif.Wat
