import Verif.Wat.Spec
import Verif.Wat.Chars
/-
String literals: the reader accepts the grammar and yields its bytes.
-/
namespace Verif.Wat

open Verif.Std Spec

/-! ## Digits -/

theorem digit_cases {c : Char} (h : isHexDigit c = true) :
    (0x30 ≤ c.toNat ∧ c.toNat ≤ 0x39) ∨ (0x41 ≤ c.toNat ∧ c.toNat ≤ 0x46)
      ∨ (0x61 ≤ c.toNat ∧ c.toNat ≤ 0x66) := by
  simp only [isHexDigit, isDigit, Bool.or_eq_true, Bool.and_eq_true, decide_eq_true_eq] at h
  omega

theorem le_iff_toNat (c d : Char) : c ≤ d ↔ c.toNat ≤ d.toNat := Iff.rfl

theorem digitVal_eq (c : Char) : digitVal c =
    if 0x30 ≤ c.toNat ∧ c.toNat ≤ 0x39 then some (c.toNat - 0x30)
    else if 0x61 ≤ c.toNat ∧ c.toNat ≤ 0x7a then some (c.toNat - 0x61 + 10)
    else if 0x41 ≤ c.toNat ∧ c.toNat ≤ 0x5a then some (c.toNat - 0x41 + 10)
    else none := rfl

theorem toDigit_hex (c : Char) : toDigit 16 c = if isHexDigit c then some (toHex c) else none := by
  have hh : isHexDigit c = true ↔ (0x30 ≤ c.toNat ∧ c.toNat ≤ 0x39) ∨ (0x41 ≤ c.toNat ∧ c.toNat ≤ 0x46)
      ∨ (0x61 ≤ c.toNat ∧ c.toNat ≤ 0x66) := by
    simp only [isHexDigit, isDigit, Bool.or_eq_true, Bool.and_eq_true, decide_eq_true_eq]
    omega
  unfold toDigit
  rw [digitVal_eq]
  simp only [hh, toHex]
  by_cases h1 : 0x30 ≤ c.toNat ∧ c.toNat ≤ 0x39
  · rw [if_pos h1, if_pos (Or.inl h1), if_neg (by omega), if_neg (by omega)]
    simp only [Option.filter_some, decide_eq_true_eq]
    rw [if_pos (by omega)]
  · rw [if_neg h1]
    by_cases h2 : 0x61 ≤ c.toNat ∧ c.toNat ≤ 0x7a
    · rw [if_pos h2]
      simp only [Option.filter_some, decide_eq_true_eq]
      by_cases h3 : c.toNat ≤ 0x66
      · rw [if_pos (by omega), if_pos (by omega), if_pos (by omega)]
      · rw [if_neg (by omega), if_neg (by omega)]
    · rw [if_neg h2]
      by_cases h3 : 0x41 ≤ c.toNat ∧ c.toNat ≤ 0x5a
      · rw [if_pos h3]
        simp only [Option.filter_some, decide_eq_true_eq]
        by_cases h4 : c.toNat ≤ 0x46
        · rw [if_pos (by omega), if_pos (by omega), if_neg (by omega), if_pos (by omega)]
        · rw [if_neg (by omega), if_neg (by omega)]
      · rw [if_neg h3, if_neg (by omega)]; rfl

theorem toDigit_dec (c : Char) : toDigit 10 c = if isDigit c then some (toHex c) else none := by
  have hh : isDigit c = true ↔ (0x30 ≤ c.toNat ∧ c.toNat ≤ 0x39) := by
    simp only [isDigit, Bool.and_eq_true, decide_eq_true_eq]
  unfold toDigit
  rw [digitVal_eq]
  simp only [hh, toHex]
  by_cases h1 : 0x30 ≤ c.toNat ∧ c.toNat ≤ 0x39
  · rw [if_pos h1, if_pos h1, if_neg (by omega), if_neg (by omega)]
    simp only [Option.filter_some, decide_eq_true_eq]
    rw [if_pos (by omega)]
  · rw [if_neg h1, if_neg h1]
    split
    · simp only [Option.filter_some, decide_eq_true_eq]; rw [if_neg (by omega)]
    · split
      · simp only [Option.filter_some, decide_eq_true_eq]; rw [if_neg (by omega)]
      · rfl

theorem hex_of_toDigit {c : Char} {d : Nat} (h : toDigit 16 c = some d) :
    isHexDigit c = true ∧ toHex c = d := by
  rw [toDigit_hex] at h
  split at h
  · cases h; exact ⟨by assumption, rfl⟩
  · cases h

theorem toDigit_of_hex {c : Char} (h : isHexDigit c = true) : toDigit 16 c = some (toHex c) := by
  rw [toDigit_hex, if_pos h]

/-! ## `\u{…}` -/

theorem hexDigit_ok {c : Char} {d : Nat} (h : toDigit 16 c = some d) (s : Text) :
    hexDigit (c :: s) = (.ok d, s) := by
  obtain ⟨h1, h2⟩ := hex_of_toDigit h
  rw [hexDigit, if_pos h1, h2]

theorem hexLoop_underscores (u s : Text) (hu : ∀ x ∈ u, x = '_') : ∀ n l,
    hexLoop n l (u ++ s) = hexLoop n (l || !u.isEmpty) s := by
  induction u with
  | nil => intro n l; simp
  | cons x u ih =>
    intro n l
    rw [List.cons_append, hexLoop, if_pos (hu x (by simp)), ih (fun y hy => hu y (by simp [hy]))]
    simp

theorem underscore_not_hex : isHexDigit '_' = false := by decide

theorem toDigit_underscore (base : Nat) : toDigit base '_' = none := by
  have : digitVal '_' = none := by decide
  rw [toDigit, this]; rfl

theorem dropUnderscores_all {u : Text} (hu : ∀ x ∈ u, x = '_') : dropUnderscores u = [] := by
  rw [dropUnderscores, List.filter_eq_nil_iff]
  intro x hx
  simp [hu x hx]

theorem dropUnderscores_append (s t : Text) :
    dropUnderscores (s ++ t) = dropUnderscores s ++ dropUnderscores t := by
  simp [dropUnderscores]

theorem dropUnderscores_digit {base : Nat} {c : Char} {d : Nat} (h : toDigit base c = some d) :
    dropUnderscores [c] = [c] := by
  have : c ≠ '_' := by rintro rfl; rw [toDigit_underscore] at h; cases h
  simp [dropUnderscores, this]

/-- The number is that of the digits without underscores. -/
theorem digits_read {base : Nat} {strict : Bool} {t : Text} {n : Nat} (h : Digits base strict t n) :
    readDigits base 0 (dropUnderscores t) = some n := by
  induction h with
  | one h => rw [dropUnderscores_digit h]; simp [readDigits, h]
  | more h1 hu hs hc ih =>
    rw [dropUnderscores_append, dropUnderscores_append, dropUnderscores_all hu, List.append_nil,
      dropUnderscores_digit hc, readDigits_append, ih]
    simp [readDigits, hc]

/-- The first character is a digit. -/
theorem digits_head {base : Nat} {strict : Bool} {t : Text} {n : Nat} (h : Digits base strict t n) :
    ∃ c d t', t = c :: t' ∧ toDigit base c = some d := by
  induction h with
  | one h => exact ⟨_, _, _, rfl, h⟩
  | more h1 hu hs hc ih =>
    obtain ⟨c, d, t', rfl, h⟩ := ih
    exact ⟨c, d, _, by rw [List.cons_append, List.cons_append], h⟩

theorem hexLoop_ok {strict : Bool} {t : Text} {n : Nat} (h : Digits 16 strict t n) :
    ∃ c d t', t = c :: t' ∧ toDigit 16 c = some d ∧
      (n < 2 ^ 32 → ∀ s, hexLoop d false (t' ++ s) = hexLoop n false s) := by
  induction h with
  | one h => exact ⟨_, _, [], rfl, h, fun _ s => rfl⟩
  | @more t n u c d h1 hu hs hc ih =>
    obtain ⟨c0, d0, t', rfl, h, h2⟩ := ih
    refine ⟨c0, d0, t' ++ u ++ [c], by simp, h, ?_⟩
    intro hn s
    obtain ⟨hx1, hx2⟩ := hex_of_toDigit hc
    have hne : c ≠ '_' := by rintro rfl; rw [toDigit_underscore] at hc; cases hc
    rw [List.append_assoc, List.append_assoc, h2 (by omega), hexLoop_underscores u _ hu,
      List.singleton_append, hexLoop, if_neg hne, hx1]
    simp only [Bool.not_true, Bool.false_eq_true, if_false]
    rw [hx2, if_pos ⟨by omega, hn⟩]

theorem charFromU32_toNat (c : Char) : charFromU32 c.toNat = some c := by
  have h : c.toNat.isValidChar := c.valid
  rw [charFromU32, dif_pos h]
  rfl

theorem charFromU32_some {n : Nat} {c : Char} (h : charFromU32 n = some c) : n = c.toNat := by
  unfold charFromU32 at h
  split at h
  · next hv =>
    cases h
    have hlt : n < UInt32.size := by
      rcases hv with hv | hv
      · exact Nat.lt_trans hv (by decide)
      · exact Nat.lt_trans hv.2 (by decide)
    simp [Char.ofNatAux, Char.toNat, BitVec.toNat_ofNatLT]
  · cases h

theorem mustEat_ok (c : Char) (s : Text) : mustEat c (c :: s) = (.ok (), s) := by
  simp [mustEat]

theorem toNat_lt (c : Char) : c.toNat < 2 ^ 32 := c.val.toNat_lt

theorem brace_not_hex : isHexDigit '}' = false := by decide

theorem unicodeEscape_ok {strict : Bool} {t : Text} {c : Char} (h : Digits 16 strict t c.toNat)
    (s : Text) : unicodeEscape ('{' :: t ++ '}' :: s) = (.ok (utf8 [c]), s) := by
  obtain ⟨c0, d0, t', rfl, h1, h2⟩ := hexLoop_ok h
  have h3 : hexLoop d0 false (t' ++ '}' :: s) = (.ok (c.toNat, false), '}' :: s) := by
    rw [h2 (toNat_lt c), hexLoop, if_neg (by decide), brace_not_hex]
    rfl
  unfold unicodeEscape
  rw [List.cons_append, mustEat_ok]
  simp only [hexNum, List.cons_append, hexDigit_ok h1, h3, Bool.false_eq_true, if_false,
    charFromU32_toNat, mustEat_ok]
  simp

theorem empty_of_not {u : Text} (h : false = !u.isEmpty) : u = [] := by
  cases u with
  | nil => rfl
  | cons c u => simp at h

theorem hexLoop_sound {s : Text} : ∀ {p u : Text} {n n' : Nat} {l : Bool} {s' : Text},
    hexLoop n l s = (.ok (n', false), s') → Digits 16 false p n → (∀ x ∈ u, x = '_') →
    l = !u.isEmpty → ∃ t, s = t ++ s' ∧ Digits 16 false (p ++ u ++ t) n' := by
  induction s with
  | nil =>
    intro p u n n' l s' h hp hu hl
    rw [hexLoop] at h
    cases h
    obtain rfl := empty_of_not hl
    exact ⟨[], rfl, by simpa using hp⟩
  | cons c s ih =>
    intro p u n n' l s' h hp hu hl
    rw [hexLoop] at h
    by_cases h1 : c = '_'
    · rw [if_pos h1] at h
      subst h1
      obtain ⟨t, ht, hd⟩ := ih (u := u ++ ['_']) h hp (by
        intro x hx
        rcases List.mem_append.mp hx with hx | hx
        · exact hu x hx
        · simpa using hx) (by simp)
      exact ⟨'_' :: t, by rw [ht]; rfl, by simpa using hd⟩
    · rw [if_neg h1] at h
      by_cases h2 : isHexDigit c
      · rw [h2] at h
        simp only [Bool.not_true, Bool.false_eq_true, if_false] at h
        split at h
        · have hd := Digits.more hp hu (by simp) (toDigit_of_hex h2)
          obtain ⟨t, ht, hd'⟩ := ih (u := []) h hd (by simp) rfl
          exact ⟨c :: t, by rw [ht]; rfl, by simpa using hd'⟩
        · cases h
      · have h2' : isHexDigit c = false := by simpa using h2
        rw [h2'] at h
        simp only [Bool.not_false, if_true] at h
        cases h
        obtain rfl := empty_of_not hl
        exact ⟨[], rfl, by simpa using hp⟩

theorem hexNum_sound {s : Text} {n : Nat} {s' : Text} (h : hexNum s = (.ok n, s')) :
    ∃ t, s = t ++ s' ∧ Digits 16 false t n := by
  unfold hexNum at h
  cases s with
  | nil => cases h
  | cons c s =>
    by_cases h1 : isHexDigit c
    · have hd := toDigit_of_hex h1
      rw [hexDigit_ok hd] at h
      simp only at h
      cases hl : hexLoop (toHex c) false s with
      | mk r it =>
        rw [hl] at h
        cases r with
        | error e => cases h
        | ok p =>
          obtain ⟨n', last⟩ := p
          simp only at h
          cases last with
          | true => cases h
          | false =>
            cases h
            obtain ⟨t, ht, hd'⟩ := hexLoop_sound hl (Digits.one hd) (u := []) (by simp) rfl
            exact ⟨c :: t, by rw [ht]; rfl, by simpa using hd'⟩
    · have h1' : isHexDigit c = false := by simpa using h1
      rw [hexDigit, h1'] at h
      cases h

theorem mustEat_sound {w : Char} {s s' : Text} (h : mustEat w s = (.ok (), s')) : s = w :: s' := by
  cases s with
  | nil => cases h
  | cons c s =>
    rw [mustEat] at h
    split at h
    · next e => cases h; rw [e]
    · cases h

theorem unicodeEscape_sound {s : Text} {bs : List UInt8} {s' : Text}
    (h : unicodeEscape s = (.ok bs, s')) :
    ∃ t c, s = '{' :: t ++ '}' :: s' ∧ Digits 16 false t c.toNat ∧ bs = utf8 [c] := by
  unfold unicodeEscape at h
  cases h1 : mustEat '{' s with
  | mk r it =>
    rw [h1] at h
    cases r with
    | error e => cases h
    | ok p =>
      have e1 := mustEat_sound h1
      simp only at h
      cases h2 : hexNum it with
      | mk r2 it2 =>
        rw [h2] at h
        cases r2 with
        | error e => cases h
        | ok n =>
          obtain ⟨t, ht, hd⟩ := hexNum_sound h2
          simp only at h
          cases h3 : charFromU32 n with
          | none => rw [h3] at h; cases h
          | some c =>
            rw [h3] at h
            simp only at h
            cases h4 : mustEat '}' it2 with
            | mk r4 it4 =>
              rw [h4] at h
              cases r4 with
              | error e => cases h
              | ok q =>
                cases h
                have e4 := mustEat_sound h4
                refine ⟨t, c, ?_, ?_, by simp⟩
                · rw [e1, ht, e4]; rfl
                · rwa [← charFromU32_some h3]

/-! ## Escapes -/

theorem simple_not_hex : ∀ p ∈ simpleEscapes, isHexDigit p.1 = false := by decide

theorem escape_simple {c : Char} {b : UInt8} (h : (c, b) ∈ simpleEscapes) (s : Text) :
    escape (c :: s) = (.ok [b], s) := by
  simp only [simpleEscapes, List.mem_cons, Prod.mk.injEq, List.not_mem_nil, or_false] at h
  rcases h with ⟨rfl, rfl⟩ | ⟨rfl, rfl⟩ | ⟨rfl, rfl⟩ | ⟨rfl, rfl⟩ | ⟨rfl, rfl⟩ | ⟨rfl, rfl⟩ <;> rfl

theorem hex_ne {c : Char} (h : isHexDigit c = true) :
    c ≠ '"' ∧ c ≠ '\'' ∧ c ≠ 't' ∧ c ≠ 'n' ∧ c ≠ 'r' ∧ c ≠ '\\' ∧ c ≠ 'u' := by
  refine ⟨?_, ?_, ?_, ?_, ?_, ?_, ?_⟩ <;> (rintro rfl; revert h; decide)

theorem escape_hex {c d : Char} {hi lo : Nat} (hc : toDigit 16 c = some hi)
    (hd : toDigit 16 d = some lo) (s : Text) :
    escape (c :: d :: s) = (.ok [UInt8.ofNat (hi * 16 + lo)], s) := by
  obtain ⟨h1, h2⟩ := hex_of_toDigit hc
  obtain ⟨n1, n2, n3, n4, n5, n6, n7⟩ := hex_ne h1
  rw [escape, if_neg n1, if_neg n2, if_neg n3, if_neg n4, if_neg n5, if_neg n6, if_neg n7, if_pos h1,
    hexDigit_ok hd, h2]

theorem escape_unicode {strict : Bool} {t : Text} {c : Char} (h : Digits 16 strict t c.toNat) (s : Text) :
    escape ('u' :: '{' :: t ++ '}' :: s) = (.ok (utf8 [c]), s) := by
  have := unicodeEscape_ok h s
  rw [← this]
  rfl

theorem digits_ascii {base : Nat} {strict : Bool} {t : Text} {n : Nat} (h : Digits base strict t n) :
    ∀ c ∈ t, c.toNat < 128 := by
  have key : ∀ {c : Char} {d : Nat}, toDigit base c = some d → c.toNat < 128 := by
    intro c d h
    have : digitVal c ≠ none := by
      intro e; rw [toDigit, e] at h; cases h
    rw [digitVal_eq] at this
    by_cases h1 : 0x30 ≤ c.toNat ∧ c.toNat ≤ 0x39
    · omega
    · by_cases h2 : 0x61 ≤ c.toNat ∧ c.toNat ≤ 0x7a
      · omega
      · by_cases h3 : 0x41 ≤ c.toNat ∧ c.toNat ≤ 0x5a
        · omega
        · rw [if_neg h1, if_neg h2, if_neg h3] at this; exact absurd rfl this
  induction h with
  | one h => intro c hc; rw [List.mem_singleton] at hc; subst hc; exact key h
  | more h1 hu hs hc ih =>
    intro c hm
    simp only [List.mem_append, List.mem_singleton] at hm
    rcases hm with (hm | hm) | rfl
    · exact ih c hm
    · rw [hu c hm]; decide
    · exact key hc

/-- What follows a backslash. -/
theorem escape_sound {s : Text} {bs : List UInt8} {s' : Text} (h : escape s = (.ok bs, s')) :
    ∃ e, s = e ++ s' ∧ StrElem false ('\\' :: e) bs ∧ ∀ c ∈ e, c.toNat < 128 := by
  cases s with
  | nil => cases h
  | cons c s =>
    have simple : ∀ b, (c, b) ∈ simpleEscapes → bs = [b] → s' = s →
        ∃ e, c :: s = e ++ s' ∧ StrElem false ('\\' :: e) bs ∧ ∀ c ∈ e, c.toNat < 128 := by
      intro b hb e1 e2
      subst e1 e2
      refine ⟨[c], rfl, .simple hb, ?_⟩
      intro x hx
      rw [List.mem_singleton] at hx
      subst hx
      simp only [simpleEscapes, List.mem_cons, Prod.mk.injEq, List.not_mem_nil, or_false] at hb
      rcases hb with ⟨rfl, rfl⟩ | ⟨rfl, rfl⟩ | ⟨rfl, rfl⟩ | ⟨rfl, rfl⟩ | ⟨rfl, rfl⟩ | ⟨rfl, rfl⟩ <;>
        decide
    rw [escape] at h
    by_cases h1 : c = '"'
    · rw [if_pos h1] at h; cases h; subst h1; exact simple _ (by decide) rfl rfl
    · rw [if_neg h1] at h
      by_cases h2 : c = '\''
      · rw [if_pos h2] at h; cases h; subst h2; exact simple _ (by decide) rfl rfl
      · rw [if_neg h2] at h
        by_cases h3 : c = 't'
        · rw [if_pos h3] at h; cases h; subst h3; exact simple _ (by decide) rfl rfl
        · rw [if_neg h3] at h
          by_cases h4 : c = 'n'
          · rw [if_pos h4] at h; cases h; subst h4; exact simple _ (by decide) rfl rfl
          · rw [if_neg h4] at h
            by_cases h5 : c = 'r'
            · rw [if_pos h5] at h; cases h; subst h5; exact simple _ (by decide) rfl rfl
            · rw [if_neg h5] at h
              by_cases h6 : c = '\\'
              · rw [if_pos h6] at h; cases h; subst h6; exact simple _ (by decide) rfl rfl
              · rw [if_neg h6] at h
                by_cases h7 : c = 'u'
                · rw [if_pos h7] at h
                  subst h7
                  obtain ⟨t, d, hs, hd, rfl⟩ := unicodeEscape_sound h
                  refine ⟨'u' :: '{' :: t ++ ['}'], by rw [hs]; simp, .unicode hd, ?_⟩
                  intro x hx
                  simp only [List.cons_append, List.mem_cons, List.mem_append, List.not_mem_nil,
                    or_false] at hx
                  rcases hx with rfl | rfl | hx | rfl
                  · decide
                  · decide
                  · exact digits_ascii hd x hx
                  · decide
                · rw [if_neg h7] at h
                  by_cases h8 : isHexDigit c
                  · rw [if_pos h8] at h
                    cases s with
                    | nil => cases h
                    | cons d s =>
                      by_cases h9 : isHexDigit d
                      · rw [hexDigit_ok (toDigit_of_hex h9)] at h
                        cases h
                        refine ⟨[c, d], rfl, .hex (toDigit_of_hex h8) (toDigit_of_hex h9), ?_⟩
                        intro x hx
                        have a1 := digit_cases h8
                        have a2 := digit_cases h9
                        simp only [List.mem_cons, List.not_mem_nil, or_false] at hx
                        rcases hx with rfl | rfl <;> omega
                      · rw [hexDigit, if_neg h9] at h
                        cases h
                  · rw [if_neg h8] at h
                    cases h

/-! ## The contents -/

/-- The loop without the distinction between borrowed and owned results. -/
def strAcc (allow : Bool) : Nat → List UInt8 → Text → Except LexError (List UInt8) × Text
  | 0, _, it => (.error .unexpectedEof, it)
  | fuel + 1, acc, it =>
    match it with
    | [] => (.error .unexpectedEof, [])
    | c :: it =>
      if c = '"' then (.ok acc, it)
      else if c = '\\' then
        match escape it with
        | (.error e, it) => (.error e, it)
        | (.ok bs, it) => strAcc allow fuel (acc ++ bs) it
      else if c.toNat < 0x20 ∨ c.toNat = 0x7f then (.error (.invalidStringElement c), it)
      else if !allow && isConfusing c then (.error (.confusingUnicode c), it)
      else strAcc allow fuel (acc ++ String.utf8EncodeChar c) it

theorem readBefore_eq (p : Text) (c : Char) (it : Text) : readBefore (p ++ c :: it) it = utf8 p := by
  unfold readBefore
  have : (p ++ c :: it).length - it.length - 1 = p.length := by simp; omega
  rw [this, List.take_left]

theorem strLoop_eq (allow : Bool) (orig : Text) : ∀ fuel (p s : Text) st acc, orig = p ++ s →
    (st = some acc ∨ (st = none ∧ acc = utf8 p)) →
    strLoop allow orig fuel st s = strAcc allow fuel acc s := by
  intro fuel
  induction fuel with
  | zero => intro p s st acc h hst; rfl
  | succ fuel ih =>
    intro p s st acc h hst
    cases s with
    | nil => rfl
    | cons c s =>
      have hget : st.getD (readBefore orig s) = acc := by
        rcases hst with rfl | ⟨rfl, rfl⟩
        · rfl
        · rw [h, readBefore_eq]; rfl
      have hnext : orig = (p ++ [c]) ++ s := by rw [h]; simp
      simp only [strLoop, strAcc]
      rw [hget]
      by_cases h1 : c = '"'
      · rw [if_pos h1, if_pos h1]
      · rw [if_neg h1, if_neg h1]
        by_cases h2 : c = '\\'
        · rw [if_pos h2, if_pos h2]
          have hsuf := escape_suffix s
          cases he : escape s with
          | mk r it =>
            rw [he] at hsuf
            obtain ⟨t, ht⟩ := hsuf
            cases r with
            | error e => rfl
            | ok bs => exact ih (p ++ [c] ++ t) it _ _ (by rw [hnext, ← ht]; simp) (Or.inl rfl)
        · rw [if_neg h2, if_neg h2]
          split
          · rfl
          · split
            · rfl
            · refine ih (p ++ [c]) s _ _ hnext ?_
              rcases hst with rfl | ⟨rfl, rfl⟩
              · exact Or.inl rfl
              · exact Or.inr ⟨rfl, by simp⟩

theorem parseStr_eq (allow : Bool) (s : Text) : parseStr allow s = strAcc allow (s.length + 1) [] s :=
  strLoop_eq allow s _ [] s none [] rfl (Or.inr ⟨rfl, rfl⟩)

theorem isConfusing_ascii {c : Char} (h : c.toNat < 128) : isConfusing c = false := by
  simp only [isConfusing, List.contains_eq_mem, decide_eq_false_iff_not, List.mem_cons, List.not_mem_nil,
    or_false]
  omega

theorem elem_step {strict allow : Bool} {e : Text} {b : List UInt8} (h : StrElem strict e b)
    (hp : Plain allow e) (fuel : Nat) (acc : List UInt8) (s : Text) :
    strAcc allow (fuel + 1) acc (e ++ s) = strAcc allow fuel (acc ++ b) s := by
  have bs : ∀ s' b', escape s' = (.ok b', s) →
      strAcc allow (fuel + 1) acc ('\\' :: s') = strAcc allow fuel (acc ++ b') s := by
    intro s' b' he
    rw [strAcc, if_neg (by decide), if_pos rfl, he]
  cases h with
  | @char c h1 h2 h3 h4 =>
    rw [List.singleton_append, strAcc, if_neg h3, if_neg h4, if_neg (by omega), if_neg]
    · simp
    · rcases hp with hp | hp
      · simp [hp]
      · simp [hp c (by simp)]
  | simple h => exact bs _ _ (escape_simple h s)
  | hex hc hd => exact bs _ _ (escape_hex hc hd s)
  | unicode h =>
    have := bs _ _ (escape_unicode h s)
    rw [← this]
    simp

theorem elem_length {strict : Bool} {e : Text} {b : List UInt8} (h : StrElem strict e b) : 0 < e.length := by
  cases h <;> simp

theorem strAcc_ok {strict allow : Bool} {t : Text} {bs : List UInt8} (h : StrBody strict t bs) :
    Plain allow t → ∀ fuel acc s, t.length < fuel →
      strAcc allow fuel acc (t ++ '"' :: s) = (.ok (acc ++ bs), s) := by
  induction h with
  | nil =>
    intro _ fuel acc s hf
    obtain ⟨k, rfl⟩ : ∃ k, fuel = k + 1 := ⟨fuel - 1, by simp at hf; omega⟩
    rw [List.nil_append, strAcc, if_pos rfl, List.append_nil]
  | cons he hb ih =>
    intro hp fuel acc s hf
    have := elem_length he
    rw [List.length_append] at hf
    obtain ⟨k, rfl⟩ : ∃ k, fuel = k + 1 := ⟨fuel - 1, by omega⟩
    have hp1 := hp.imp_right (fun h c hc => h c (List.mem_append_left _ hc))
    have hp2 := hp.imp_right (fun h c hc => h c (List.mem_append_right _ hc))
    rw [List.append_assoc, elem_step he hp1, ih hp2 _ _ _ (by omega), List.append_assoc]

/-- A string literal is read to its bytes. -/
theorem parseStr_ok {strict allow : Bool} {t : Text} {bs : List UInt8} (h : StrBody strict t bs)
    (hp : Plain allow t) (s : Text) : parseStr allow (t ++ '"' :: s) = (.ok bs, s) := by
  rw [parseStr_eq, strAcc_ok h hp _ _ _ (by simp; omega), List.nil_append]

theorem strAcc_sound {allow : Bool} : ∀ fuel acc s r s', strAcc allow fuel acc s = (.ok r, s') →
    ∃ t bs, s = t ++ '"' :: s' ∧ StrBody false t bs ∧ Plain allow t ∧ r = acc ++ bs := by
  intro fuel
  induction fuel with
  | zero => intro acc s r s' h; cases h
  | succ fuel ih =>
    intro acc s r s' h
    cases s with
    | nil => cases h
    | cons c s =>
      rw [strAcc] at h
      by_cases h1 : c = '"'
      · rw [if_pos h1] at h
        cases h
        exact ⟨[], [], by rw [h1]; rfl, .nil, Or.inr (by simp), by simp⟩
      · rw [if_neg h1] at h
        by_cases h2 : c = '\\'
        · rw [if_pos h2] at h
          cases he : escape s with
          | mk res it =>
            rw [he] at h
            cases res with
            | error e => cases h
            | ok b =>
              obtain ⟨e, hs, hel, hasc⟩ := escape_sound he
              obtain ⟨t, bs, ht, hb, hpl, hr⟩ := ih _ _ _ _ h
              refine ⟨'\\' :: e ++ t, b ++ bs, by rw [hs, ht, h2]; simp, .cons hel hb, ?_, by rw [hr]; simp⟩
              refine hpl.imp_right (fun hpl x hx => ?_)
              rcases List.mem_append.mp hx with hx | hx
              · apply isConfusing_ascii
                rcases List.mem_cons.mp hx with rfl | hx
                · decide
                · exact hasc x hx
              · exact hpl x hx
        · rw [if_neg h2] at h
          by_cases h3 : c.toNat < 0x20 ∨ c.toNat = 0x7f
          · rw [if_pos h3] at h; cases h
          · rw [if_neg h3] at h
            by_cases h4 : (!allow && isConfusing c) = true
            · rw [if_pos h4] at h; cases h
            · rw [if_neg h4] at h
              obtain ⟨t, bs, ht, hb, hpl, hr⟩ := ih _ _ _ _ h
              refine ⟨[c] ++ t, utf8 [c] ++ bs, by rw [ht]; rfl,
                .cons (.char (by omega) (by omega) h1 h2) hb, ?_, by rw [hr]; simp⟩
              cases allow with
              | true => exact Or.inl rfl
              | false =>
                refine Or.inr (fun x hx => ?_)
                rcases List.mem_append.mp hx with hx | hx
                · rw [List.mem_singleton] at hx
                  subst hx
                  simpa using h4
                · rcases hpl with hpl | hpl
                  · cases hpl
                  · exact hpl x hx

/-- Only string literals are read. -/
theorem parseStr_sound {allow : Bool} {s : Text} {r : List UInt8} {s' : Text}
    (h : parseStr allow s = (.ok r, s')) :
    ∃ t, s = t ++ '"' :: s' ∧ StrBody false t r ∧ Plain allow t := by
  rw [parseStr_eq] at h
  obtain ⟨t, bs, ht, hb, hpl, hr⟩ := strAcc_sound _ _ _ _ _ h
  rw [List.nil_append] at hr
  subst hr
  exact ⟨t, ht, hb, hpl⟩

end Verif.Wat
