import Verif.Wat.Refine
/-
The whole lexer: bytes against characters.
-/
namespace Verif.Wat

open Verif.Std

theorem strLen_pos {s : Text} (h : s ≠ []) : 0 < strLen s := by
  cases s with
  | nil => exact absurd rfl h
  | cons c s => rw [strLen_cons]; have := encode_pos c; omega

theorem strLen_le_of_suffix {s r : Text} (h : r <:+ s) : strLen r ≤ strLen s := by
  obtain ⟨t, rfl⟩ := h
  rw [strLen_append]; omega

/-! ## Reserved tokens -/

/-- The result on characters, as a result with positions. -/
def resOut (input : Text) : Except (Text × LexError) (Nat × Nat × Text) → Res (Nat × Nat × Nat)
  | .ok (n, m, r) => .ok (n, m, strLen input - strLen r)
  | .error (r, e) => .err (strLen input - strLen r) e

theorem lastCharPos_eq (L : Lexer) (pre t it : Text) (z : Char) (h : L.input = pre ++ (t ++ [z]) ++ it) :
    lastCharPos L (strLen L.input - strLen it) = some (strLen L.input - strLen (z :: it)) := by
  have h1 : strLen L.input - strLen it = strLen (pre ++ (t ++ [z])) := by
    rw [h, strLen_append]; omega
  unfold lastCharPos
  rw [h1, h, sliceTo_append]
  simp only
  have h2 : (pre ++ (t ++ [z])).getLast? = some z := by
    rw [← List.append_assoc]; simp
  rw [h2]
  simp only [Option.some.injEq]
  simp only [strLen_append, strLen_cons, strLen_nil]
  omega

theorem reservedLoop_eq (L : Lexer) : ∀ fuel (r pre : Text) n m, L.input = pre ++ r → strLen r < fuel →
    reservedLoop L fuel (strLen pre) n m = resOut L.input (resChars L.allowConfusing fuel n m r) := by
  intro fuel
  induction fuel with
  | zero => intro r pre n m h hf; omega
  | succ fuel ih =>
    intro r pre n m h hf
    have hb : L.bytes[strLen pre]? = (utf8 r)[0]? := by rw [Lexer.bytes, h, utf8_get]
    rw [reservedLoop, hb]
    cases r with
    | nil =>
      simp only [utf8_nil, List.getElem?_nil, resChars, resOut, strLen_nil, Nat.sub_zero]
      rw [h, List.append_nil]
    | cons c r =>
      obtain ⟨b, bs, hc⟩ := headByte c
      have h0 : (utf8 (c :: r))[0]? = some b := by rw [utf8_cons, hc.eq]; rfl
      have hcons := strLen_cons c r
      have hpos := encode_pos c
      rw [h0]
      simp only [resChars]
      rw [hc.class isIdCode (fun n => isIdCode_lt)]
      by_cases h1 : isIdCode c.toNat
      · rw [if_pos h1, if_pos h1]
        have hl : strLen pre + 1 = strLen (pre ++ [c]) := by
          rw [strLen_append, strLen_cons, encode_ascii (isIdCode_lt h1)]; simp
        rw [hl]
        exact ih r (pre ++ [c]) _ _ (by rw [h]; simp) (by omega)
      · rw [if_neg h1, if_neg h1]
        by_cases h2 : c = '"'
        · subst h2
          rw [if_pos ((hc.eq_iff 0x22 '"' rfl (by decide)).mpr rfl), if_pos rfl]
          have hq : (String.utf8EncodeChar '"').length = 1 := by decide
          have hl : strLen pre + 1 = strLen (pre ++ ['"']) := by
            rw [strLen_append, strLen_cons, hq]; simp
          have hs : L.input = (pre ++ ['"']) ++ r := by rw [h]; simp
          have hslice : sliceFrom L.input (strLen pre + 1) = some r := by
            rw [hl, hs, sliceFrom_append]
          rw [hslice]
          simp only
          have hsuf := parseStr_suffix L.allowConfusing r
          have hstr := @parseStr_strict L.allowConfusing r
          cases hp : parseStr L.allowConfusing r with
          | mk res it =>
            rw [hp] at hsuf hstr
            obtain ⟨t, ht⟩ := hsuf
            simp only at ht hstr
            cases res with
            | ok bs =>
              have hp1 : strLen L.input - strLen it = strLen (pre ++ '"' :: t) := by
                rw [h, ← ht]; simp only [strLen_append, strLen_cons]; omega
              simp only
              rw [hp1]
              refine ih it _ _ _ (by rw [h, ← ht]; simp) ?_
              have : strLen r = strLen t + strLen it := by rw [← ht, strLen_append]
              omega
            | error e =>
              simp only
              by_cases he : e = .unexpectedEof
              · rw [if_pos he, if_pos he]
                simp [resOut]
              · rw [if_neg he, if_neg he]
                obtain ⟨t', z, hz⟩ : ∃ t' z, '"' :: t = t' ++ [z] :=
                  ⟨('"' :: t).dropLast, ('"' :: t).getLast (by simp), (List.dropLast_concat_getLast _).symm⟩
                have hlen : t'.length = t.length := by
                  have := congrArg List.length hz
                  simp at this; omega
                have hin : L.input = pre ++ (t' ++ [z]) ++ it := by rw [h, ← ht, ← hz]; simp
                rw [lastCharPos_eq L pre t' it z hin]
                simp only [resOut]
                have hdrop : ('"' :: r).drop (r.length - it.length) = z :: it := by
                  have hr : '"' :: r = t' ++ z :: it := by
                    rw [← ht, ← List.cons_append, hz]; simp
                  rw [hr]
                  have : r.length - it.length = t'.length := by rw [← ht]; simp [hlen]
                  rw [this, List.drop_left]
                rw [hdrop]
        · have h3 : b ≠ 0x22 := fun e => h2 ((hc.eq_iff 0x22 '"' rfl (by decide)).mp e)
          rw [if_neg h3, if_neg h2]
          simp only [resOut]
          rw [h, strLen_append]
          congr 3
          omega

theorem resChars_fuel (allow : Bool) : ∀ fuel (r : Text) n m k, r.length < fuel →
    resChars allow (fuel + k) n m r = resChars allow fuel n m r := by
  intro fuel
  induction fuel with
  | zero => intro r n m k h; omega
  | succ fuel ih =>
    intro r n m k h
    rw [show fuel + 1 + k = (fuel + k) + 1 by omega]
    cases r with
    | nil => rfl
    | cons c r =>
      simp only [List.length_cons] at h
      simp only [resChars]
      by_cases h1 : isIdCode c.toNat
      · rw [if_pos h1, if_pos h1, ih r _ _ k (by omega)]
      · rw [if_neg h1, if_neg h1]
        by_cases h2 : c = '"'
        · rw [if_pos h2, if_pos h2]
          have hsuf := (parseStr_suffix allow r).length_le
          cases hp : parseStr allow r with
          | mk res it =>
            rw [hp] at hsuf
            simp only at hsuf
            cases res with
            | ok bs => exact ih it _ _ k (by omega)
            | error e => rfl
        · rw [if_neg h2, if_neg h2]

theorem resChars_suffix (allow : Bool) : ∀ fuel (r : Text) n m,
    match resChars allow fuel n m r with
    | .ok (_, _, r') => r' <:+ r
    | .error (r', _) => r' <:+ r := by
  intro fuel
  induction fuel with
  | zero => intro r n m; exact List.suffix_refl _
  | succ fuel ih =>
    intro r n m
    cases r with
    | nil => exact List.suffix_refl _
    | cons c r =>
      simp only [resChars]
      have key : ∀ r1 n m, r1 <:+ c :: r → match resChars allow fuel n m r1 with
          | .ok (_, _, r') => r' <:+ c :: r
          | .error (r', _) => r' <:+ c :: r := by
        intro r1 n m hr
        have := ih r1 n m
        cases hx : resChars allow fuel n m r1 with
        | ok p => rw [hx] at this; exact this.trans hr
        | error p => rw [hx] at this; exact this.trans hr
      by_cases h1 : isIdCode c.toNat
      · rw [if_pos h1]; exact key r _ _ (List.suffix_cons _ _)
      · rw [if_neg h1]
        by_cases h2 : c = '"'
        · rw [if_pos h2]
          have hsuf := parseStr_suffix allow r
          cases hp : parseStr allow r with
          | mk res it =>
            rw [hp] at hsuf
            simp only at hsuf
            cases res with
            | ok bs => exact key it _ _ (hsuf.trans (List.suffix_cons _ _))
            | error e =>
              simp only
              by_cases he : e = .unexpectedEof
              · rw [if_pos he]; exact List.nil_suffix
              · rw [if_neg he]; exact List.drop_suffix _ _
        · rw [if_neg h2]; exact List.suffix_refl _

/-- Something is read if the first character is one of a reserved token. -/
theorem resChars_count (allow : Bool) : ∀ fuel (r : Text) n m n' m' r',
    resChars allow fuel n m r = .ok (n', m', r') →
      n ≤ n' ∧ m ≤ m' ∧ (n' + m' = n + m → r' = r) := by
  intro fuel
  induction fuel with
  | zero => intro r n m n' m' r' h; cases h
  | succ fuel ih =>
    intro r n m n' m' r' h
    cases r with
    | nil => cases h; exact ⟨Nat.le_refl _, Nat.le_refl _, fun _ => rfl⟩
    | cons c r =>
      simp only [resChars] at h
      by_cases h1 : isIdCode c.toNat
      · rw [if_pos h1] at h
        obtain ⟨e1, e2, e3⟩ := ih _ _ _ _ _ _ h
        exact ⟨by omega, by omega, fun e => by omega⟩
      · rw [if_neg h1] at h
        by_cases h2 : c = '"'
        · rw [if_pos h2] at h
          cases hp : parseStr allow r with
          | mk res it =>
            rw [hp] at h
            cases res with
            | ok bs =>
              obtain ⟨e1, e2, e3⟩ := ih _ _ _ _ _ _ h
              exact ⟨by omega, by omega, fun e => by omega⟩
            | error e =>
              simp only at h
              split at h <;> cases h
        · rw [if_neg h2] at h
          cases h; exact ⟨Nat.le_refl _, Nat.le_refl _, fun _ => rfl⟩

theorem resChars_first {allow : Bool} {fuel : Nat} {c : Char} {r : Text} {n' m' : Nat} {r' : Text}
    (hc : isIdCode c.toNat = true ∨ c = '"')
    (h : resChars allow (fuel + 1) 0 0 (c :: r) = .ok (n', m', r')) :
    0 < n' + m' ∧ r' <:+ r := by
  simp only [resChars] at h
  by_cases h1 : isIdCode c.toNat
  · rw [if_pos h1] at h
    have h2 := resChars_count _ _ _ _ _ _ _ _ h
    have h3 := resChars_suffix allow fuel r 1 0
    rw [h] at h3
    exact ⟨by omega, h3⟩
  · rw [if_neg h1, if_pos (hc.resolve_left h1)] at h
    have hsuf := parseStr_suffix allow r
    cases hp : parseStr allow r with
    | mk res it =>
      rw [hp] at h hsuf
      cases res with
      | ok bs =>
        simp only [Nat.zero_add] at h
        have h2 := resChars_count _ _ _ _ _ _ _ _ h
        have h3 := resChars_suffix allow fuel it 0 1
        rw [h] at h3
        exact ⟨by omega, h3.trans hsuf⟩
      | error e =>
        simp only at h
        split at h <;> cases h

/-! ## The next token -/

/-- The result on characters, as a result with positions. -/
def kindOut (input : Text) (pos : Nat) : CTok → Res (Option TokenKind × Nat)
  | .eof => .ok (none, pos)
  | .tok k r => .ok (some k, strLen input - strLen r)
  | .err r e => .err (strLen input - strLen r) e

theorem checkConfusing_eq (L : Lexer) (fin : Nat) (comment : Text) (hf : strLen comment ≤ fin) :
    checkConfusing L fin comment =
      if L.allowConfusing then .ok ()
      else
        match firstConfusing comment with
        | none => .ok ()
        | some (c, t) => .err (fin - strLen t) (.confusingUnicode c) := by
  unfold checkConfusing
  have := confusingLoop_eq (fin - strLen comment) comment []
  rw [List.nil_append, strLen_nil] at this
  rw [this, show fin - strLen comment + strLen comment = fin by omega]
  cases firstConfusing comment <;> rfl

theorem comment_eq (L : Lexer) (pre t r : Text) (k : TokenKind) (h : L.input = pre ++ (t ++ r)) :
    (match slice L.input (strLen pre) (strLen pre + strLen t) with
      | none => Res.panic
      | some comment =>
        match checkConfusing L (strLen pre + strLen t) comment with
        | .ok () => .ok (some k, strLen pre + strLen t)
        | .err p e => .err p e
        | .panic => .panic)
      = kindOut L.input (strLen pre) (commentChars L.allowConfusing k t r) := by
  have h1 : slice L.input (strLen pre) (strLen pre + strLen t) = some t := by
    rw [← strLen_append, h, ← List.append_assoc, slice_append]
  rw [h1]
  simp only
  rw [checkConfusing_eq L _ _ (by omega)]
  have h2 : strLen L.input - strLen r = strLen pre + strLen t := by
    rw [h]; simp only [strLen_append]; omega
  unfold commentChars
  cases L.allowConfusing with
  | true => simp [kindOut, h2]
  | false =>
    simp only [Bool.false_eq_true, if_false]
    cases hf : firstConfusing t with
    | none => simp [kindOut, h2]
    | some p =>
      obtain ⟨c, u⟩ := p
      simp only [kindOut, strLen_append]
      congr 1
      omega

theorem parseKind_eq (L : Lexer) (pre s : Text) (h : L.input = pre ++ s) :
    parseKind L (strLen pre) = kindOut L.input (strLen pre) (lexChars L.allowConfusing s) := by
  have hlen : L.bytes.length = strLen pre + strLen s := by
    rw [Lexer.bytes, h, ← strLen_append]; rfl
  have hdrop : L.bytes.drop (strLen pre) = utf8 s := by rw [Lexer.bytes, h, utf8_drop]
  unfold parseKind
  rw [if_neg (by omega)]
  simp only
  rw [hdrop]
  cases s with
  | nil => rfl
  | cons c r =>
    obtain ⟨b, bs, hc⟩ := headByte c
    have hcons : utf8 (c :: r) = b :: (bs ++ utf8 r) := by rw [utf8_cons, hc.eq]; rfl
    have hlast : strLen L.input = strLen pre + ((String.utf8EncodeChar c).length + strLen r) := by
      rw [h, strLen_append, strLen_cons]
    have one : c.toNat < 128 → strLen pre + 1 = strLen L.input - strLen r := by
      intro hlt
      rw [hlast, encode_ascii hlt]; simp; omega
    have tail : c.toNat < 128 → bs ++ utf8 r = utf8 r := by
      intro hlt; rw [(hc.ascii hlt).2]; rfl
    rw [hcons]
    simp only [lexChars]
    by_cases e1 : c = '('
    · have hlt : c.toNat < 128 := by subst e1; decide
      rw [if_pos ((hc.eq_iff 0x28 '(' rfl (by decide)).mpr e1), if_pos e1, tail hlt]
      cases r with
      | nil => simp only [utf8_nil, kindOut]; rw [one hlt]
      | cons d r' =>
        obtain ⟨b2, bs2, hd⟩ := headByte d
        have hcons2 : utf8 (d :: r') = b2 :: (bs2 ++ utf8 r') := by rw [utf8_cons, hd.eq]; rfl
        rw [hcons2]
        simp only
        by_cases e2 : d = ';'
        · rw [if_pos ((hd.eq_iff 0x3b ';' rfl (by decide)).mpr e2), if_pos e2]
          have hbs2 : bs2 = [] := (hd.ascii (by subst e2; decide)).2
          subst hbs2
          rw [List.nil_append]
          unfold blockComment
          rw [blockLoop_eq _ r' (Nat.le_refl _)]
          cases hbl : blockChars 1 r' with
          | none =>
            simp only [Option.map_none, kindOut]
            rw [hlast, strLen_cons c]; congr 1; omega
          | some rest =>
            simp only [Option.map_some]
            have hsuf := blockChars_suffix _ r' (Nat.le_refl _) 1 rest hbl
            have hsuf2 : rest <:+ c :: d :: r' := hsuf.trans ⟨[c, d], rfl⟩
            have htk := taken_of_suffix hsuf2
            set_option linter.unusedSimpArgs false in
            have hl : (b :: (b2 :: utf8 r')).length - (utf8 rest).length = strLen (taken (c :: d :: r') rest) := by
              have e3 : strLen (c :: d :: r') = 2 + strLen r' := by
                rw [strLen_cons, strLen_cons, encode_ascii hlt, encode_ascii (by subst e2; decide)]
                simp; omega
              have e4 := congrArg strLen htk
              rw [strLen_append, e3] at e4
              simp only [List.length_cons]
              change strLen r' + 1 + 1 - strLen rest = _
              omega
            rw [hl]
            exact comment_eq L pre _ rest .blockComment (by rw [h, htk])
        · rw [if_neg (fun e => e2 ((hd.eq_iff 0x3b ';' rfl (by decide)).mp e)), if_neg e2]
          simp only [kindOut]; rw [one hlt]
    · rw [if_neg (fun e => e1 ((hc.eq_iff 0x28 '(' rfl (by decide)).mp e)), if_neg e1]
      by_cases e2 : c = ')'
      · have hlt : c.toNat < 128 := by subst e2; decide
        rw [if_pos ((hc.eq_iff 0x29 ')' rfl (by decide)).mpr e2), if_pos e2]
        simp only [kindOut]; rw [one hlt]
      · rw [if_neg (fun e => e2 ((hc.eq_iff 0x29 ')' rfl (by decide)).mp e)), if_neg e2]
        rw [hc.class isWsCode (fun n => isWsCode_lt)]
        by_cases e3 : wsChar c
        · have e3' : isWsCode c.toNat = true := e3
          rw [if_pos e3', if_pos e3]
          unfold skipWs
          rw [show sliceFrom L.input (strLen pre) = some (c :: r) by rw [h, sliceFrom_append]]
          simp only
          rw [← hcons, ws_run]
          simp only [kindOut]
          congr 2
          have e4 := congrArg strLen (List.takeWhile_append_dropWhile (p := wsChar) (l := c :: r))
          rw [strLen_append] at e4
          change strLen pre + strLen _ = _
          rw [h, strLen_append]
          omega
        · have e3' : ¬ isWsCode c.toNat = true := e3
          rw [if_neg e3', if_neg e3]
          rw [hc.class isIdCode (fun n => isIdCode_lt)]
          have e4 : decide (b = 0x22) = decide (c = '"') := by
            rw [decide_eq_decide]; exact hc.eq_iff 0x22 '"' rfl (by decide)
          rw [e4]
          by_cases e5 : (isIdCode c.toNat || decide (c = '"')) = true
          · rw [if_pos e5, if_pos e5]
            have e5' : isIdCode c.toNat = true ∨ c = '"' := by simpa using e5
            have hlt : c.toNat < 128 := by
              rcases e5' with h' | h'
              · exact isIdCode_lt h'
              · subst h'; decide
            unfold parseReserved
            rw [reservedLoop_eq L _ (c :: r) pre 0 0 h (by
              have : strLen (c :: r) ≤ L.bytes.length := by omega
              omega)]
            have hfuel : resChars L.allowConfusing (L.bytes.length + 1) 0 0 (c :: r)
                = resChars L.allowConfusing ((c :: r).length + 1) 0 0 (c :: r) := by
              have hle : (c :: r).length ≤ L.bytes.length := by
                rw [hlen]
                have : (c :: r).length ≤ strLen (c :: r) := by
                  generalize c :: r = s
                  induction s with
                  | nil => simp
                  | cons x s ih =>
                    rw [strLen_cons, List.length_cons]
                    have := encode_pos x
                    omega
                omega
              obtain ⟨k, hk⟩ := Nat.exists_eq_add_of_le hle
              rw [hk, show (c :: r).length + k + 1 = (c :: r).length + 1 + k by omega,
                resChars_fuel _ _ _ _ _ _ (by omega)]
            rw [hfuel]
            have hsuf := resChars_suffix L.allowConfusing ((c :: r).length + 1) (c :: r) 0 0
            cases hres : resChars L.allowConfusing ((c :: r).length + 1) 0 0 (c :: r) with
            | error p => obtain ⟨at_, e⟩ := p; rfl
            | ok p =>
              obtain ⟨n, m, rest⟩ := p
              rw [hres] at hsuf
              simp only at hsuf
              have hfirst := resChars_first e5' hres
              have htk := taken_of_suffix hsuf
              simp only [resOut]
              have hpos : strLen L.input - strLen rest = strLen (pre ++ taken (c :: r) rest) := by
                rw [h, ← htk]
                simp only [strLen_append, taken_append]; omega
              have hslice : slice L.input (strLen pre) (strLen L.input - strLen rest)
                  = some (taken (c :: r) rest) := by
                rw [hpos, h]
                conv => lhs; arg 1; rw [← htk, ← List.append_assoc]
                rw [slice_append]
              rw [hslice]
              simp only
              have hk : reservedKind n m (taken (c :: r) rest) ≠ none := by
                unfold reservedKind
                rw [if_neg (by omega)]
                split
                · simp
                · split
                  · simp
                  · split
                    · simp
                    · split <;> simp
              cases hrk : reservedKind n m (taken (c :: r) rest) with
              | none => exact absurd hrk hk
              | some k =>
                simp only [kindOut]
                rw [(hc.ascii hlt).1]
          · rw [if_neg e5, if_neg e5]
            by_cases e6 : c = ';'
            · have hlt : c.toNat < 128 := by subst e6; decide
              rw [if_pos ((hc.eq_iff 0x3b ';' rfl (by decide)).mpr e6), if_pos e6, tail hlt]
              cases r with
              | nil => simp only [utf8_nil, kindOut]; rw [one hlt]
              | cons d r' =>
                obtain ⟨b2, bs2, hd⟩ := headByte d
                have hcons2 : utf8 (d :: r') = b2 :: (bs2 ++ utf8 r') := by rw [utf8_cons, hd.eq]; rfl
                rw [hcons2]
                simp only
                by_cases e7 : d = ';'
                · rw [if_pos ((hd.eq_iff 0x3b ';' rfl (by decide)).mpr e7), if_pos e7]
                  unfold lineComment
                  rw [← hcons2]
                  have hu : b :: utf8 (d :: r') = utf8 (c :: d :: r') := by
                    rw [utf8_cons c, hc.eq, (hc.ascii hlt).2]; rfl
                  rw [hu, nl_run]
                  exact comment_eq L pre _ _ .lineComment
                    (by rw [h, List.takeWhile_append_dropWhile])
                · rw [if_neg (fun e => e7 ((hd.eq_iff 0x3b ';' rfl (by decide)).mp e)), if_neg e7]
                  simp only [kindOut]; rw [one hlt]
            · rw [if_neg (fun e => e6 ((hc.eq_iff 0x3b ';' rfl (by decide)).mp e)), if_neg e6]
              have f1 := hc.eq_iff 0x2c ',' rfl (by decide)
              have f2 := hc.eq_iff 0x5b '[' rfl (by decide)
              have f3 := hc.eq_iff 0x5d ']' rfl (by decide)
              have f4 := hc.eq_iff 0x7b '{' rfl (by decide)
              have f5 := hc.eq_iff 0x7d '}' rfl (by decide)
              by_cases e7 : c = ',' ∨ c = '[' ∨ c = ']' ∨ c = '{' ∨ c = '}'
              · have hlt : c.toNat < 128 := by
                  rcases e7 with rfl | rfl | rfl | rfl | rfl <;> decide
                rw [if_pos (by rw [f1, f2, f3, f4, f5]; exact e7), if_pos e7]
                simp only [kindOut]; rw [one hlt]
              · rw [if_neg (by rw [f1, f2, f3, f4, f5]; exact e7), if_neg e7]
                rw [show sliceFrom L.input (strLen pre) = some (c :: r) by rw [h, sliceFrom_append]]
                simp only [kindOut]
                rw [h, strLen_append]
                congr 1
                omega

end Verif.Wat
