import Verif.Wat.Ints
import Verif.Wat.Grammar
/-
The printer's strings, integers and identifiers are tokens of the grammar.
-/
namespace Verif.Wat

open Verif.Std Spec

/-! ## One token -/

theorem oneToken {strict allow : Bool} {k : TokenKind} {t rest : Text} (pre : Text)
    (h : Tok strict allow k t rest) (hs : strict = false ∨ k ≠ .reserved) (hlen : strLen t < 2 ^ 32) :
    OneToken allow pre t rest k := by
  have hp := parseKind_eq ⟨pre ++ t ++ rest, allow⟩ pre (t ++ rest) (by simp)
  have hl := lex_ok h hs
  simp only [hl, kindOut] at hp
  have hlen2 : strLen (pre ++ t ++ rest) - strLen rest = strLen pre + strLen t := by
    simp only [strLen_append]; omega
  rw [hlen2] at hp
  refine ⟨?_, ?_⟩
  · unfold parse
    rw [hp]
    simp only
    have : strLen pre + strLen t - strLen pre = strLen t := by omega
    rw [this, if_pos hlen]
  · simp only [Token.src]
    rw [← strLen_append]
    rw [List.append_assoc]
    have := slice_append pre t rest
    simpa [strLen_append] using this

theorem plain_ascii {t : Text} (allow : Bool) (h : ∀ c ∈ t, c.toNat < 128) : Plain allow t :=
  .inr fun c hc => isConfusing_ascii (h c hc)

/-! ## Characters -/

theorem toDigits_char {base : Nat} (h1 : 1 < base) (hb : base ≤ 16) (n : Nat) {c : Char}
    (h : c ∈ Nat.toDigits base n) : ∃ d, d < 16 ∧ c = d.digitChar := by
  obtain ⟨d, hd, rfl⟩ := mem_toDigits h1 n h
  exact ⟨d, by omega, rfl⟩

theorem digitChar_id : ∀ d : Nat, d < 16 → isIdCode d.digitChar.toNat = true ∧ d.digitChar.toNat < 128 ∧
    d.digitChar ≠ ' ' ∧ 0x20 ≤ d.digitChar.toNat ∧ d.digitChar.toNat ≠ 0x7f ∧ d.digitChar ≠ '"' ∧ d.digitChar ≠ '\\' := by
  decide

/-! ## Strings -/

theorem printChar_elem (c : Char) : StrElem true (printChar c) (utf8 [c]) ∧ ∀ x ∈ printChar c, x.toNat < 128 := by
  unfold printChar
  split
  · next h =>
    refine ⟨.char h.1 (by omega) h.2.2.1 h.2.2.2.1, ?_⟩
    intro x hx
    rw [List.mem_singleton] at hx; subst hx; omega
  · refine ⟨.unicode (digits_toDigits (by decide) (by decide) _), ?_⟩
    intro x hx
    simp only [List.cons_append, List.mem_cons, List.mem_append, List.not_mem_nil, or_false] at hx
    rcases hx with rfl | rfl | rfl | hx | rfl
    · decide
    · decide
    · decide
    · obtain ⟨d, hd, rfl⟩ := toDigits_char (by decide) (by decide) _ hx
      exact (digitChar_id d hd).2.1
    · decide

theorem printStrContents_body : ∀ s : Text, StrBody true (printStrContents s) (utf8 s) ∧
    ∀ x ∈ printStrContents s, x.toNat < 128
  | [] => ⟨.nil, by simp [printStrContents]⟩
  | c :: s => by
    obtain ⟨h1, h2⟩ := printChar_elem c
    obtain ⟨h3, h4⟩ := printStrContents_body s
    have e : printStrContents (c :: s) = printChar c ++ printStrContents s := by simp [printStrContents]
    rw [e]
    refine ⟨?_, ?_⟩
    · have := StrBody.cons h1 h3
      rwa [← utf8_append] at this
    · intro x hx
      rw [List.mem_append] at hx
      exact hx.elim (h2 x) (h4 x)

theorem printStr_lit (s : Text) : StrLit true (printStr s) (utf8 s) ∧ ∀ x ∈ printStr s, x.toNat < 128 := by
  obtain ⟨h1, h2⟩ := printStrContents_body s
  refine ⟨⟨_, rfl, h1⟩, ?_⟩
  intro x hx
  simp only [printStr, List.cons_append, List.mem_cons, List.mem_append, List.not_mem_nil, or_false] at hx
  rcases hx with rfl | hx | rfl
  · decide
  · exact h2 x hx
  · decide

theorem printByte_elem (b : UInt8) : StrElem true (printByte b) [b] ∧ ∀ x ∈ printByte b, x.toNat < 128 := by
  have hb := b.toNat_lt
  unfold printByte
  split
  · next h =>
    have hn : (Char.ofNat b.toNat).toNat = b.toNat := by
      have hv : b.toNat.isValidChar := .inl (by omega)
      simp [Char.ofNat, hv, Char.ofNatAux, Char.toNat]
    have hu : utf8 [Char.ofNat b.toNat] = [b] := by
      rw [utf8_cons, utf8_nil, List.append_nil, encode_ascii (by omega), hn]
      simp
    have hc := StrElem.char (strict := true) (c := Char.ofNat b.toNat) (by omega) (by omega)
      (by intro e
          have := congrArg Char.toNat e
          rw [hn] at this
          exact h.2.2.1 (UInt8.toNat_inj.mp this))
      (by intro e
          have := congrArg Char.toNat e
          rw [hn] at this
          exact h.2.2.2 (UInt8.toNat_inj.mp this))
    rw [hu] at hc
    refine ⟨hc, ?_⟩
    intro x hx
    rw [List.mem_singleton] at hx; subst hx; omega
  · have h1 : b.toNat / 16 < 16 := by omega
    have h2 : b.toNat % 16 < 16 := by omega
    have := StrElem.hex (strict := true) (toDigit_digitChar (Nat.le_refl 16) h1)
      (toDigit_digitChar (Nat.le_refl 16) h2)
    have e : b.toNat / 16 * 16 + b.toNat % 16 = b.toNat := by omega
    rw [e, UInt8.ofNat_toNat] at this
    refine ⟨this, ?_⟩
    intro x hx
    simp only [hexByte, List.mem_cons, List.not_mem_nil, or_false] at hx
    rcases hx with rfl | rfl | rfl
    · decide
    · exact (digitChar_id _ h1).2.1
    · exact (digitChar_id _ h2).2.1

theorem printBytes_body : ∀ bs : List UInt8, StrBody true (bs.flatMap printByte) bs ∧
    ∀ x ∈ bs.flatMap printByte, x.toNat < 128
  | [] => ⟨.nil, by simp⟩
  | b :: bs => by
    obtain ⟨h1, h2⟩ := printByte_elem b
    obtain ⟨h3, h4⟩ := printBytes_body bs
    rw [List.flatMap_cons]
    refine ⟨StrBody.cons h1 h3, ?_⟩
    intro x hx
    rw [List.mem_append] at hx
    exact hx.elim (h2 x) (h4 x)

theorem printBytes_lit (bs : List UInt8) : StrLit true (printBytes bs) bs ∧ ∀ x ∈ printBytes bs, x.toNat < 128 := by
  obtain ⟨h1, h2⟩ := printBytes_body bs
  refine ⟨⟨_, rfl, h1⟩, ?_⟩
  intro x hx
  simp only [printBytes, List.cons_append, List.mem_cons, List.mem_append, List.not_mem_nil, or_false] at hx
  rcases hx with rfl | hx | rfl
  · decide
  · exact h2 x hx
  · decide

theorem tokenString_ok {strict : Bool} {t : Text} {bs : List UInt8} (h : StrLit strict t bs) :
    tokenString t = some bs := by
  obtain ⟨body, rfl, hb⟩ := h
  have := parseStr_ok (allow := true) hb (.inl rfl) []
  simp only [tokenString, List.cons_append, this]

/-! ## Identifiers -/

theorem tokenId_quoted {strict : Bool} {body : Text} {n : Text} (h : StrBody strict body (utf8 n)) (hn : n ≠ []) :
    tokenId ('$' :: '"' :: body ++ ['"']) = some n := by
  have := parseStr_ok (allow := true) h (.inl rfl) []
  simp only [tokenId, List.cons_append, List.tail_cons]
  rw [this]
  simp only [fromUtf8_utf8]

theorem id_not_quote : isIdCode '"'.toNat = false := by decide

theorem tokenId_plain {n : Text} (h : IdChars n) (hn : n ≠ []) : tokenId ('$' :: n) = some n := by
  cases n with
  | nil => exact absurd rfl hn
  | cons c n =>
    have hc : c ≠ '"' := by
      rintro rfl
      have := h _ (List.mem_cons_self ..)
      rw [id_not_quote] at this; cases this
    unfold tokenId
    simp only [List.tail_cons]
    split
    · next heq =>
      split at heq
      · next h' => exact absurd (List.cons.inj h').1 hc
      · cases heq
    · next heq =>
      split at heq
      · next h' => exact absurd (List.cons.inj h').1 hc
      · cases heq
    · next heq =>
      split at heq
      · next h' => exact absurd (List.cons.inj h').1 hc
      · cases heq; rfl

theorem idChars_lt {t : Text} (h : IdChars t) : ∀ c ∈ t, c.toNat < 128 := fun c hc => isIdCode_lt (h c hc)

theorem letter_nat {c : Char} (h : 'a' ≤ c ∧ c ≤ 'z') : 97 ≤ c.toNat ∧ c.toNat ≤ 122 := h

theorem letter_id {c : Char} (h : 'a' ≤ c ∧ c ≤ 'z') : isIdCode c.toNat = true := by
  have := letter_nat h
  have key : ∀ n : Fin 123, 97 ≤ n.val → isIdCode n.val = true := by decide
  exact key ⟨c.toNat, by omega⟩ this.1

theorem idChars_append {s t : Text} (hs : IdChars s) (ht : IdChars t) : IdChars (s ++ t) := by
  intro c hc
  rw [List.mem_append] at hc
  exact hc.elim (hs c) (ht c)

theorem idChars_toDigits (n : Nat) : IdChars (Nat.toDigits 10 n) := by
  intro c hc
  obtain ⟨d, hd, rfl⟩ := toDigits_char (by decide) (by decide) _ hc
  exact (digitChar_id d hd).1

theorem idChars_hash {g : Text} (hg : Letters g) (n : Nat) : IdChars ('#' :: g ++ Nat.toDigits 10 n) := by
  refine idChars_append (s := '#' :: g) ?_ (idChars_toDigits n)
  intro c hc
  rcases List.mem_cons.mp hc with rfl | hc
  · decide
  · exact letter_id (hg c hc)

/-- Plain text of a string is its own contents. -/
theorem body_self : ∀ {p : Text}, (∀ c ∈ p, 0x20 ≤ c.toNat ∧ c.toNat ≠ 0x7f ∧ c ≠ '"' ∧ c ≠ '\\') →
    ∀ {t : Text} {bs : List UInt8}, StrBody true t bs → StrBody true (p ++ t) (utf8 p ++ bs)
  | [], _, _, _, h => by simpa using h
  | c :: p, hp, t, bs, h => by
    have h1 := hp c (List.mem_cons_self ..)
    have h2 := body_self (fun x hx => hp x (List.mem_cons_of_mem _ hx)) h
    have := StrBody.cons (StrElem.char (strict := true) h1.1 h1.2.1 h1.2.2.1 h1.2.2.2) h2
    simpa using this

theorem hash_plain {g : Text} (hg : Letters g) (n : Nat) :
    ∀ c ∈ '#' :: g ++ Nat.toDigits 10 n, c ≠ ' ' ∧ 0x20 ≤ c.toNat ∧ c.toNat ≠ 0x7f ∧ c ≠ '"' ∧ c ≠ '\\' := by
  intro c hc
  simp only [List.cons_append, List.mem_cons, List.mem_append] at hc
  rcases hc with rfl | hc | hc
  · decide
  · have := letter_nat (hg c hc)
    refine ⟨?_, by omega, by omega, ?_, ?_⟩ <;> rintro rfl <;> revert this <;> decide
  · obtain ⟨d, hd, rfl⟩ := toDigits_char (by decide) (by decide) _ hc
    have := digitChar_id d hd
    exact ⟨this.2.2.1, this.2.2.2⟩

/-- The name an identifier stands for. -/
def Naming.decoded (n : Naming) : Text :=
  match n.kind with
  | .syntheticPrefix p => p ++ ' ' :: n.name
  | _ => n.name

/-- What `Naming.new` makes. -/
structure Naming.Fine (group : Text) (index : Nat) (n : Naming) : Prop where
  dollar : n.kind = .dollarName → n.name ≠ [] ∧ n.name.head? ≠ some '#' ∧ IdChars n.name
  quoted : n.kind = .dollarQuotedName → n.name ≠ [] ∧ n.name.head? ≠ some '#'
  synthetic : ∀ p, n.kind = .syntheticPrefix p → p = '#' :: group ++ Nat.toDigits 10 index

theorem Naming.new_fine (name : Text) (index : Nat) (group : Text) (used : Option (List Text)) :
    (Naming.new name index group used).1.Fine group index ∧ (Naming.new name index group used).1.name = name := by
  have hk : (if name.any (fun c => !isIdCode c.toNat) then NamingKind.dollarQuotedName else .dollarName) = .dollarName →
      IdChars name := by
    intro h
    split at h
    · cases h
    · next h' =>
      intro c hc
      rw [List.any_eq_true] at h'
      simp only [Bool.not_eq_true', not_exists, not_and, Bool.not_eq_false] at h'
      exact h' c hc
  have hq : ∀ p, (if name.any (fun c => !isIdCode c.toNat) then NamingKind.dollarQuotedName else .dollarName)
      ≠ .syntheticPrefix p := by
    intro p; split <;> simp
  have hsyn : Naming.Fine group index ⟨name, .syntheticPrefix ('#' :: group ++ Nat.toDigits 10 index)⟩ := by
    constructor
    · intro h; cases h
    · intro h; cases h
    · intro p h; cases h; rfl
  unfold Naming.new
  simp only
  split
  · exact ⟨hsyn, rfl⟩
  · next hne =>
    rw [not_or] at hne
    have hfine : Naming.Fine group index ⟨name, if name.any (fun c => !isIdCode c.toNat) then NamingKind.dollarQuotedName else .dollarName⟩ := by
      constructor
      · intro h; exact ⟨hne.1, hne.2, hk h⟩
      · intro h; exact hne
      · intro p h; exact absurd h (hq p)
    cases used with
    | none => exact ⟨hfine, rfl⟩
    | some set =>
      simp only
      split
      · exact ⟨hsyn, rfl⟩
      · exact ⟨hfine, rfl⟩

theorem Naming.identifier_ok {group : Text} (hg : Letters group) {index : Nat} {n : Naming} (h : n.Fine group index) :
    Word true .id n.identifier ∧ (∀ c ∈ n.identifier, c.toNat < 128) ∧ tokenId n.identifier = some n.decoded := by
  obtain ⟨name, kind⟩ := n
  cases kind with
  | dollarName =>
    obtain ⟨h1, -, h3⟩ := h.dollar rfl
    refine ⟨.id h3, ?_, tokenId_plain h3 h1⟩
    intro c hc
    simp only [Naming.identifier] at hc
    rcases List.mem_cons.mp hc with rfl | hc
    · decide
    · exact idChars_lt h3 c hc
  | dollarQuotedName =>
    obtain ⟨h1, -⟩ := h.quoted rfl
    obtain ⟨hb, ha⟩ := printStrContents_body name
    refine ⟨?_, ?_, tokenId_quoted hb h1⟩
    · have := Word.idString (strict := true) (t := '"' :: printStrContents name ++ ['"']) ⟨_, rfl, hb⟩
      simpa [Naming.identifier] using this
    · intro c hc
      simp only [Naming.identifier, List.cons_append, List.mem_cons, List.mem_append, List.not_mem_nil, or_false] at hc
      rcases hc with rfl | rfl | hc | rfl
      · decide
      · decide
      · exact ha c hc
      · decide
  | syntheticPrefix p =>
    have hp := h.synthetic p rfl
    obtain ⟨hb, ha⟩ := printStrContents_body name
    have hsp : ∀ c ∈ p ++ [' '], 0x20 ≤ c.toNat ∧ c.toNat ≠ 0x7f ∧ c ≠ '"' ∧ c ≠ '\\' := by
      intro c hc
      rcases List.mem_append.mp hc with hc | hc
      · rw [hp] at hc
        exact (hash_plain hg index c hc).2
      · rw [List.mem_singleton] at hc; subst hc; decide
    have hb' := body_self hsp hb
    rw [← utf8_append] at hb'
    have e1 : p ++ [' '] ++ name = p ++ ' ' :: name := by simp
    have e2 : p ++ [' '] ++ printStrContents name = p ++ ' ' :: printStrContents name := by simp
    rw [e1, e2] at hb'
    refine ⟨?_, ?_, ?_⟩
    · have := Word.idString (strict := true) (t := '"' :: (p ++ ' ' :: printStrContents name) ++ ['"']) ⟨_, rfl, hb'⟩
      simpa [Naming.identifier] using this
    · intro c hc
      simp only [Naming.identifier, List.cons_append, List.mem_cons, List.mem_append, List.append_assoc,
        List.not_mem_nil, or_false] at hc
      rcases hc with rfl | rfl | hc | rfl | hc | rfl
      · decide
      · decide
      · rw [hp] at hc
        exact idChars_lt (idChars_hash hg index) c hc
      · decide
      · exact ha c hc
      · decide
    · have := tokenId_quoted hb' (by simp)
      simpa [Naming.identifier, Naming.decoded] using this

/-! ## Integers -/

theorem printInt_lit (i : Int) : IntLit ⟨if i < 0 then some .minus else none, false, false⟩ (printInt i) i := by
  have hd := digits_toDigits (base := 10) (by decide) (by decide) i.natAbs
  have hu : hasUnderscore (Nat.toDigits 10 i.natAbs) = false := by
    rw [hasUnderscore, List.contains_eq_mem, decide_eq_false_iff_not]
    intro hm
    obtain ⟨d, hlt, he⟩ := toDigits_char (by decide) (by decide) _ hm
    have key : ∀ d : Nat, d < 16 → '_' ≠ d.digitChar := by decide
    exact key d hlt he
  unfold printInt
  split
  · next h =>
    refine ⟨some .minus, ['-'], false, 10, [], _, _, .minus, .dec, hd, by simp, by rw [hu], ?_⟩
    simp only [if_true]; omega
  · next h =>
    refine ⟨none, [], false, 10, [], _, _, .none, .dec, hd, by simp, by rw [hu], ?_⟩
    simp; omega

theorem printInt_ascii (i : Int) : ∀ c ∈ printInt i, c.toNat < 128 := by
  have key : ∀ c ∈ Nat.toDigits 10 i.natAbs, c.toNat < 128 :=
    digits_ascii (digits_toDigits (base := 10) (by decide) (by decide) i.natAbs)
  intro c hc
  unfold printInt at hc
  split at hc
  · rcases List.mem_cons.mp hc with rfl | hc
    · decide
    · exact key c hc
  · exact key c hc

theorem hex2_no_underscore (b : UInt8) : '_' ∉ hex2 b := by
  have hb := b.toNat_lt
  have key : ∀ d : Nat, d < 16 → '_' ≠ d.digitChar := by decide
  simp only [hex2, List.mem_cons, List.not_mem_nil, or_false, not_or]
  exact ⟨key _ (by omega), key _ (by omega)⟩

theorem printChunk_lit (b0 b1 b2 b3 : UInt8) : IntLit ⟨none, false, true⟩ (printChunk b0 b1 b2 b3)
    (((b3.toNat * 256 + b2.toNat) * 256 + b1.toNat) * 256 + b0.toNat : Nat) := by
  have hd := digits_two (digits_two (digits_two (digits_hex2 b3) b2) b1) b0
  have hu : hasUnderscore (hex2 b3 ++ hex2 b2 ++ hex2 b1 ++ hex2 b0) = false := by
    rw [hasUnderscore, List.contains_eq_mem, decide_eq_false_iff_not]
    simp only [List.mem_append, not_or]
    exact ⟨⟨⟨hex2_no_underscore _, hex2_no_underscore _⟩, hex2_no_underscore _⟩, hex2_no_underscore _⟩
  refine ⟨none, [], true, 16, ['0', 'x'], _, _, .none, .hex, hd, by simp [printChunk], by rw [hu], ?_⟩
  simp

theorem printChunk_ascii (b0 b1 b2 b3 : UInt8) : ∀ c ∈ printChunk b0 b1 b2 b3, c.toNat < 128 := by
  have hd := digits_ascii (digits_two (digits_two (digits_two (digits_hex2 b3) b2) b1) b0)
  intro c hc
  simp only [printChunk, List.cons_append, List.mem_cons] at hc
  rcases hc with rfl | rfl | hc
  · decide
  · decide
  · exact hd c hc

theorem intLit_numTok {k : IntegerKind} {src : Text} {v : Int} (h : IntLit k src v) : NumTok (.integer k) src := by
  obtain ⟨sg, s, hex, base, p, t, n, hs, hb, ht, rfl, rfl, -⟩ := h
  exact .int hs hb ht

theorem leBytes32_eq (b0 b1 b2 b3 : UInt8) :
    leBytes32 (((((b3.toNat * 256 + b2.toNat) * 256 + b1.toNat) * 256 + b0.toNat : Nat) : Int).bmod (2 ^ 32)) =
      [b0, b1, b2, b3] := by
  have h0 := b0.toNat_lt
  have h1 := b1.toNat_lt
  have h2 := b2.toNat_lt
  have h3 := b3.toNat_lt
  have key : ((((((b3.toNat * 256 + b2.toNat) * 256 + b1.toNat) * 256 + b0.toNat : Nat) : Int).bmod (2 ^ 32)) % 2 ^ 32).toNat
      = ((b3.toNat * 256 + b2.toNat) * 256 + b1.toNat) * 256 + b0.toNat := by
    have h := Int.bmod_emod (x := ((((b3.toNat * 256 + b2.toNat) * 256 + b1.toNat) * 256 + b0.toNat : Nat) : Int)) (m := 2 ^ 32)
    have e : ((2 ^ 32 : Nat) : Int) = 2 ^ 32 := by decide
    rw [e] at h
    rw [h]
    omega
  unfold leBytes32
  simp only [key]
  simp only [List.cons.injEq, and_true]
  refine ⟨?_, ?_, ?_, ?_⟩ <;> apply UInt8.toNat_inj.mp <;> rw [UInt8.toNat_ofNat'] <;> omega

end Verif.Wat
