import Verif.Wat.Names
/-
The properties of the text lexer of `wast` and the names, strings and integers `wasmprinter` prints
(C24-C27, C45).
-/
namespace Verif.Wat.Props

open Verif.Std Verif.Wat Spec

/-! ## C26: the tokens tile the input -/

/-- **C26.** The lexer ends, without panic, on every text (shorter than 2^32 bytes): either the
tokens are non-empty pieces of the text, one after the other, that cover it, or there is an error at a
character of the text, and the tokens before it cover a prefix of the text before that. -/
theorem c26_tiles (L : Lexer) (hlen : strLen L.input < 2 ^ 32) :
    (∃ ts, iterFrom L (strLen L.input + 1) 0 = .done ts ∧ Tiles 0 L.input ts) ∨
    (∃ ts e pre mid rest, iterFrom L (strLen L.input + 1) 0 = .failed ts (strLen (pre ++ mid)) e ∧
      L.input = pre ++ mid ++ rest ∧ Tiles 0 pre ts) := by
  have h := iterFrom_spec L hlen (strLen L.input + 1) [] L.input rfl (by omega)
  simpa using h

example : iterFrom ⟨"(a ;;é\n \"ü\")".toList, false⟩ 100 0 = .done
    [⟨.lparen, 0, 1⟩, ⟨.keyword, 1, 1⟩, ⟨.whitespace, 2, 1⟩, ⟨.lineComment, 3, 4⟩, ⟨.whitespace, 7, 2⟩,
     ⟨.string, 9, 4⟩, ⟨.rparen, 13, 1⟩] := by decide

example : iterFrom ⟨"(é".toList, false⟩ 100 0 = .failed [⟨.lparen, 0, 1⟩] 1 (.unexpected 'é') := by decide

/-- The pieces `Token::src` gives are the ones of the tiling: together they are the input. -/
theorem c26_sources (pre text post : Text) (ts : List Token) (h : Tiles (strLen pre) text ts) :
    ∃ srcs : List Text, ts.map (fun t => t.src (pre ++ text ++ post)) = srcs.map some ∧
      srcs.flatten = text ∧ ∀ s ∈ srcs, s ≠ [] := by
  generalize hp : strLen pre = pos at h
  induction h generalizing pre with
  | nil => exact ⟨[], rfl, rfl, by simp⟩
  | @cons pos t rest k ts hne _ ih =>
    obtain ⟨srcs, h1, h2, h3⟩ := ih (pre ++ t) (by rw [strLen_append, hp])
    refine ⟨t :: srcs, ?_, by rw [List.flatten_cons, h2], ?_⟩
    · have e : pre ++ (t ++ rest) ++ post = pre ++ t ++ rest ++ post := by simp
      rw [List.map_cons, List.map_cons, e, h1]
      congr 1
      have := slice_append pre t (rest ++ post)
      rw [strLen_append, hp] at this
      simpa [Token.src] using this
    · intro s hs
      rcases List.mem_cons.mp hs with rfl | hs
      · exact hne
      · exact h3 s hs

/-! ## C45: tokens are those of the grammar -/

/-- **C45.** The lexer reads a token exactly where the lexical grammar has one (with repeated
underscores allowed in `\u{…}`, see `c45_relaxed`), of the same kind and extent. -/
theorem c45_grammar (L : Lexer) (pre s : Text) (h : L.input = pre ++ s) (hlen : strLen L.input < 2 ^ 32)
    (tok : Token) (p : Nat) :
    parse L (strLen pre) = .ok (some tok, p) ↔
      ∃ t rest, s = t ++ rest ∧ Tok false L.allowConfusing tok.kind t rest ∧
        tok.offset = strLen pre ∧ tok.len = strLen t ∧ p = strLen pre + strLen t := by
  constructor
  · intro hp
    rcases parse_cases L pre s h hlen with ⟨-, h1⟩ | ⟨k, t, rest, hs, -, htok, h1⟩ | ⟨mid, rest, e, -, h1⟩
    · rw [hp] at h1; cases h1
    · rw [hp] at h1
      simp only [Res.ok.injEq, Prod.mk.injEq, Option.some.injEq] at h1
      obtain ⟨rfl, rfl⟩ := h1
      exact ⟨t, rest, hs, htok, rfl, rfl, strLen_append ..⟩
    · rw [hp] at h1; cases h1
  · rintro ⟨t, rest, rfl, htok, h1, h2, rfl⟩
    have ht : strLen t < 2 ^ 32 := by
      rw [h] at hlen; simp only [strLen_append] at hlen; omega
    have := (oneToken pre htok (.inl rfl) ht).1
    obtain ⟨k, o, l⟩ := tok
    simp only at h1 h2
    subst h1 h2
    obtain ⟨input, allow⟩ := L
    simp only at h
    subst h
    simpa using this

/-- **C45.** Every token of the lexical grammar as written in the standard, other than reserved ones, is
read as that token. -/
theorem c45_standard (allow : Bool) (pre t rest : Text) (k : TokenKind) (h : Tok true allow k t rest)
    (hk : k ≠ .reserved) (hlen : strLen t < 2 ^ 32) : OneToken allow pre t rest k :=
  oneToken pre h (.inr hk) hlen

/-- A grammar token: an integer with underscores. -/
example : Tok true false (.integer ⟨some .minus, true, true⟩) "-0x1_f".toList ")".toList :=
  .word (.number (NumTok.int (t := "1_f".toList) (n := 31) .minus .hex
    (Digits.more (base := 16) (strict := true) (u := ['_']) (Digits.one (c := '1') (d := 1) (by decide)) (by decide)
      (by decide) (c := 'f') (d := 15) (by decide))))
    (.inr (by decide)) (by simp [EndsWord]; decide)

/-- **C45.** The lexer reads more than the grammar: in `\u{1__2}` the grammar has at most one
underscore between two digits. -/
theorem c45_relaxed : ∃ t : Text, (∀ allow pre rest, EndsWord rest → OneToken allow pre t rest .string) ∧
    ∀ bs, ¬ StrLit true t bs := by
  refine ⟨"\"\\u{1__2}\"".toList, ?_, ?_⟩
  · intro allow pre rest hr
    have hd : Digits 16 false "1__2".toList ('\x12').toNat :=
      Digits.more (u := ['_', '_']) (Digits.one (c := '1') (d := 1) (by decide)) (by decide) (by decide)
        (c := '2') (d := 2) (by decide)
    have hb : StrBody false "\\u{1__2}".toList (utf8 ['\x12'] ++ []) :=
      StrBody.cons (t := []) (StrElem.unicode hd) .nil
    exact oneToken pre (.word (.string ⟨_, rfl, hb⟩) (.inr (by decide)) hr) (.inl rfl) (by decide)
  · rintro bs ⟨body, hb, hbody⟩
    have hb' : body = "\\u{1__2}".toList := by
      have := congrArg List.tail hb
      simp only [List.cons_append, List.tail_cons] at this
      have h2 := congrArg List.dropLast this
      rw [List.dropLast_concat] at h2
      rw [← h2]; decide
    clear hb
    cases hbody with
    | nil => cases hb'
    | @cons e b t bs he _ =>
      cases he with
      | char h1 h2 h3 h4 =>
        have := congrArg List.head? hb'
        simp at this
        exact h4 this
      | simple h =>
        have := congrArg (fun l => l[1]?) hb'
        simp at this
        subst this
        exact absurd h (by simp [simpleEscapes])
      | hex h1 h2 =>
        have := congrArg (fun l => l[1]?) hb'
        simp at this
        subst this
        have hu : toDigit 16 'u' = none := by decide
        rw [hu] at h1; cases h1
      | @unicode d c hd =>
        have hx : d ++ '}' :: t = "1__2".toList ++ '}' :: [] := by
          simpa using hb'
        have hnb : '}' ∉ d := fun hm => digits_no_brace hd hm
        have hd' : d = "1__2".toList := before_char hnb (by decide) hx
        subst hd'
        have := classify_iff.mpr (NumTok.int Sgn.none Base.hex hd)
        revert this
        decide

/-! ## C24: strings and identifiers -/

/-- **C24.** A string printed by `print_str` is read as one string token with the bytes of the string. -/
theorem c24_str (s : Text) (allow : Bool) (pre rest : Text) (hr : EndsWord rest)
    (hlen : strLen (printStr s) < 2 ^ 32) :
    OneToken allow pre (printStr s) rest .string ∧ tokenString (printStr s) = some (utf8 s) := by
  obtain ⟨h1, h2⟩ := printStr_lit s
  exact ⟨oneToken_word (.string h1) h2 (by simp) allow pre rest hr hlen, tokenString_ok h1⟩

/-- **C24.** Bytes printed by `print_bytes` are read as one string token with the same bytes. -/
theorem c24_bytes (bs : List UInt8) (allow : Bool) (pre rest : Text) (hr : EndsWord rest)
    (hlen : strLen (printBytes bs) < 2 ^ 32) :
    OneToken allow pre (printBytes bs) rest .string ∧ tokenString (printBytes bs) = some bs := by
  obtain ⟨h1, h2⟩ := printBytes_lit bs
  exact ⟨oneToken_word (.string h1) h2 (by simp) allow pre rest hr hlen, tokenString_ok h1⟩

/-- **C24.** The identifier printed for a name is read as one identifier token; it stands for the name,
or, when the name is empty, starts with `#` or is used already, for the name with a prefix made
of the group and the index. -/
theorem c24_identifier (name : Text) (index : Nat) (group : Text) (used : Option (List Text)) (hg : Letters group)
    (allow : Bool) (pre rest : Text) (hr : EndsWord rest)
    (hlen : strLen (Naming.new name index group used).1.identifier < 2 ^ 32) :
    OneToken allow pre (Naming.new name index group used).1.identifier rest .id ∧
    tokenId (Naming.new name index group used).1.identifier = some
      (if name = [] ∨ name.head? = some '#' ∨ (∃ u ∈ used, name ∈ u) then
        '#' :: group ++ Nat.toDigits 10 index ++ ' ' :: name
      else name) := by
  obtain ⟨hf, hn⟩ := Naming.new_fine name index group used
  obtain ⟨h1, h2, h3⟩ := Naming.identifier_ok hg hf
  refine ⟨oneToken_word h1 h2 (by simp) allow pre rest hr hlen, ?_⟩
  rw [h3]
  congr 1
  have hpl : ∀ n : Text, Naming.decoded ⟨n, if n.any (fun c => !isIdCode c.toNat) then NamingKind.dollarQuotedName else .dollarName⟩ = n := by
    intro n; unfold Naming.decoded; split
    · next h => split at h <;> cases h
    · rfl
  unfold Naming.new
  simp only
  by_cases h0 : name = [] ∨ name.head? = some '#'
  · rw [if_pos h0, if_pos (h0.elim .inl (fun h => .inr (.inl h)))]
    simp [Naming.decoded]
  · rw [if_neg h0]
    cases used with
    | none =>
      rw [if_neg (c := name = [] ∨ name.head? = some '#' ∨ (∃ u ∈ (none : Option (List Text)), name ∈ u))
        (by rintro (h | h | ⟨u, hu, -⟩)
            · exact h0 (.inl h)
            · exact h0 (.inr h)
            · cases hu)]
      exact hpl name
    | some set =>
      simp only
      by_cases hm : name ∈ set
      · rw [if_pos hm, if_pos (.inr (.inr ⟨set, rfl, hm⟩))]
        simp [Naming.decoded]
      · rw [if_neg hm, if_neg (c := name = [] ∨ name.head? = some '#' ∨ (∃ u ∈ some set, name ∈ u))]
        · exact hpl name
        · rintro (h | h | ⟨u, hu, h⟩)
          · exact h0 (.inl h)
          · exact h0 (.inr h)
          · cases hu; exact hm h

example : printStr "a\"é\n".toList = "\"a\\u{22}\\u{e9}\\u{a}\"".toList := by decide
example : printBytes [0x61, 0xff, 0x22, 0] = "\"a\\ff\\22\\00\"".toList := by decide
example : (Naming.new "a b".toList 3 "func".toList none).1.identifier = "$\"a b\"".toList ∧
    (Naming.new "x".toList 3 "func".toList (some ["x".toList])).1.identifier = "$\"#func3 x\"".toList := by decide
example : EndsWord ")".toList ∧ EndsWord [] ∧ Letters "func".toList := by
  refine ⟨by simp [EndsWord]; decide, by simp [EndsWord], ?_⟩
  unfold Letters
  decide

/-! ## C25: identifiers are unique -/

/-- **C25.** What `wasmprinter` prints for the items of one name map, whatever names there are in it and
for named and unnamed items alike, stands for different identifiers or indices for different
items, and an index is the item's own. -/
theorem c25_unique (nameUnnamed : Bool) (group desc : Text) (hg : Letters group) (hd : Letters desc)
    (names : List (Nat × Text)) :
    ∃ ref : Nat → Sum Text Nat,
      (∀ i, Denotes (printIdx nameUnnamed desc (nameMap group names) i) (ref i)) ∧
      (∀ i j, ref i = ref j → i = j) ∧ (∀ i k, ref i = .inr k → k = i) := by
  have hf := nameMapLoop_fine group names (some [])
  have hp := (nameMapLoop_distinct group names []).2
  refine ⟨refOf nameUnnamed desc (nameMap group names), refOf_denotes nameUnnamed hg hd hf,
    fun i j h => refOf_inj nameUnnamed hg hd hf hp h, ?_⟩
  intro i k h
  unfold refOf at h
  cases hn : getName (nameMap group names) i with
  | some n => rw [hn] at h; cases h
  | none =>
    rw [hn] at h
    simp only at h
    split at h
    · cases h
    · exact (Sum.inr.inj h).symm

example :
    let names := [(0, "a".toList), (1, "a".toList), (2, "".toList), (3, "#func1 a".toList)]
    (List.range 5).map (printIdx true "func".toList (nameMap "func".toList names)) =
      ["$a".toList, "$\"#func1 a\"".toList, "$\"#func2 \"".toList, "$\"#func3 #func1 a\"".toList, "$#func4".toList] := by
  decide

/-- **C25.** With two subsections for the same kind of items, the identifiers of different items can be the
same: the second subsection starts with no names used. -/
theorem c25_two_subsections : ∃ subsections : List (List (Nat × Text)), ∃ i j, i ≠ j ∧
    (getName (nameMaps "func".toList subsections) i).isSome ∧
    printIdx false "func".toList (nameMaps "func".toList subsections) i =
      printIdx false "func".toList (nameMaps "func".toList subsections) j :=
  ⟨[[(0, "a".toList)], [(1, "a".toList)]], 0, 1, by decide, by decide, by decide⟩

/-! ## C27: integers -/

/-- **C27.** Every integer token has a value. -/
theorem c27_value (L : Lexer) (pre s : Text) (h : L.input = pre ++ s) (hlen : strLen L.input < 2 ^ 32)
    (tok : Token) (p : Nat) (k : IntegerKind) (hk : tok.kind = .integer k)
    (hp : parse L (strLen pre) = .ok (some tok, p)) :
    ∃ src v, tok.src L.input = some src ∧ IntLit k src v := by
  obtain ⟨t, rest, rfl, htok, h1, h2, -⟩ := (c45_grammar L pre s h hlen tok p).mp hp
  have hsrc : tok.src L.input = some t := by
    rw [h, Token.src, h1, h2, ← strLen_append, ← List.append_assoc]
    exact slice_append pre t rest
  rw [hk] at htok
  cases htok with
  | word hw =>
    cases hw with
    | number hn =>
      cases hn with
      | @int sg s hex base p t n hs hb ht =>
        exact ⟨_, _, hsrc, sg, s, hex, base, p, t, n, hs, hb, ht, rfl, rfl, rfl⟩

/-- **C27.** Reading an integer literal as a signed type (`i8` … `i64`; in the text format these are
the uninterpreted integers) accepts the values from `-2^(bits-1)` to `2^bits - 1` and gives the
signed number with the same bits. -/
theorem c27_signed (bits : Nat) (hbits : 0 < bits) (k : IntegerKind) (src : Text) (v : Int) (h : IntLit k src v) :
    parseInteger true bits src k =
      if -((2 ^ (bits - 1) : Nat) : Int) ≤ v ∧ v < ((2 ^ bits : Nat) : Int) then some (v.bmod (2 ^ bits)) else none := by
  obtain ⟨sg, s, hex, base, p, t, n, hs, hb, ht, rfl, rfl, rfl⟩ := h
  rw [parseInteger_eq true bits hbits hs hb ht]
  rfl

/-- **C27.** Reading an integer literal as an unsigned type accepts the values below `2^bits` written
without a minus sign. -/
theorem c27_unsigned (bits : Nat) (hbits : 0 < bits) (k : IntegerKind) (src : Text) (v : Int) (h : IntLit k src v) :
    parseInteger false bits src k =
      if k.sign ≠ some .minus ∧ v < ((2 ^ bits : Nat) : Int) then some v else none := by
  obtain ⟨sg, s, hex, base, p, t, n, hs, hb, ht, rfl, rfl, rfl⟩ := h
  rw [parseInteger_eq false bits hbits hs hb ht]
  by_cases hm : sg = some .minus
  · simp [hm]
  · simp only [Bool.false_eq_true, if_false, hm, not_false_eq_true, true_and, ne_eq]

/-- **C27.** Every `i32`/`i64` constant `wasmprinter` prints is read as one token with the same value. -/
theorem c27_printed (bits : Nat) (hbits : 0 < bits) (i : Int) (h1 : -((2 ^ (bits - 1) : Nat) : Int) ≤ i)
    (h2 : i < ((2 ^ (bits - 1) : Nat) : Int)) :
    ∃ k, parseInteger true bits (printInt i) k = some i ∧ ∀ allow pre rest, EndsWord rest →
      strLen (printInt i) < 2 ^ 32 → OneToken allow pre (printInt i) rest (.integer k) := by
  have hl := printInt_lit i
  refine ⟨_, ?_, fun allow pre rest hr hlen =>
    oneToken_word (.number (intLit_numTok hl)) (printInt_ascii i) (by simp) allow pre rest hr hlen⟩
  have hpow : (2 : Nat) ^ bits = 2 * 2 ^ (bits - 1) := by
    rw [← Nat.pow_succ']; congr 1; omega
  obtain ⟨H, hH⟩ : ∃ H : Nat, H = 2 ^ (bits - 1) := ⟨_, rfl⟩
  rw [c27_signed bits hbits _ _ _ hl, hpow, ← hH]
  rw [← hH] at h1 h2
  rw [if_pos ⟨h1, by omega⟩]
  rw [Int.bmod_eq_of_le] <;> omega

/-- **C27.** The four bytes of each chunk of a `v128.const` `wasmprinter` prints are read back. -/
theorem c27_v128 (b0 b1 b2 b3 : UInt8) :
    ∃ k v, parseInteger true 32 (printChunk b0 b1 b2 b3) k = some v ∧ leBytes32 v = [b0, b1, b2, b3] ∧
      ∀ allow pre rest, EndsWord rest → strLen (printChunk b0 b1 b2 b3) < 2 ^ 32 →
        OneToken allow pre (printChunk b0 b1 b2 b3) rest (.integer k) := by
  have hl := printChunk_lit b0 b1 b2 b3
  refine ⟨_, _, ?_, leBytes32_eq b0 b1 b2 b3, fun allow pre rest hr hlen =>
    oneToken_word (.number (intLit_numTok hl)) (printChunk_ascii b0 b1 b2 b3) (by simp) allow pre rest hr hlen⟩
  rw [c27_signed 32 (by decide) _ _ _ hl, if_pos]
  have := b0.toNat_lt
  have := b1.toNat_lt
  have := b2.toNat_lt
  have := b3.toNat_lt
  have e : ((2 ^ 32 : Nat) : Int) = 4294967296 := by decide
  have e2 : ((2 ^ (32 - 1) : Nat) : Int) = 2147483648 := by decide
  rw [e, e2]
  omega

example : parseInteger true 8 "0xf_f".toList ⟨none, true, true⟩ = some (-1) ∧
    parseInteger true 8 "256".toList ⟨none, false, false⟩ = none ∧
    parseInteger true 8 "-128".toList ⟨some .minus, false, false⟩ = some (-128) ∧
    parseInteger true 8 "-129".toList ⟨some .minus, false, false⟩ = none ∧
    parseInteger false 8 "+255".toList ⟨some .plus, false, false⟩ = some 255 ∧
    parseInteger false 8 "-0".toList ⟨some .minus, false, false⟩ = none := by decide

example : IntLit ⟨none, true, true⟩ "0xf_f".toList 255 :=
  ⟨none, [], true, 16, "0x".toList, "f_f".toList, 255, .none, .hex,
    Digits.more (u := ['_']) (Digits.one (c := 'f') (d := 15) (by decide)) (by decide) (by decide) (c := 'f') (d := 15)
      (by decide), by decide, by decide, by decide⟩

end Verif.Wat.Props
