import Verif.Float.Scan
/-
Reading a hexadecimal literal whose parts are known.
-/
namespace Verif.Float

open Verif.Std Verif.Wat Spec

/-! ## Lists of digits -/

theorem ofDigits_zeros (zs l : List Nat) (hz : ∀ d ∈ zs, d = 0) : ofDigits 16 (zs ++ l) = ofDigits 16 l := by
  induction zs with
  | nil => rfl
  | cons z zs ih =>
    have hz0 : z = 0 := hz z List.mem_cons_self
    subst hz0
    have := ih (fun d hd => hz d (List.mem_cons_of_mem _ hd))
    rw [← this]
    rfl

theorem significant_split (ds : List Nat) :
    ∃ zs, ds = zs ++ significant ds ∧ ∀ d ∈ zs, d = 0 := by
  refine ⟨ds.takeWhile (· == 0), (List.takeWhile_append_dropWhile).symm, ?_⟩
  intro d hd
  have := List.all_takeWhile (p := (· == 0)) (l := ds)
  rw [List.all_eq_true] at this
  simpa using this d hd

theorem significant_head {ds : List Nat} {d : Nat} {l : List Nat} (h : significant ds = d :: l) : d ≠ 0 := by
  induction ds with
  | nil => cases h
  | cons x ds ih =>
    unfold significant at h ih
    rw [List.dropWhile_cons] at h
    split at h
    · exact ih h
    · next hx => cases h; simpa using hx

theorem significant_append (a b : List Nat) :
    significant (a ++ b) = if significant a = [] then significant b else significant a ++ b := by
  unfold significant
  induction a with
  | nil => rfl
  | cons x a ih =>
    rw [List.cons_append, List.dropWhile_cons, List.dropWhile_cons]
    by_cases hx : (x == 0) = true
    · rw [if_pos hx, if_pos hx, ih]
    · rw [if_neg hx, if_neg hx, if_neg (by simp)]; rfl

/-! ## Texts of digits -/

/-- Only hexadecimal digits. -/
def HexText (t : Text) : Prop := ∀ c ∈ t, isHexDigit c = true

theorem toHex_lt {c : Char} (h : isHexDigit c = true) : toHex c < 16 := by
  have h1 := toDigit_hex c
  rw [if_pos h] at h1
  unfold toDigit at h1
  rw [Option.filter_eq_some_iff] at h1
  simpa using h1.2

theorem toHex_zero {c : Char} (h : isHexDigit c = true) : (toHex c == 0) = (c == '0') := by
  have hc : c = Char.ofNat c.toNat := (Char.ofNat_toNat c).symm
  simp only [isHexDigit, isDigit, Bool.or_eq_true, Bool.and_eq_true, decide_eq_true_eq] at h
  have hz : (c == '0') = decide (c.toNat = 0x30) := by
    by_cases hn : c.toNat = 0x30
    · rw [hc, hn]; decide
    · have : c ≠ '0' := by rintro rfl; exact hn (by decide)
      simp [hn, this]
  rw [hz]
  unfold toHex
  split
  · simp; omega
  · split
    · simp; omega
    · have : (c.toNat - 0x30 == 0) = decide (c.toNat - 0x30 = 0) := rfl
      rw [this, decide_eq_decide]
      omega

theorem trimZeros_map {t : Text} (h : HexText t) : (Fmt.trimZeros t).map toHex = significant (t.map toHex) := by
  unfold Fmt.trimZeros significant
  induction t with
  | nil => rfl
  | cons c t ih =>
    have hc := toHex_zero (h c List.mem_cons_self)
    rw [List.map_cons, List.dropWhile_cons, List.dropWhile_cons, hc]
    split
    · exact ih (fun x hx => h x (List.mem_cons_of_mem _ hx))
    · rfl

theorem trimZeros_hex {t : Text} (h : HexText t) : HexText (Fmt.trimZeros t) :=
  fun c hc => h c ((List.dropWhile_suffix _).subset hc)

section
variable {F : Fmt}

/-- The rest of `parseHex` once the digits and the exponent of the first of them are known. -/
def tailHex (F : Fmt) (negative : Bool) (lead : Nat) (digits : List (Nat × Bool)) (start : Int) (exponentStr : Option Text) : FRes :=
  let lz := Fmt.digitLz lead
  match (Fmt.inI32 (start * 4)).bind (fun x => Fmt.inI32 (x - (lz + 1))) with
  | none => .invalid
  | some exponent =>
    let pos := F.width - (4 - lz)
    match F.scanLoop ⟨exponent, pos, F.shl lead pos, false⟩ digits with
    | none => .panic
    | some st =>
      match (match exponentStr with
        | some s => fromStrRadix true 32 10 s
        | none => some 0) with
      | none => .invalid
      | some e =>
        match Fmt.inI32 (st.exponent + e) with
        | none => .invalid
        | some exponent => F.encode negative exponent st.significand st.extra

/-- The middle of `parseHex`. -/
def midHex (F : Fmt) (negative : Bool) (start : Option Int) (exponentStr : Option Text) : List (Nat × Bool) → FRes
  | [] => .bits (if negative then F.msb else 0)
  | (lead, _) :: ds =>
    match start with
    | none => .panic
    | some start => tailHex F negative lead ds start exponentStr

/-- What the text of an exponent is read as. -/
def ExpText (s : Option Text) (x : Int) : Prop :=
  (match s with | some s => fromStrRadix true 32 10 s | none => some 0) = if -(2 ^ 31) ≤ x ∧ x < 2 ^ 31 then some x else none

theorem digitLz_spec {d : Nat} (h0 : d ≠ 0) (h : d < 16) : Fmt.digitLz d < 4 ∧ (0 < Fmt.digitLz d ↔ d < 8) ∧
    8 ≤ d * 2 ^ Fmt.digitLz d ∧ d * 2 ^ Fmt.digitLz d < 16 := by
  have : ∀ d : Fin 16, d.val ≠ 0 → Fmt.digitLz d.val < 4 ∧ (0 < Fmt.digitLz d.val ↔ d.val < 8) ∧
    8 ≤ d.val * 2 ^ Fmt.digitLz d.val ∧ d.val * 2 ^ Fmt.digitLz d.val < 16 := by decide
  exact this ⟨d, h⟩ h0

theorem tailHex_literal (hF : WF F) (negative : Bool) {lead : Nat} (h0 : lead ≠ 0) (hlead : lead < 16)
    {digits : List (Nat × Bool)} (hd : ∀ p ∈ digits, p.1 < 16) (start : Int) (hs1 : -(2 ^ 26) ≤ start) (hs2 : start ≤ 1)
    (hc : intCount digits < 2 ^ 26) {s : Option Text} {x : Int} (hx : ExpText s x) (hx2 : -(2 ^ 30) ≤ x) :
    Literal F negative
      ((ofDigits 16 (lead :: (if lead < 8 then (digits.map Prod.fst).set (F.width / 4 - 1) 0 else digits.map Prod.fst)) : ℚ) *
        (2 : ℚ) ^ (x + 4 * start + 4 * intCount digits - 4 * (digits.length + 1)))
      (tailHex F negative lead digits start s) := by
  obtain ⟨hlz, hlz8, hn1, hn2⟩ := digitLz_spec h0 hlead
  have hw := hF.wide
  have h4 := hF.four
  obtain ⟨lz, hlzdef⟩ : ∃ lz, lz = Fmt.digitLz lead := ⟨_, rfl⟩
  unfold tailHex
  rw [← hlzdef] at hlz hlz8 hn1 hn2 ⊢
  simp only
  have hpos : F.width - (4 - lz) = 4 * (F.width / 4 - 1) + lz := by omega
  rw [inI32_some (x := start * 4) (by omega) (by omega)]
  simp only [Option.bind_some]
  rw [inI32_some (by omega) (by omega)]
  simp only
  rw [hpos]
  have hp4 : 2 ^ F.width = 2 ^ (4 * (F.width / 4 - 1)) * 16 := by
    rw [show (16 : Nat) = 2 ^ 4 from rfl, ← pow_add]; congr 1; omega
  have hp1 : 2 ^ (F.width - 1) = 2 ^ (4 * (F.width / 4 - 1)) * 8 := by
    rw [show (8 : Nat) = 2 ^ 3 from rfl, ← pow_add]; congr 1; omega
  have hpp : 0 < 2 ^ (4 * (F.width / 4 - 1)) := Nat.pow_pos (by decide)
  have hS : lead * 2 ^ (4 * (F.width / 4 - 1) + lz) = 2 ^ (4 * (F.width / 4 - 1)) * (lead * 2 ^ lz) := by
    rw [pow_add]; ring
  have hSlt : lead * 2 ^ (4 * (F.width / 4 - 1) + lz) < 2 ^ F.width := by
    rw [hS, hp4]; exact Nat.mul_lt_mul_of_pos_left hn2 hpp
  have hSge : 2 ^ (F.width - 1) ≤ lead * 2 ^ (4 * (F.width / 4 - 1) + lz) := by
    rw [hS, hp1]; exact Nat.mul_le_mul_left _ hn1
  have hshl : F.shl lead (4 * (F.width / 4 - 1) + lz) = lead * 2 ^ (4 * (F.width / 4 - 1) + lz) := by
    unfold Fmt.shl; exact Nat.mod_eq_of_lt hSlt
  rw [hshl]
  obtain ⟨pos, S', ex, ε, r1, r2, r3, r4, r5, r6, r7⟩ := scan_high hF lz hlz (F.width / 4 - 1) digits (start * 4 - (lz + 1))
    (lead * 2 ^ (4 * (F.width / 4 - 1) + lz)) (by omega) (Nat.dvd_mul_left _ _) hSlt hd (by omega) (by omega)
  rw [r1]
  simp only
  -- the value
  obtain ⟨e, he⟩ : ∃ e, e = start * 4 - (lz + 1) + 4 * (intCount digits : Int) + x := ⟨_, rfl⟩
  have hval : ((ofDigits 16 (lead :: (if lead < 8 then (digits.map Prod.fst).set (F.width / 4 - 1) 0 else digits.map Prod.fst)) : ℚ) *
        (2 : ℚ) ^ (x + 4 * start + 4 * intCount digits - 4 * (digits.length + 1))) = (S' + ε) * (2 : ℚ) ^ (e - F.width + 1) := by
    rw [r7]
    have hif : (if 0 < lz then (digits.map Prod.fst).set (F.width / 4 - 1) 0 else digits.map Prod.fst) =
        (if lead < 8 then (digits.map Prod.fst).set (F.width / 4 - 1) 0 else digits.map Prod.fst) := by
      by_cases h8 : lead < 8
      · rw [if_pos h8, if_pos (hlz8.mpr h8)]
      · rw [if_neg h8, if_neg (fun hh => h8 (hlz8.mp hh))]
    rw [hif]
    generalize hl : (if lead < 8 then (digits.map Prod.fst).set (F.width / 4 - 1) 0 else digits.map Prod.fst) = l
    have hlen : l.length = digits.length := by
      rw [← hl]; split <;> simp
    have hwo := worth_ofDigits (lead :: l) ((4 * (F.width / 4 - 1) + lz : Nat) : Int)
    rw [worth_cons] at hwo
    have hcast : ((lead * 2 ^ (4 * (F.width / 4 - 1) + lz) : Nat) : ℚ) = (lead : ℚ) * (2 : ℚ) ^ ((4 * (F.width / 4 - 1) + lz : Nat) : Int) := by
      rw [zpow_natCast]; push_cast; rfl
    rw [hcast, ← hwo, mul_assoc, ← zpow_add₀ (by norm_num)]
    congr 2
    rw [List.length_cons, hlen, he]
    omega
  rw [hval]
  have hlit := encode_literal hF negative e S' ex ε _ (le_trans hSge r2) r3 r4 r5 r6 rfl
  have hbias : (F.bias : Int) < 2 ^ 30 := by
    have h1 := hF.two_bias
    have h2 : 2 ^ F.expBits ≤ 2 ^ 30 := Nat.pow_le_pow_right (by decide) hF.fits
    omega
  have key : F.encode negative e S' ex = (match (if -(2 ^ 31) ≤ x ∧ x < 2 ^ 31 then some x else none) with
      | none => FRes.invalid
      | some e =>
        match Fmt.inI32 (start * 4 - (lz + 1) + 4 * (intCount digits : Int) + e) with
        | none => FRes.invalid
        | some exponent => F.encode negative exponent S' ex) := by
    by_cases hxr : x < 2 ^ 31
    · rw [if_pos ⟨by omega, hxr⟩]
      simp only
      rw [← he]
      unfold Fmt.inI32
      by_cases her : e < 2 ^ 31
      · rw [if_pos ⟨by omega, her⟩]
      · rw [if_neg (by omega)]
        exact encode_overflow hF _ _ _ _ (by omega)
    · rw [if_neg (by omega)]
      exact encode_overflow hF _ _ _ _ (by omega)
  unfold ExpText at hx
  rw [hx, ← key]
  exact hlit

/-- `parseHex` on its parts. -/
theorem parseHex_literal (hF : WF F) (sg : Option Sign) {t : Text} (ht : HexText t) {f : Option Text}
    (hf : HexText (f.getD [])) (hlen : t.length + (f.getD []).length < 2 ^ 26) {s : Option Text} {x : Int} (hx : ExpText s x)
    (hx2 : -(2 ^ 30) ≤ x) :
    Literal F (sg = some .minus)
      (hexValue (dropStraddling F (t.map toHex ++ (f.getD []).map toHex)) (f.getD []).length x)
      (F.parseHex (minusOf sg ++ t) f s) := by
  obtain ⟨fr, hfr⟩ : ∃ fr, fr = f.getD [] := ⟨_, rfl⟩
  rw [← hfr] at hf hlen ⊢
  have hnd : ∀ c ∈ t, c ≠ '-' := by
    intro c hc h; subst h; exact absurd (ht _ hc) (by decide)
  have hneg : (minusOf sg ++ t).head? = some '-' ↔ sg = some .minus := by
    unfold minusOf
    split
    · next h => simp [h]
    · next h =>
      simp only [List.nil_append, h, iff_false]
      intro hh
      exact hnd '-' (List.mem_of_mem_head? hh) rfl
  have hdrop : (minusOf sg ++ t).dropWhile (· == '-') = t := by
    have ht' : t.dropWhile (· == '-') = t := by
      cases t with
      | nil => rfl
      | cons c t => rw [List.dropWhile_cons, if_neg (by simpa using hnd c List.mem_cons_self)]
    unfold minusOf
    split
    · simp [ht']
    · simpa using ht'
  obtain ⟨di, hdi⟩ : ∃ di, di = t.map toHex := ⟨_, rfl⟩
  obtain ⟨df, hdf⟩ : ∃ df, df = fr.map toHex := ⟨_, rfl⟩
  have hti := trimZeros_map ht
  have htf := trimZeros_map hf
  rw [← hdi] at hti ⊢
  rw [← hdf] at htf ⊢
  have hdl : df.length = fr.length := by rw [hdf, List.length_map]
  rw [← hdl]
  -- the digits
  obtain ⟨digits, hdig⟩ : ∃ l, l = (Fmt.trimZeros t).map (fun c => (toHex c, false)) ++
    (if Fmt.trimZeros t = [] then Fmt.trimZeros fr else fr).map (fun c => (toHex c, true)) := ⟨_, rfl⟩
  have hsig : digits.map Prod.fst = significant (di ++ df) := by
    rw [hdig, significant_append, ← hti, List.map_append, List.map_map, List.map_map]
    by_cases he : Fmt.trimZeros t = []
    · rw [if_pos he, he]
      simp only [List.map_nil, if_true, List.nil_append]
      rw [← htf]; rfl
    · rw [if_neg he, if_neg (by simpa using he), hdf]; rfl
  have hd16 : ∀ p ∈ digits, p.1 < 16 := by
    rw [hdig]
    intro p hp
    rcases List.mem_append.mp hp with hp | hp
    · obtain ⟨c, hc, rfl⟩ := List.mem_map.mp hp
      exact toHex_lt (trimZeros_hex ht c hc)
    · obtain ⟨c, hc, rfl⟩ := List.mem_map.mp hp
      apply toHex_lt
      split at hc
      · exact trimZeros_hex hf c hc
      · exact hf c hc
  have hcount : intCount digits = (Fmt.trimZeros t).length := by
    rw [hdig, intCount, List.countP_append]
    simp [List.countP_map, Function.comp_def]
  have htl : (Fmt.trimZeros t).length ≤ t.length := (List.dropWhile_suffix _).length_le
  have hfl : (Fmt.trimZeros fr).length ≤ fr.length := (List.dropWhile_suffix _).length_le
  have hunf : F.parseHex (minusOf sg ++ t) f s = midHex F (decide (sg = some .minus))
      (if Fmt.trimZeros t ≠ [] then some 1
          else (Fmt.inI32 (-((fr.length - (Fmt.trimZeros fr).length + 1 : Nat) : Int).bmod (2 ^ 32))).bind
            (fun x => Fmt.inI32 (x + 1))) s digits := by
    have hb : decide ((minusOf sg ++ t).head? = some '-') = decide (sg = some .minus) := by
      rw [decide_eq_decide]; exact hneg
    unfold Fmt.parseHex
    rw [hdrop, ← hfr, hdig, hb]
    rfl
  rw [hunf]
  obtain ⟨zs, hzs, hz0⟩ := significant_split (di ++ df)
  cases digits with
  | nil =>
    simp only [List.map_nil] at hsig
    rw [← hsig, List.append_nil] at hzs
    have hall : ∀ d ∈ dropStraddling F (di ++ df), d = 0 := by
      unfold dropStraddling
      rw [← hsig]
      simp only [List.headD_nil]
      intro d hd
      rcases List.mem_or_eq_of_mem_set hd with h | h
      · rw [hzs] at h; exact hz0 d h
      · exact h
    have hv : hexValue (dropStraddling F (di ++ df)) df.length x = 0 := by
      unfold hexValue
      have := ofDigits_zeros _ [] hall
      rw [List.append_nil] at this
      rw [this]
      simp [ofDigits]
    rw [hv]
    refine ⟨0, ?_, ?_⟩
    · have hm : magnitude F 0 = 0 := by
        have := (magnitude_sub F 0 (Nat.pow_pos (by decide))).1
        simpa using this
      have := rounds_self F 0
      rwa [hm] at this
    · have : 0 < infinity F := by
        unfold infinity
        have h1 : 2 ^ 2 ≤ 2 ^ F.expBits := Nat.pow_le_pow_right (by decide) hF.exp
        exact Nat.mul_pos (by omega) (Nat.pow_pos (by decide))
      rw [if_pos this]
      rfl
  | cons p ds =>
    obtain ⟨lead, fl⟩ := p
    simp only [List.map_cons] at hsig
    have hlead0 : lead ≠ 0 := significant_head hsig.symm
    have hlead : lead < 16 := hd16 (lead, fl) List.mem_cons_self
    have hds : ∀ p ∈ ds, p.1 < 16 := fun p hp => hd16 p (List.mem_cons_of_mem _ hp)
    have hw := hF.wide
    -- the digits of the value
    have hdrop : dropStraddling F (di ++ df) =
        zs ++ lead :: (if lead < 8 then (ds.map Prod.fst).set (F.width / 4 - 1) 0 else ds.map Prod.fst) := by
      unfold dropStraddling
      rw [← hsig] at hzs ⊢
      simp only
      rw [hzs]
      by_cases h8 : lead < 8
      · rw [if_pos (c := (lead :: List.map Prod.fst ds).headD 0 < 8) h8, if_pos h8]
        have e1 : (zs ++ lead :: List.map Prod.fst ds).length - (lead :: List.map Prod.fst ds).length + F.width / 4 =
            zs.length + (F.width / 4 - 1 + 1) := by
          rw [List.length_append]; omega
        rw [e1, List.set_append_right _ _ (by omega)]
        congr 1
        rw [show zs.length + (F.width / 4 - 1 + 1) - zs.length = F.width / 4 - 1 + 1 by omega]
        rfl
      · rw [if_neg (c := (lead :: List.map Prod.fst ds).headD 0 < 8) h8, if_neg h8]
    have hn : di.length + df.length = zs.length + (ds.length + 1) := by
      have := congrArg List.length hzs
      rw [← hsig] at this
      simpa using this
    have hdil : di.length = t.length := by rw [hdi, List.length_map]
    unfold midHex
    simp only
    have hfst : ds.length + 1 = (Fmt.trimZeros t).length +
        (if Fmt.trimZeros t = [] then Fmt.trimZeros fr else fr).length := by
      have := congrArg List.length hdig
      simpa using this
    have hcnt : (4 : Int) * (Fmt.trimZeros t).length = (if fl = true then 0 else 4) + 4 * intCount ds := by
      rw [← hcount, intCount_cons]
    by_cases he : Fmt.trimZeros t = []
    · rw [if_neg (by simpa using he)]
      rw [if_pos he, he] at hfst
      rw [he] at hcnt
      simp only [List.length_nil, Nat.zero_add] at hfst hcnt
      have hb : ((fr.length - (Fmt.trimZeros fr).length + 1 : Nat) : Int).bmod (2 ^ 32) =
          ((fr.length - (Fmt.trimZeros fr).length + 1 : Nat) : Int) := by
        apply Int.bmod_eq_of_le <;> omega
      rw [hb, inI32_some (by omega) (by omega)]
      simp only [Option.bind_some]
      rw [inI32_some (by omega) (by omega)]
      simp only
      have hc0 : intCount ds = 0 := by
        split at hcnt <;> omega
      have := tailHex_literal hF (decide (sg = some .minus)) hlead0 hlead hds
        (-((fr.length - (Fmt.trimZeros fr).length + 1 : Nat) : Int) + 1) (by omega) (by omega) (by omega) hx hx2
      rw [hdrop]
      unfold hexValue
      rw [ofDigits_zeros _ _ hz0]
      have ee : x - 4 * (df.length : Int) =
          x + 4 * (-((fr.length - (Fmt.trimZeros fr).length + 1 : Nat) : Int) + 1) + 4 * (intCount ds : Int) - 4 * (ds.length + 1) := by
        omega
      rw [ee]
      exact this
    · rw [if_pos he]
      rw [if_neg he] at hfst
      simp only
      have hflf : fl = false := by
        rcases hh : Fmt.trimZeros t with _ | ⟨c, r⟩
        · exact absurd hh he
        · rw [hh] at hdig
          simp only [List.map_cons, List.cons_append, List.cons.injEq, Prod.mk.injEq] at hdig
          exact hdig.1.2
      rw [hflf] at hcnt
      simp only [Bool.false_eq_true, if_false] at hcnt
      have := tailHex_literal hF (decide (sg = some .minus)) hlead0 hlead hds 1 (by omega) (by omega) (by omega) hx hx2
      rw [hdrop]
      unfold hexValue
      rw [ofDigits_zeros _ _ hz0]
      have ee : x - 4 * (df.length : Int) = x + 4 * 1 + 4 * (intCount ds : Int) - 4 * (ds.length + 1) := by
        omega
      rw [ee]
      exact this

end

end Verif.Float
