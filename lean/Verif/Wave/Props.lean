import Verif.Wave.RoundTrip
import Verif.Wave.Sound
/-
Properties C31 (string and char literals) and C44 (typed values) of the WAVE text format: what the
writer writes the lexer, parser and typed reader read back.
-/
namespace Verif.Wave.Props

open Verif.Wave Verif.Wave.Spec

variable {F D : Type} (E : Env F D)

/-- C31, char literals: whatever follows, the lexer takes exactly the literal as one `Char` token,
and the typed reader makes the character of it. Both for every choice of characters that
`char::escape_debug` escapes. -/
theorem c31_char (c : Char) (r : Text) :
    lexToken (write E (.char c) ++ r) = some (.char, write E (.char c), r) ∧
      toVal E .char (.mk .char (write E (.char c)) []) = some (.char c) := by
  have hw : write E (.char c : Val F D) = '\'' :: writeChar E c ++ ['\''] := by simp [write]
  constructor
  · rw [hw, show '\'' :: writeChar E c ++ ['\''] ++ r = '\'' :: writeChar E c ++ '\'' :: r by simp]
    have h := lexChar_write E c r
    rw [List.cons_append] at h ⊢
    simp only [lexToken, h]
    rfl
  · rw [hw]
    simp only [toVal]
    rw [asChar_write]
    rfl

/-- C31, strings: the lexer takes exactly the literal as one `String` token (provided an empty
string is not followed by a quote: `"""` starts a multiline string), and the typed reader makes
the string of it. -/
theorem c31_string (s r : Text) (hr : s = [] → r.head? ≠ some '"') :
    lexToken (write E (.string s) ++ r) = some (.string, write E (.string s), r) ∧
      toVal E .string (.mk .string (write E (.string s)) []) = some (.string s) := by
  have hw : write E (.string s : Val F D) = '"' :: s.flatMap (writeChar E) ++ ['"'] := by simp [write]
  constructor
  · rw [hw, show '"' :: s.flatMap (writeChar E) ++ ['"'] ++ r
      = '"' :: s.flatMap (writeChar E) ++ '"' :: r by simp]
    have h := lexString_write E s r hr
    rw [List.cons_append] at h ⊢
    simp only [lexToken, h]
  · rw [hw]
    simp only [toVal]
    rw [asStr_write]
    rfl

/-- C44: writing a value of a type and reading the text at that type gives the value back, for
every type, every value of it nested at most as deep as the parser allows, and all floating point
implementations whose own round trip works. -/
theorem c44_round_trip (hE : FloatsOk E) (t : Ty) (v : Val F D) (ht : HasTy t v)
    (hd : depth v ≤ 100) : fromStr E t (write E v) = some v := by
  obtain ⟨n, h1, h2⟩ := good E hE 100 t v ht hd [] (by intro c hc; cases hc)
  rw [List.append_nil] at h1
  rw [fromStr, show maxDepth = 100 from rfl, h1]
  simp only [h2]
  rfl

/-- C44: so the text determines the value. -/
theorem c44_injective (hE : FloatsOk E) (t : Ty) (v w : Val F D) (hv : HasTy t v) (hw : HasTy t w)
    (hdv : depth v ≤ 100) (hdw : depth w ≤ 100) (h : write E v = write E w) : v = w := by
  have h1 := c44_round_trip E hE t v hv hdv
  rw [h, c44_round_trip E hE t w hw hdw] at h1
  exact (Option.some.inj h1).symm

/-- C44: whatever text is read at a type, the result is a value of that type: integers in range,
records with exactly the fields of the type in its order, known cases with payloads of the right
type, flags in the order of the type. -/
theorem c44_reader_sound (t : Ty) (ht : TyOk t) (s : Text) (v : Val F D)
    (h : fromStr E t s = some v) : HasTy t v := by
  unfold fromStr at h
  split at h
  · cases h
  · split at h
    · cases h
    · rename_i hv
      split at h
      · cases h
        exact toVal_sound E ht _ _ hv
      · cases h

/-- C44: so reading and writing again is stable: the text written for a value that was read is
read as the same value, if the value is not nested too deeply. -/
theorem c44_reread (hE : FloatsOk E) (t : Ty) (ht : TyOk t) (s : Text) (v : Val F D)
    (h : fromStr E t s = some v) (hd : depth v ≤ 100) : fromStr E t (write E v) = some v :=
  c44_round_trip E hE t v (c44_reader_sound E t ht s v h) hd

/-! ### The bound on the nesting is needed -/

/-- The list type nested `n` times, and its value with an empty list at the bottom. -/
def nestTy : Nat → Ty
  | 0 => .list .bool
  | n + 1 => .list (nestTy n)
def nestVal : Nat → Val F D
  | 0 => .list []
  | n + 1 => .list [nestVal n]

theorem nest_hasTy (n : Nat) : HasTy (nestTy n) (nestVal n : Val F D) := by
  induction n with
  | zero => exact .list _ _ (by simp)
  | succ n ih => exact .list _ _ (by simpa using ih)

theorem nest_depth (n : Nat) : depth (nestVal n : Val F D) = n + 1 := by
  induction n with
  | zero => simp [nestVal, depth, depthAll]
  | succ n ih => simp [nestVal, depth, depthAll, ih]

theorem nest_write (n : Nat) : ∃ r, write E (nestVal n : Val F D) = '[' :: r := by
  cases n <;> simp [nestVal, write]

theorem nest_parse (n d : Nat) (h : d ≤ n) (r : Text) :
    parseNode d (lexAll (write E (nestVal n : Val F D) ++ r)) = none := by
  induction d generalizing n r with
  | zero => rfl
  | succ d ih =>
    obtain ⟨n, rfl⟩ : ∃ k, n = k + 1 := ⟨n - 1, by omega⟩
    have hw : write E (nestVal (n + 1) : Val F D) ++ r = '[' :: (write E (nestVal n) ++ ']' :: r) := by
      simp [nestVal, write, writeAll, sepBy]
    obtain ⟨_, _, _, _, p5, _⟩ := lexAll_punct (write E (nestVal n : Val F D) ++ ']' :: r)
    have h1 := ih n (by omega) (']' :: r)
    obtain ⟨x, hx⟩ := nest_write E n
    obtain ⟨_, _, _, _, q5, _⟩ := lexAll_punct (x ++ ']' :: r)
    have hnext : nextIs .bracketClose (lexAll (write E (nestVal n : Val F D) ++ ']' :: r)) = false := by
      rw [hx, List.cons_append, q5]
      rfl
    rw [hw, p5]
    simp only [parseNode, parseNodeInner, advance, commaSeparated, hnext, commaLoop, h1]
    rfl

/-- Without the bound C44 is false: a list nested deeper is written but cannot be read. -/
theorem c44_depth_needed :
    ∃ (t : Ty) (v : Val F D), HasTy t v ∧ depth v = 101 ∧ fromStr E t (write E v) = none := by
  refine ⟨nestTy 100, nestVal 100, nest_hasTy _, nest_depth _, ?_⟩
  have h := nest_parse E 100 100 (Nat.le_refl _) []
  rw [List.append_nil] at h
  rw [fromStr, show maxDepth = 100 from rfl, h]

/-! ### Examples -/

/-- An environment with two floating point numbers each, meeting the assumptions. -/
def exampleEnv : Env Bool Bool where
  showF32 b := if b then "nan".toList else "-0.5".toList
  readF32 t := if t = "nan".toList then some true else if t = "-0.5".toList then some false else none
  showF64 b := if b then "-inf".toList else "12".toList
  readF64 t := if t = "-inf".toList then some true else if t = "12".toList then some false else none
  debugEscapes c := c.toNat < 32

theorem exampleEnv_ok : FloatsOk exampleEnv where
  text32 b := by
    cases b
    · exact .inr (.inr (.inr ⟨['-'], ['0'], ['.', '5'], rfl, .inr rfl, ⟨by simp, by decide⟩, .inl rfl,
        .inr ⟨['5'], ⟨by simp, by decide⟩, rfl⟩⟩))
    · exact .inr (.inr (.inl rfl))
  read32 b := by cases b <;> rfl
  text64 b := by
    cases b
    · exact .inr (.inr (.inr ⟨[], ['1', '2'], [], rfl, .inl rfl, ⟨by simp, by decide⟩, .inr (by decide),
        .inl rfl⟩))
    · exact .inr (.inl rfl)
  read64 b := by cases b <;> rfl

theorem exampleName (c : Char) (h : 'a' ≤ c ∧ c ≤ 'z') : IsName [c] :=
  ⟨[c], [], ⟨by simp, .inl (by simpa using .inl h)⟩, by
    intro x hx
    simp at hx
    subst hx
    intro hx
    have h1 := h.1
    have h2 := hx.2
    revert h1 h2
    simp only [Char.le_def, UInt32.le_iff_toNat_le]
    intro h1 h2
    have : ('a'.val.toNat) = 97 := rfl
    have : ('9'.val.toNat) = 57 := rfl
    omega, by simp, by simp⟩

/-- A record whose second field is left out, with a string that needs escapes. -/
def exampleVal : Val Bool Bool :=
  .record [(['a'], .list [.string ['q', '"', '\n'], .string []]), (['b'], .option none),
    (['c'], .variant "none".toList (some (.int true 8 (-128))))]

def exampleTy : Ty :=
  .record [(['a'], .list .string), (['b'], .option .f32),
    (['c'], .variant [("none".toList, some (.int true 8))])]

example : fromStr exampleEnv exampleTy (write exampleEnv exampleVal) = some exampleVal := by
  apply c44_round_trip _ exampleEnv_ok
  · refine .record _ _ (by decide) ?_ ?_
    · intro f hf
      simp only [List.mem_cons, List.not_mem_nil, or_false] at hf
      rcases hf with rfl | rfl | rfl
      · exact exampleName 'a' (by decide)
      · exact exampleName 'b' (by decide)
      · exact exampleName 'c' (by decide)
    · refine .cons _ _ _ _ _ (.list _ _ ?_) (.cons _ _ _ _ _ (.none _) (.cons _ _ _ _ _ ?_ .nil))
      · intro v hv
        simp only [List.mem_cons, List.not_mem_nil, or_false] at hv
        rcases hv with rfl | rfl
        · exact .string _
        · exact .string _
      · refine .variant _ _ _ _ (by decide) (List.mem_singleton.mpr rfl)
          (isName_keyword (by decide)) (.sint _ _ (by decide) (by decide))
  · decide

/-- The parsed text is `{ c,a }`. -/
theorem exampleFlags : fromStr exampleEnv (.flags [['a'], ['b'], ['c']]) "{ c,a }".toList
    = some (.flags [['a'], ['c']]) := by
  have h1 : parseNode maxDepth (lexAll "{ c,a }".toList)
      = some (.mk .flags [] [.mk .label ['c'] [], .mk .label ['a'] []], []) := by rfl
  rw [fromStr, h1]
  simp only [toVal]
  rfl

/-- Flags written in another order and with other spacing are read in the order of the type. -/
example : fromStr exampleEnv (.flags [['a'], ['b'], ['c']]) "{ c,a }".toList
    = some (.flags [['a'], ['c']]) := exampleFlags

example : HasTy (.flags [['a'], ['b'], ['c']]) (.flags [['a'], ['c']] : Val Bool Bool) := by
  refine c44_reader_sound exampleEnv _ (.flags _ (by decide) ?_) "{ c,a }".toList _ exampleFlags
  intro f hf
  simp only [List.mem_cons, List.not_mem_nil, or_false] at hf
  rcases hf with rfl | rfl | rfl
  · exact exampleName 'a' (by decide)
  · exact exampleName 'b' (by decide)
  · exact exampleName 'c' (by decide)

example : write exampleEnv exampleVal = "{a: [\"q\\\"\\n\", \"\"], c: %none(-128)}".toList := by decide

example : lexToken (write exampleEnv (.string ['\\', '\'']) ++ ['x'])
    = some (.string, "\"\\\\\\'\"".toList, ['x']) := by
  have h := (c31_string exampleEnv ['\\', '\''] ['x'] (by simp)).1
  exact h

example : toVal exampleEnv .char (.mk .char (write exampleEnv (.char '\x01')) []) = some (.char '\x01') :=
  (c31_char exampleEnv '\x01' []).2

end Verif.Wave.Props
