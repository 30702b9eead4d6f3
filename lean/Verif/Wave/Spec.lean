import Verif.Wave.Model
/-
What it means for a value to have a type, which names and number texts there are, and how deeply a
value is nested: independent of lexer, parser and writer.
-/
namespace Verif.Wave.Spec

open Verif.Wave

/-- A word of a name: lower case letters and digits, or upper case letters and digits. -/
def IsWord (w : Text) : Prop :=
  w ≠ [] ∧ ((∀ c ∈ w, ('a' ≤ c ∧ c ≤ 'z') ∨ ('0' ≤ c ∧ c ≤ '9')) ∨
    (∀ c ∈ w, ('A' ≤ c ∧ c ≤ 'Z') ∨ ('0' ≤ c ∧ c ≤ '9')))

/-- A kebab-case name: words separated by single dashes, the first not starting with a digit. -/
def IsName (t : Text) : Prop :=
  ∃ (w : Text) (ws : List Text), IsWord w ∧ (∀ c ∈ w.head?, ¬ ('0' ≤ c ∧ c ≤ '9')) ∧ (∀ x ∈ ws, IsWord x) ∧
    t = w ++ ws.flatMap (fun x => '-' :: x)

def IsDigits (t : Text) : Prop := t ≠ [] ∧ ∀ c ∈ t, '0' ≤ c ∧ c ≤ '9'

/-- The texts `Display` writes for floating point numbers other than NaN (`nan` is written by the
WAVE writer): `inf`, `-inf`, or a decimal number without exponent and superfluous leading zeros. -/
def IsFloatText (t : Text) : Prop :=
  t = "inf".toList ∨ t = "-inf".toList ∨ t = "nan".toList ∨
    ∃ sign int frac, t = sign ++ int ++ frac ∧ (sign = [] ∨ sign = ['-']) ∧ IsDigits int ∧
      (int = ['0'] ∨ int.head? ≠ some '0') ∧ (frac = [] ∨ ∃ ds, IsDigits ds ∧ frac = '.' :: ds)

/-- What is assumed of the floating point numbers of the standard library: they are written as
such a text, and reading it gives the number back. -/
structure FloatsOk {F D : Type} (E : Env F D) : Prop where
  text32 : ∀ f, IsFloatText (E.showF32 f)
  read32 : ∀ f, E.readF32 (E.showF32 f) = some f
  text64 : ∀ f, IsFloatText (E.showF64 f)
  read64 : ∀ f, E.readF64 (E.showF64 f) = some f

variable {F D : Type}

mutual
/-- The value is a value of the type. Names are kebab-case names, tuples are not empty (such a
type cannot be made, value/ty.rs 85-91), and the names of fields, cases and flags are distinct. -/
inductive HasTy : Ty → Val F D → Prop
  | bool (b) : HasTy .bool (.bool b)
  | sint (bits) (i : Int) : -((2 ^ (bits - 1) : Nat) : Int) ≤ i → i < (2 ^ (bits - 1) : Nat) →
      HasTy (.int true bits) (.int true bits i)
  | uint (bits) (i : Int) : 0 ≤ i → i < (2 ^ bits : Nat) → HasTy (.int false bits) (.int false bits i)
  | f32 (f) : HasTy .f32 (.f32 f)
  | f64 (f) : HasTy .f64 (.f64 f)
  | char (c) : HasTy .char (.char c)
  | string (s) : HasTy .string (.string s)
  | list (t vs) : (∀ v ∈ vs, HasTy t v) → HasTy (.list t) (.list vs)
  | record (fs vs) : (fs.map Prod.fst).Nodup → (∀ f ∈ fs, IsName f.1) →
      FieldsHaveTy fs vs → HasTy (.record fs) (.record vs)
  | tuple (ts vs) : vs ≠ [] → AllHaveTy ts vs → HasTy (.tuple ts) (.tuple vs)
  | variant (cs case t v) : (cs.map Prod.fst).Nodup → (case, some t) ∈ cs → IsName case →
      HasTy t v → HasTy (.variant cs) (.variant case (some v))
  | variantNone (cs case) : (cs.map Prod.fst).Nodup → (case, none) ∈ cs → IsName case →
      HasTy (.variant cs) (.variant case none)
  | enum (cs case) : case ∈ cs → IsName case → HasTy (.enum cs) (.enum case)
  | some (t v) : HasTy t v → HasTy (.option t) (.option (some v))
  | none (t) : HasTy (.option t) (.option none)
  | okPayload (t err v) : HasTy t v → HasTy (.result (some t) err) (.result true (some v))
  | ok (err) : HasTy (.result none err) (.result true none)
  | errPayload (ok t v) : HasTy t v → HasTy (.result ok (some t)) (.result false (some v))
  | err (ok) : HasTy (.result ok none) (.result false none)
  | flags (all set : List Text) : all.Nodup → (∀ f ∈ all, IsName f) → set.Sublist all →
      HasTy (.flags all) (.flags set)
/-- A record: the fields in order, each with a value of its type. -/
inductive FieldsHaveTy : List (Text × Ty) → List (Text × Val F D) → Prop
  | nil : FieldsHaveTy [] []
  | cons (n t v fs vs) : HasTy t v → FieldsHaveTy fs vs →
      FieldsHaveTy ((n, t) :: fs) ((n, v) :: vs)
/-- A tuple: each element has its type. -/
inductive AllHaveTy : List Ty → List (Val F D) → Prop
  | nil : AllHaveTy [] []
  | cons (t v ts vs) : HasTy t v → AllHaveTy ts vs → AllHaveTy (t :: ts) (v :: vs)
end

/-- A type that can be made: names are kebab-case names and distinct, and tuples are not empty. -/
inductive TyOk : Ty → Prop
  | bool : TyOk .bool
  | int (s b) : TyOk (.int s b)
  | f32 : TyOk .f32
  | f64 : TyOk .f64
  | char : TyOk .char
  | string : TyOk .string
  | list (t) : TyOk t → TyOk (.list t)
  | record (fs) : (fs.map Prod.fst).Nodup → (∀ f ∈ fs, IsName f.1) → (∀ f ∈ fs, TyOk f.2) →
      TyOk (.record fs)
  | tuple (ts) : ts ≠ [] → (∀ t ∈ ts, TyOk t) → TyOk (.tuple ts)
  | variant (cs) : (cs.map Prod.fst).Nodup → (∀ c ∈ cs, IsName c.1) →
      (∀ c ∈ cs, ∀ t, c.2 = some t → TyOk t) → TyOk (.variant cs)
  | enum (cs) : (∀ c ∈ cs, IsName c) → TyOk (.enum cs)
  | option (t) : TyOk t → TyOk (.option t)
  | result (ok err : Option Ty) : (∀ t, ok = some t → TyOk t) → (∀ t, err = some t → TyOk t) →
      TyOk (.result ok err)
  | flags (fs) : fs.Nodup → (∀ f ∈ fs, IsName f) → TyOk (.flags fs)

mutual
/-- How deeply a value is nested. -/
def depth : Val F D → Nat
  | .list vs => depthAll vs + 1
  | .record fs => depthFields fs + 1
  | .tuple vs => depthAll vs + 1
  | .variant _ (.some v) => depth v + 1
  | .option (.some v) => depth v + 1
  | .result _ (.some v) => depth v + 1
  | _ => 1
def depthAll : List (Val F D) → Nat
  | [] => 0
  | v :: vs => max (depth v) (depthAll vs)
def depthFields : List (Text × Val F D) → Nat
  | [] => 0
  | (_, v) :: vs => max (depth v) (depthFields vs)
end

end Verif.Wave.Spec
