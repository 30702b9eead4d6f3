/-!
# What component names are

Written from the grammar in the component model's explainer and the comments of `names.rs`,
without the functions of the model. Strings are lists of characters. `semver` says which strings
are semantic versions, `nested` whether nested names are enabled.
-/
namespace Verif.CompName.Spec

def Lower (c : Char) : Prop := 97 ≤ c.toNat ∧ c.toNat ≤ 122
def Upper (c : Char) : Prop := 65 ≤ c.toNat ∧ c.toNat ≤ 90
def Digit (c : Char) : Prop := 48 ≤ c.toNat ∧ c.toNat ≤ 57

/-- A piece of a label: letters and digits, the letters of one case. -/
def Fragment (f : List Char) : Prop :=
  f ≠ [] ∧ (∀ c ∈ f, Lower c ∨ Upper c ∨ Digit c) ∧
    ¬ ((∃ c ∈ f, Lower c) ∧ ∃ c ∈ f, Upper c)

/-- Pieces, each preceded by the separator. -/
def joined (sep : Char) (l : List (List Char)) : List Char := (l.map (sep :: ·)).flatten

/-- `label`: fragments separated by single dashes; the first one begins with a letter. -/
def Label (s : List Char) : Prop :=
  ∃ f fs, s = f ++ joined '-' fs ∧ (∃ c, f.head? = some c ∧ (Lower c ∨ Upper c)) ∧
    ∀ g ∈ f :: fs, Fragment g

/-- A label without acronyms. -/
def LowerLabel (s : List Char) : Prop := Label s ∧ ∀ c ∈ s, ¬ Upper c

/-- Two characters that are the same up to the case of ASCII letters. -/
def SameChar (a b : Char) : Prop :=
  a = b ∨ (Upper a ∧ b.toNat = a.toNat + 32) ∨ (Upper b ∧ a.toNat = b.toNat + 32)

/-- Two strings that are the same up to the case of ASCII letters. -/
inductive Same : List Char → List Char → Prop
  | nil : Same [] []
  | cons {a b as bs} : SameChar a b → Same as bs → Same (a :: as) (b :: bs)

/-- The path `n:…:…/…/…`: a namespace `n`, further namespaces and the package `ns`, projections
`ps`. -/
structure Path (nested : Bool) (n : List Char) (ns ps : List (List Char)) : Prop where
  first : LowerLabel n
  more : ns ≠ []
  names : ∀ x ∈ ns, LowerLabel x
  projs : ∀ p ∈ ps, Label p
  flat : nested = false → ns.length = 1 ∧ ps.length ≤ 1

/-- The text of a path. -/
def pathText (n : List Char) (ns ps : List (List Char)) : List Char :=
  n ++ joined ':' ns ++ joined '/' ps

def B64 (c : Char) : Prop := Lower c ∨ Upper c ∨ Digit c ∨ c = '+' ∨ c = '/'

/-- Base64: at least one digit, at most two `=` behind. -/
def Base64 (s : List Char) : Prop :=
  ∃ a k, s = a ++ List.replicate k '=' ∧ a ≠ [] ∧ (∀ c ∈ a, B64 c) ∧ k ≤ 2

/-- `sha256-…`, `sha384-…` or `sha512-…`, with options behind a question mark. -/
def HashExpr (h : List Char) : Prop :=
  ∃ alg ∈ ["sha256".toList, "sha384".toList, "sha512".toList], ∃ b o,
    h = alg ++ '-' :: (b ++ o) ∧ Base64 b ∧ (o = [] ∨ o.head? = some '?')

/-- Unicode white space. -/
def White (c : Char) : Prop :=
  c.toNat ∈ [9, 10, 11, 12, 13, 32, 0x85, 0xA0, 0x1680, 0x2000, 0x2001, 0x2002, 0x2003, 0x2004,
    0x2005, 0x2006, 0x2007, 0x2008, 0x2009, 0x200A, 0x2028, 0x2029, 0x202F, 0x205F, 0x3000]

/-- `s` consists of the pieces `hs` without white space, separated by white space. -/
inductive Pieces : List (List Char) → List Char → Prop
  | none {w} : (∀ c ∈ w, White c) → Pieces [] w
  | cons {w h rest hs} : (∀ c ∈ w, White c) → h ≠ [] → (∀ c ∈ h, ¬ White c) →
      (∀ c, rest.head? = some c → White c) → Pieces hs rest → Pieces (h :: hs) (w ++ h ++ rest)

/-- Integrity metadata: one or more hashes. -/
def Integrity (s : List Char) : Prop :=
  '>' ∉ s ∧ ∃ hs, Pieces hs s ∧ hs ≠ [] ∧ ∀ h ∈ hs, HashExpr h

/-- `( ',' 'integrity=<' … '>' )?` -/
def OptIntegrity (s : List Char) : Prop :=
  s = [] ∨ ∃ i, Integrity i ∧ s = ",integrity=<".toList ++ i ++ ['>']

/-- What is between the braces of a version range: the bounds of the grammar, or the star which
the code takes there as well. -/
def Range (semver : List Char → Bool) (r : List Char) : Prop :=
  '}' ∉ r ∧
  (r = ['*'] ∨
   (∃ l, r = ">=".toList ++ l ∧ ' ' ∉ l ∧ semver l = true) ∨
   (∃ u, r = '<' :: u ∧ semver u = true) ∨
   (∃ l u, r = ">=".toList ++ l ++ " <".toList ++ u ∧ ' ' ∉ l ∧ semver l = true ∧ semver u = true))

/-- `verrange?` -/
def OptRange (semver : List Char → Bool) (s : List Char) : Prop :=
  s = [] ∨ s = "@*".toList ∨ ∃ r, s = "@{".toList ++ r ++ ['}'] ∧ Range semver r

/-- `version?` of a dependency. -/
def OptVersion (semver : List Char → Bool) (s : List Char) : Prop :=
  s = [] ∨ ∃ v, s = '@' :: v ∧ '>' ∉ v ∧ semver v = true

/-- `version?` of an interface, whose text is looked at later. -/
def OptText (s : List Char) : Prop := s = [] ∨ ∃ v, s = '@' :: v ∧ '>' ∉ v

/-- The kinds of names. -/
inductive Kind where
  | label | constructor | method | static | interface | dependency | url | hash
  deriving DecidableEq, Repr

/-- The grammar of names. -/
inductive IsName (nested : Bool) (semver : List Char → Bool) : Kind → List Char → Prop
  | label {l} : Label l → IsName nested semver .label l
  | constructor {l} : Label l → IsName nested semver .constructor ("[constructor]".toList ++ l)
  | method {r m} : Label r → Label m →
      IsName nested semver .method ("[method]".toList ++ r ++ '.' :: m)
  | static {r m} : Label r → Label m →
      IsName nested semver .static ("[static]".toList ++ r ++ '.' :: m)
  | interface {n ns ps v} : Path nested n ns ps → ps ≠ [] → OptText v →
      IsName nested semver .interface (pathText n ns ps ++ v)
  | unlocked {n ns ps v} : Path nested n ns ps → OptRange semver v →
      IsName nested semver .dependency
        ("unlocked-dep=<".toList ++ pathText n ns ps ++ v ++ ['>'])
  | locked {n ns ps v i} : Path nested n ns ps → OptVersion semver v → OptIntegrity i →
      IsName nested semver .dependency
        ("locked-dep=<".toList ++ pathText n ns ps ++ v ++ '>' :: i)
  | url {u i} : '<' ∉ u → '>' ∉ u → OptIntegrity i →
      IsName nested semver .url ("url=<".toList ++ u ++ '>' :: i)
  | integrity {i} : Integrity i →
      IsName nested semver .hash ("integrity=<".toList ++ i ++ ['>'])

/-- Names that must not occur together ("not strongly unique"): up to the case of letters in
labels they are the same after `[…]` is taken off, except that a resource and its constructor may
occur together; and `l` clashes with `[…]l.l`. Names of dependencies clash with themselves. -/
inductive Clash (nested : Bool) : List Char → List Char → Prop
  | label {a b} : Label a → Label b → Same a b → Clash nested a b
  | constructor {a b} : Label a → Label b → Same a b →
      Clash nested ("[constructor]".toList ++ a) ("[constructor]".toList ++ b)
  | func {p q r m r' m'} : p ∈ ["[method]".toList, "[static]".toList] →
      q ∈ ["[method]".toList, "[static]".toList] → Label r → Label m → Label r' → Label m' →
      Same r r' → Same m m' → Clash nested (p ++ r ++ '.' :: m) (q ++ r' ++ '.' :: m')
  | double {p l r m} : p ∈ ["[method]".toList, "[static]".toList] → Label l → Label r → Label m →
      Same l r → Same l m → Clash nested l (p ++ r ++ '.' :: m)
  | double' {p l r m} : p ∈ ["[method]".toList, "[static]".toList] → Label l → Label r → Label m →
      Same l r → Same l m → Clash nested (p ++ r ++ '.' :: m) l
  | interface {n ns ps n' ns' ps' v} : Path nested n ns ps → Path nested n' ns' ps' →
      ps ≠ [] → ps' ≠ [] → OptText v → Same (pathText n ns ps) (pathText n' ns' ps') →
      Clash nested (pathText n ns ps ++ v) (pathText n' ns' ps' ++ v)
  | other {s} : Clash nested s s

/-- A name that may be used: of one of the kinds for exports if it is one, and with a semantic
version if it is an interface with a version. -/
def Usable (nested : Bool) (semver : List Char → Bool) (isExport : Bool) (k : Kind)
    (s : List Char) : Prop :=
  IsName nested semver k s ∧ (isExport = true → k ≠ .dependency ∧ k ≠ .url ∧ k ≠ .hash) ∧
    (k = .interface → ∀ a v, s = a ++ '@' :: v → '@' ∉ a → semver v = true)

/-- A method, static function or interface whose name contains a capital. -/
def Capital (k : Kind) (s : List Char) : Prop :=
  (k = .method ∨ k = .static ∨ k = .interface) ∧ ∃ c ∈ s, Upper c

end Verif.CompName.Spec
