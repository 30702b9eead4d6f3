/-!
# Names of the component model

Source: `/repo/crates/wasmparser/src/validator/names.rs`, line numbers below, and the uniqueness
checks of `/repo/crates/wasmparser/src/validator/component.rs`.

Strings are lists of characters. The code slices strings at byte offsets that it obtained from
`find`, `rfind`, `strip_prefix` or the length of an ASCII prefix; here the list is cut at the
character found instead. Errors carry no message: `Err` is `none`. `semver::Version::parse`
belongs to another crate; whether it accepts a string is the parameter `semver` of everything
that calls it. Of the features only `cm_nested_names` is looked at, it is the parameter `nested`.
A panic of an accessor is `none`.
-/
namespace Verif.CompName

/-- `str`. -/
abbrev Str := List Char

/-- The pattern `'a'..='z'`. -/
def isLo (c : Char) : Bool := decide ('a' ≤ c) && decide (c ≤ 'z')

/-- The pattern `'A'..='Z'`. -/
def isUp (c : Char) : Bool := decide ('A' ≤ c) && decide (c ≤ 'Z')

/-- The pattern `'0'..='9'`. -/
def isDig (c : Char) : Bool := decide ('0' ≤ c) && decide (c ≤ '9')

/-- `str::len`, the number of bytes. -/
def byteLen (s : Str) : Nat := (s.map Char.utf8Size).sum

/-- `Ord for str` (and `Iterator::cmp` over characters): UTF-8 keeps the order of code points, so
the comparison of bytes is that of code points. -/
def cmpStr : Str → Str → Ordering
  | [], [] => .eq
  | [], _ :: _ => .lt
  | _ :: _, [] => .gt
  | a :: as, b :: bs =>
    if a.toNat < b.toNat then .lt else if b.toNat < a.toNat then .gt else cmpStr as bs

/-- What is written to a `Hasher`: two values that write the same have the same hash, whatever
the hasher. -/
inductive Write where
  | byte (n : Nat)
  | word (n : Nat)
  | char (c : Char)
  | str (s : Str)
  deriving DecidableEq, Repr

/-! ## `KebabStr` -/

/-- The local variables of `is_kebab_case` (lines 48-51). -/
structure KState where
  lower : Bool := false
  upper : Bool := false
  isFirst : Bool := true
  hasDigit : Bool := false
  deriving DecidableEq, Repr

/-- One iteration of the loop of `is_kebab_case` (lines 52-67), the arms in their order. -/
def kebabStep (st : KState) (c : Char) : Option KState :=
  if isLo c && (!st.lower && !st.upper) then some { st with lower := true }
  else if isUp c && (!st.lower && !st.upper) then some { st with upper := true }
  else if isDig c && (!st.lower && !st.upper && !st.isFirst) then
    some { st with hasDigit := true }
  else if isLo c && st.lower then some st
  else if isUp c && st.upper then some st
  else if isDig c && (st.lower || st.upper) then some { st with hasDigit := true }
  else if c == '-' && (st.lower || st.upper || st.hasDigit) then
    some { lower := false, upper := false, isFirst := false, hasDigit := false }
  else none

/-- The loop of `is_kebab_case` (lines 52-67). -/
def kebabLoop : KState → Str → Option KState
  | st, [] => some st
  | st, c :: cs =>
    match kebabStep st c with
    | none => none
    | some st' => kebabLoop st' cs

/-- `is_kebab_case` (lines 47-70). -/
def isKebabCase (s : Str) : Bool :=
  match kebabLoop {} s with
  | none => false
  | some _ => !s.isEmpty && !(s.getLast? == some '-')

/-- `KebabStr::new` (lines 28-31); `KebabString::new` (lines 145-152) is the same on owned
strings. -/
def kebabNew (s : Str) : Option Str := if isKebabCase s then some s else none

/-- `PartialEq for KebabStr` (lines 82-92). -/
def kebabEq (a b : Str) : Bool :=
  if byteLen a != byteLen b then false
  else (a.zip b).all fun p => p.1.toLower == p.2.toLower

/-- `Ord for KebabStr` (lines 100-106). -/
def kebabCmp (a b : Str) : Ordering := cmpStr (a.map Char.toLower) (b.map Char.toLower)

/-- `Hash for KebabStr` (lines 114-122). -/
def kebabHash (s : Str) : List Write := .word (byteLen s) :: s.map fun c => .char c.toLower

/-! ## The parser of component names -/

/-- `ParsedComponentNameKind` (lines 239-249), the variants in the order of its derived `Ord`. -/
inductive PKind where
  | label | constructor | method | static | interface | dependency | url | hash
  deriving DecidableEq, Repr

/-- `CONSTRUCTOR`, `METHOD`, `STATIC` (lines 278-280). -/
def CONSTRUCTOR : Str := "[constructor]".toList
@[inherit_doc CONSTRUCTOR] def METHOD : Str := "[method]".toList
@[inherit_doc CONSTRUCTOR] def STATIC : Str := "[static]".toList

/-- `str::strip_prefix`. -/
def stripPrefix : Str → Str → Option Str
  | [], s => some s
  | _ :: _, [] => none
  | p :: ps, c :: cs => if p = c then stripPrefix ps cs else none

/-- `str::find` followed by `split_at` or by slicing: what comes before the first character that
satisfies `p`, and the rest which begins with it. -/
def findSplit (p : Char → Bool) : Str → Option (Str × Str)
  | [] => none
  | c :: cs =>
    if p c then some ([], c :: cs)
    else match findSplit p cs with
      | none => none
      | some (a, b) => some (c :: a, b)

/-- `expect_str` (lines 816-822), the state is the rest `next`. -/
def expectStr (pre next : Str) : Option Str := stripPrefix pre next

/-- `eat_up_to` (lines 832-837). -/
def eatUpTo (c : Char) (next : Str) : Option (Str × Str) := findSplit (· == c) next

/-- `eat_until` (lines 824-830). -/
def eatUntil (c : Char) (next : Str) : Option (Str × Str) :=
  match eatUpTo c next with
  | none => none
  | some (a, b) => some (a, b.drop 1)

/-- The pattern of `take_kebab` (line 875), negated. -/
def isKebabChar (c : Char) : Bool := isLo c || isUp c || isDig c || c == '-'

/-- `expect_kebab` (lines 898-901) with `kebab` (lines 839-844). -/
def expectKebab (next : Str) : Option (Str × Str) :=
  match kebabNew next with
  | none => none
  | some k => some (k, [])

/-- `take_kebab` (lines 873-882). -/
def takeKebab (next : Str) : Option (Str × Str) :=
  match findSplit (fun c => !isKebabChar c) next with
  | none => expectKebab next
  | some (a, b) =>
    match kebabNew a with
    | none => none
    | some k => some (k, b)

/-- `take_lowercase_kebab` (lines 884-896). Among the characters of a kebab string the
alphabetic ones that are not lowercase are `A` to `Z`. -/
def takeLowercaseKebab (next : Str) : Option (Str × Str) :=
  match takeKebab next with
  | none => none
  | some (k, b) => if k.any isUp then none else some (k, b)

/-- The loop over further namespaces in `pkg_path` (lines 700-703). Every iteration takes at
least one character, so the length of `next` bounds their number. -/
def moreNamespaces : Nat → Str → Option Str
  | 0, next => if next.head? == some ':' then none else some next
  | fuel + 1, next =>
    if next.head? == some ':' then do
      let next ← expectStr [':'] next
      let (_, next) ← takeLowercaseKebab next
      moreNamespaces fuel next
    else some next

/-- The loop over further projections in `pkg_path` (lines 712-715). -/
def moreProjections : Nat → Str → Option Str
  | 0, next => if next.head? == some '/' then none else some next
  | fuel + 1, next =>
    if next.head? == some '/' then do
      let next ← expectStr ['/'] next
      let (_, next) ← takeKebab next
      moreProjections fuel next
    else some next

/-- The test of the feature and the loop over further namespaces (lines 698-704). -/
def restNamespaces (nested : Bool) (next : Str) : Option Str :=
  if nested then moreNamespaces next.length next else some next

/-- The test of the feature and the loop over further projections (lines 711-716). -/
def restProjections (nested : Bool) (next : Str) : Option Str :=
  if nested then moreProjections next.length next else some next

/-- `pkg_path` (lines 692-722). -/
def pkgPath (nested requireProjection : Bool) (next : Str) : Option Str := do
  let (_, next) ← takeLowercaseKebab next
  let next ← expectStr [':'] next
  let (_, next) ← takeLowercaseKebab next
  let next ← restNamespaces nested next
  if next.head? == some '/' then do
    let next ← expectStr ['/'] next
    let (_, next) ← takeKebab next
    restProjections nested next
  else if requireProjection then none
  else some next

/-- `split_once(' ')`. -/
def splitOnceSpace (s : Str) : Option (Str × Str) := eatUntil ' ' s

/-- `semver_range` (lines 730-763). -/
def semverRange (semver : Str → Bool) (range : Str) : Option Unit :=
  if range = ['*'] then some ()
  else match stripPrefix ['>', '='] range with
    | some range =>
      match splitOnceSpace range with
      | none => if semver range then some () else none
      | some (lower, upper) =>
        if semver lower then
          match stripPrefix ['<'] upper with
          | some upper => if semver upper then some () else none
          | none => none
        else none
    | none =>
      match stripPrefix ['<'] range with
      | some upper => if semver upper then some () else none
      | none => none

/-- `pkg_name_query` (lines 654-669). -/
def pkgNameQuery (nested : Bool) (semver : Str → Bool) (next : Str) : Option Str := do
  let next ← pkgPath nested false next
  match stripPrefix ['@'] next with
  | none => some next
  | some next =>
    match stripPrefix ['*'] next with
    | some next => some next
    | none => do
      let next ← expectStr ['{'] next
      let (range, next) ← eatUpTo '}' next
      let next ← expectStr ['}'] next
      let _ ← semverRange semver range
      some next

/-- `pkg_name` (lines 672-689). -/
def pkgName (nested : Bool) (semver : Str → Bool) (isInterfaceName : Bool) (next : Str) :
    Option Str := do
  let next ← pkgPath nested isInterfaceName next
  match stripPrefix ['@'] next with
  | none => some next
  | some next =>
    let (version, next) := (eatUpTo '>' next).getD (next, [])
    if isInterfaceName then some next
    else if semver version then some next
    else none

/-- `char::is_whitespace`, the characters with the Unicode property `White_Space`. -/
def isSpace (c : Char) : Bool :=
  let n := c.toNat
  (9 ≤ n && n ≤ 13) || n == 32 || n == 0x85 || n == 0xA0 || n == 0x1680 ||
    (0x2000 ≤ n && n ≤ 0x200A) || n == 0x2028 || n == 0x2029 || n == 0x202F || n == 0x205F ||
    n == 0x3000

/-- `str::split_whitespace`: `cur` is the piece that is being read. -/
def splitSpace (cur : Str) : Str → List Str
  | [] => if cur.isEmpty then [] else [cur]
  | c :: cs =>
    if isSpace c then (if cur.isEmpty then splitSpace [] cs else cur :: splitSpace [] cs)
    else splitSpace (cur ++ [c]) cs

/-- The characters of base64 in `is_base64` (line 911). -/
def isB64Char (c : Char) : Bool := isDig c || isLo c || isUp c || c == '+' || c == '/'

/-- The loop of `is_base64` (lines 909-915). It goes over bytes; bytes of characters outside of
ASCII are in no arm, like the characters themselves here. -/
def isBase64Loop (i equals : Nat) : Str → Bool
  | [] => true
  | c :: cs =>
    if isB64Char c && equals == 0 then isBase64Loop (i + 1) equals cs
    else if c == '=' && (decide (0 < i) && decide (equals < 2)) then
      isBase64Loop (i + 1) (equals + 1) cs
    else false

/-- `is_base64` (lines 904-917). -/
def isBase64 (s : Str) : Bool := if s.isEmpty then false else isBase64Loop 0 0 s

/-- The body of the loop of `parse_hash` (lines 768-789). -/
def hashOk (hash : Str) : Bool :=
  let rest := (stripPrefix "sha256".toList hash).or
    ((stripPrefix "sha384".toList hash).or (stripPrefix "sha512".toList hash))
  match rest with
  | none => false
  | some rest =>
    match stripPrefix ['-'] rest with
    | none => false
    | some rest =>
      match eatUpTo '?' rest with
      | some (base64, _) => isBase64 base64
      | none => isBase64 rest

/-- `parse_hash` (lines 765-794). -/
def parseHash (next : Str) : Option Str :=
  match eatUpTo '>' next with
  | none => none
  | some (integrity, next) =>
    let hashes := splitSpace [] integrity
    if hashes.all hashOk then (if hashes.isEmpty then none else some next) else none

/-- `eat_optional_hash` (lines 796-804). -/
def eatOptionalHash (next : Str) : Option Str :=
  match stripPrefix [','] next with
  | none => some next
  | some next => do
    let next ← expectStr "integrity=<".toList next
    let next ← parseHash next
    expectStr ['>'] next

/-- `parse` after `[method]` or `[static]` (lines 594-599, 600-605). -/
def parseFunc (next : Str) : Option Str := do
  let (resource, next) ← eatUntil '.' next
  let _ ← kebabNew resource
  let (_, next) ← expectKebab next
  some next

/-- `parse` after `unlocked-dep=` (lines 608-613). -/
def parseUnlocked (nested : Bool) (semver : Str → Bool) (next : Str) : Option Str := do
  let next ← expectStr ['<'] next
  let next ← pkgNameQuery nested semver next
  expectStr ['>'] next

/-- `parse` after `locked-dep=` (lines 616-622). -/
def parseLocked (nested : Bool) (semver : Str → Bool) (next : Str) : Option Str := do
  let next ← expectStr ['<'] next
  let next ← pkgName nested semver false next
  let next ← expectStr ['>'] next
  eatOptionalHash next

/-- `parse` after `url=` (lines 625-634). -/
def parseUrl (next : Str) : Option Str := do
  let next ← expectStr ['<'] next
  let (url, next) ← eatUpTo '>' next
  if url.contains '<' then none
  else do
    let next ← expectStr ['>'] next
    eatOptionalHash next

/-- `parse` after `integrity=` (lines 637-642). -/
def parseIntegrity (next : Str) : Option Str := do
  let next ← expectStr ['<'] next
  let next ← parseHash next
  expectStr ['>'] next

/-- The end of `parse` (lines 644-650). -/
def parsePlain (nested : Bool) (semver : Str → Bool) (next : Str) : Option (PKind × Str) :=
  if next.contains ':' then (pkgName nested semver true next).map (PKind.interface, ·)
  else (expectKebab next).map fun r => (PKind.label, r.2)

/-- `parse` (lines 589-651): the kind and what is left. -/
def parse (nested : Bool) (semver : Str → Bool) (next : Str) : Option (PKind × Str) :=
  match stripPrefix CONSTRUCTOR next with
  | some next => (expectKebab next).map fun r => (PKind.constructor, r.2)
  | none =>
  match stripPrefix METHOD next with
  | some next => (parseFunc next).map (PKind.method, ·)
  | none =>
  match stripPrefix STATIC next with
  | some next => (parseFunc next).map (PKind.static, ·)
  | none =>
  match stripPrefix "unlocked-dep=".toList next with
  | some next => (parseUnlocked nested semver next).map (PKind.dependency, ·)
  | none =>
  match stripPrefix "locked-dep=".toList next with
  | some next => (parseLocked nested semver next).map (PKind.dependency, ·)
  | none =>
  match stripPrefix "url=".toList next with
  | some next => (parseUrl next).map (PKind.url, ·)
  | none =>
  match stripPrefix "integrity=".toList next with
  | some next => (parseIntegrity next).map (PKind.hash, ·)
  | none => parsePlain nested semver next

/-- `ComponentName` (lines 233-237). -/
structure Name where
  raw : Str
  kind : PKind
  deriving DecidableEq, Repr

/-- `ComponentName::new_with_features` (lines 294-308). -/
def newName (nested : Bool) (semver : Str → Bool) (name : Str) : Option Name :=
  match parse nested semver name with
  | some (kind, []) => some ⟨name, kind⟩
  | _ => none

/-! ## Kinds and accessors -/

/-- `ComponentNameKind` (lines 253-276). -/
inductive NKind where
  | label (s : Str)
  | constructor (s : Str)
  | method (s : Str)
  | static (s : Str)
  | interface (s : Str)
  | dependency (s : Str)
  | url (s : Str)
  | hash (s : Str)
  deriving DecidableEq, Repr

/-- `ComponentName::kind` (lines 311-324). -/
def Name.nkind (n : Name) : NKind :=
  match n.kind with
  | .label => .label n.raw
  | .constructor => .constructor (n.raw.drop CONSTRUCTOR.length)
  | .method => .method (n.raw.drop METHOD.length)
  | .static => .static (n.raw.drop STATIC.length)
  | .interface => .interface n.raw
  | .dependency => .dependency n.raw
  | .url => .url n.raw
  | .hash => .hash n.raw

/-- `ComponentNameKind::kind` (lines 378-389). -/
def NKind.pkind : NKind → PKind
  | .label _ => .label
  | .constructor _ => .constructor
  | .method _ => .method
  | .static _ => .static
  | .interface _ => .interface
  | .dependency _ => .dependency
  | .url _ => .url
  | .hash _ => .hash

/-- `ResourceFunc::resource` (lines 477-480). -/
def resource (s : Str) : Option Str := (eatUpTo '.' s).map (·.1)

/-- `ResourceFunc::method` (lines 483-486). -/
def methodOf (s : Str) : Option Str := (eatUpTo '.' s).map (·.2.drop 1)

/-- `str::rfind`: what comes before the last occurrence of `c`, and the rest which begins with
it. -/
def rfindSplit (c : Char) (s : Str) : Option (Str × Str) :=
  (eatUpTo c s.reverse).map fun p => ((p.2.drop 1).reverse, c :: p.1.reverse)

/-- `InterfaceName::namespace` (lines 500-503). -/
def namespaceOf (s : Str) : Option Str := (rfindSplit ':' s).map (·.1)

/-- `InterfaceName::package` (lines 506-510): the slice from behind the last colon to the first
slash panics if the slash comes before the colon. -/
def packageOf (s : Str) : Option Str := do
  let (a, _) ← rfindSplit ':' s
  let (b, _) ← eatUpTo '/' s
  if a.length + 1 ≤ b.length then some (b.drop (a.length + 1)) else none

/-- `InterfaceName::projection` (lines 520-524): the slice panics if the first `@` comes before
the first slash. -/
def projectionOf (s : Str) : Option Str := do
  let (a, _) ← eatUpTo '/' s
  let b := ((eatUpTo '@' s).map (·.1)).getD s
  if a.length + 1 ≤ b.length then some (b.drop (a.length + 1)) else none

/-- `InterfaceName::interface` (lines 513-517). -/
def interfaceOf (s : Str) : Option Str := do
  let p ← projectionOf s
  some (((eatUpTo '/' p).map (·.1)).getD p)

/-- `InterfaceName::version` (lines 527-541) with a `suffix`: the outer option is the error, the
inner one the result; the version itself is represented by its text. -/
def versionOf (semver : Str → Bool) (s : Str) (suffix : Option Str) : Option (Option Str) :=
  match eatUpTo '@' s with
  | none => some none
  | some (_, rest) =>
    let v := rest.drop 1 ++ suffix.getD []
    if semver v then some (some v) else none

/-! ## Equality, order and hash of component names -/

/-- The position of a variant, by which the derived `Ord` of `ParsedComponentNameKind`
(line 239) compares. -/
def PKind.rank : PKind → Nat
  | .label => 0
  | .constructor => 1
  | .method => 2
  | .static => 3
  | .interface => 4
  | .dependency => 5
  | .url => 6
  | .hash => 7

/-- The derived `Ord` of `ParsedComponentNameKind` (line 239). -/
def PKind.cmp (a b : PKind) : Ordering := compare a.rank b.rank

/-- The guard of the arm for `[..]l.l` (line 404). On a string without a dot the accessors
panic; the names that the parser makes have one. -/
def isDouble (plain func : Str) : Bool :=
  kebabEq plain ((resource func).getD []) && kebabEq plain ((methodOf func).getD [])

/-- `Ord for ComponentNameKind` (lines 392-424), the arms in their order. -/
def NKind.cmp : NKind → NKind → Ordering
  | .label a, .label b => kebabCmp a b
  | .constructor a, .constructor b => kebabCmp a b
  | .method a, .method b => cmpStr a b
  | .method a, .static b => cmpStr a b
  | .static a, .method b => cmpStr a b
  | .static a, .static b => cmpStr a b
  | .label p, .method m => if isDouble p m then .eq else PKind.cmp .label .method
  | .label p, .static m => if isDouble p m then .eq else PKind.cmp .label .static
  | .method m, .label p => if isDouble p m then .eq else PKind.cmp .method .label
  | .static m, .label p => if isDouble p m then .eq else PKind.cmp .static .label
  | .interface a, .interface b => cmpStr a b
  | .dependency a, .dependency b => cmpStr a b
  | .url a, .url b => cmpStr a b
  | .hash a, .hash b => cmpStr a b
  | x, y => PKind.cmp x.pkind y.pkind

/-- `PartialEq for ComponentNameKind` (lines 458-462). -/
def NKind.eq (a b : NKind) : Bool := a.cmp b == .eq

/-- The arm of `Hash for ComponentNameKind` for methods (lines 439-448). -/
def funcHash (s : Str) : List Write :=
  let r := (resource s).getD []
  if kebabEq r ((methodOf s).getD []) then .byte 0 :: kebabHash r else [.byte 2, .str s]

/-- `Hash for ComponentNameKind` (lines 432-456). -/
def NKind.hash' : NKind → List Write
  | .label s => .byte 0 :: kebabHash s
  | .constructor s => .byte 1 :: kebabHash s
  | .method s => funcHash s
  | .static s => funcHash s
  | .interface s => [.byte 3, .str s]
  | .dependency s => [.byte 4, .str s]
  | .url s => [.byte 5, .str s]
  | .hash s => [.byte 6, .str s]

/-- `Ord for ComponentName` (lines 352-356). -/
def Name.cmp (a b : Name) : Ordering := a.nkind.cmp b.nkind

/-- `PartialEq for ComponentName` (lines 344-348). -/
def Name.eq (a b : Name) : Bool := a.nkind.eq b.nkind

/-- `Hash for ComponentName` (lines 338-342). -/
def Name.hash (a : Name) : List Write := a.nkind.hash'

/-- `PartialOrd for ComponentName` (lines 358-362), which compares the kinds only. -/
def Name.partialCmp (a b : Name) : Option Ordering := some (a.kind.cmp b.kind)

/-! ## The names of the imports or exports of a component -/

/-- What `ComponentNameContext::validate_extern` does to the names
(`component.rs`, lines 4644-4747): parse the name (4645-4648), restrict the kinds of export names
(4650-4665), check interface versions (the arm of `validate` in 4777-4781, without version
suffix), refuse a name that is equal to one in `kind_names` (4718-4724), refuse a string that is
in `items` (4729-4736). The checks of `validate` that depend on types are the parameter `fits`;
`implements`, version suffixes, external ids and the accounting of type sizes are left out.

`kind_names` is an `IndexSet`; `replace` finds an element that is equal to its argument if there
is one, as equal names have equal hashes (`eq_hash` in `Props.lean`). `items` is a map
from strings. Both are represented by the list of the names accepted so far. -/
def validateExtern (nested : Bool) (semver : Str → Bool) (isExport : Bool) (fits : Name → Bool)
    (seen : List Name) (name : Str) : Option (List Name) := do
  let kebab ← newName nested semver name
  if isExport && (kebab.kind == .hash || kebab.kind == .url || kebab.kind == .dependency) then none
  else if kebab.kind == .interface && (versionOf semver name none).isNone then none
  else if !fits kebab then none
  else if seen.any (fun prev => prev.eq kebab) then none
  else if seen.any (fun prev => prev.raw == name) then none
  else some (seen ++ [kebab])

/-- A sequence of calls, from the empty sets. -/
def validateExterns (nested : Bool) (semver : Str → Bool) (isExport : Bool)
    (fits : Name → Bool) : List Name → List Str → Option (List Name)
  | seen, [] => some seen
  | seen, n :: ns =>
    match validateExtern nested semver isExport fits seen n with
    | none => none
    | some seen => validateExterns nested semver isExport fits seen ns

end Verif.CompName
