import Verif.Spec.Lists
import Verif.Spec.Text
import Verif.Model.LockPnpm
/-! # Packages of a pnpm-lock.yaml -/
namespace Osv.Spec
open Osv Str

/-- A part of a package name: no separators. -/
def NamePart (s : Str) : Prop := s ≠ [] ∧ ∀ c ∈ s, c ≠ '/' ∧ c ≠ '@' ∧ c ≠ '(' ∧ c ≠ '\n' ∧ c ≠ '\''

/-- `name` or `@scope/name`. -/
def PnpmName (s : Str) : Prop := NamePart s ∨ ∃ scope n, NamePart scope ∧ NamePart n ∧ s = '@' :: scope ++ '/' :: n

/-- A semantic version: digits, letters, `.`, `-` and `+`, a digit in front. -/
def PnpmVersion (v : Str) : Prop := (∃ c r, v = c :: r ∧ isDigit c = true) ∧
  ∀ c ∈ v, isDigit c = true ∨ ('a' ≤ c ∧ c ≤ 'z') ∨ ('A' ≤ c ∧ c ≤ 'Z') ∨ c = '.' ∨ c = '-' ∨ c = '+'

/-- Dependency paths before version 9: an optional registry, then `/name/version` with peers behind `_` or `/`, or
`/name@version` with peers in parentheses. -/
inductive PnpmPath : Str → Str → Str → Prop
  | slash (host name version peers : Str) : '/' ∉ host → PnpmName name → PnpmVersion version →
      (peers = [] ∨ ∃ r, peers = '_' :: r ∨ peers = '/' :: r) → PnpmPath (host ++ '/' :: name ++ '/' :: version ++ peers) name version
  | at (host name version peers : Str) : '/' ∉ host → PnpmName name → PnpmVersion version → (peers = [] ∨ ∃ r, peers = '(' :: r) →
      PnpmPath (host ++ '/' :: name ++ '@' :: version ++ peers) name version

/-- Peers in parentheses that are not nested and not scoped. -/
inductive FlatPeers : Str → Prop
  | nil : FlatPeers []
  | cons (p rest : Str) : (∀ c ∈ p, c ≠ '(' ∧ c ≠ ')' ∧ c ≠ '/') → FlatPeers rest → FlatPeers ('(' :: p ++ ')' :: rest)

/-- The paths that are read as they are written: no nested or scoped peers, no build metadata, behind `@`. -/
inductive PnpmSimplePath : Str → Str → Str → Prop
  | slash (host name version peers : Str) : '/' ∉ host → PnpmName name → PnpmVersion version →
      (peers = [] ∨ ∃ r, peers = '_' :: r ∨ peers = '/' :: r) → PnpmSimplePath (host ++ '/' :: name ++ '/' :: version ++ peers) name version
  | at (host name version peers : Str) : '/' ∉ host → PnpmName name → PnpmVersion version → '+' ∉ version → FlatPeers peers →
      PnpmSimplePath (host ++ '/' :: name ++ '@' :: version ++ peers) name version

/-- Keys of version 9, `name@version`. -/
def PnpmKey9 (key name version : Str) : Prop := PnpmName name ∧ (∀ c ∈ version.getLast?, c ≠ '\'') ∧ key = name ++ '@' :: version

/-- A local file: the key says nothing. -/
def IsFile (key : Str) : Prop := ∃ r, key = g!"file:" ++ r

/-- A reading of `s` as a name and a version with an `@` between them, and nothing or a parenthesis behind. -/
def AtVersion (s name version : Str) : Prop := ∃ t, name ≠ [] ∧ '\n' ∉ name ∧ version ≠ [] ∧
  (∀ c ∈ version, isWord c = true ∨ c = '.' ∨ c = '-') ∧ s = name ++ '@' :: (version ++ t) ∧ (t = [] ∨ ∃ r, t = '(' :: r)

/-- The last such reading. -/
def LastAtVersion (s name version : Str) : Prop :=
  AtVersion s name version ∧ ∀ n v, AtVersion s n v → n.length ≤ name.length

/-- The segments of a path. -/
def Segments (path : Str) (ps : List Str) : Prop := ps ≠ [] ∧ (∀ p ∈ ps, '/' ∉ p) ∧ path = join g!"/" ps

/-- Behind the host, a path begins with a name of one segment, or of two if it begins with `@`. -/
def PnpmNamed (path name : Str) (rest : List Str) : Prop := ∃ host,
  (Segments path (host :: name :: rest) ∧ ∀ r, name ≠ '@' :: r) ∨
  ∃ scope n, Segments path (host :: ('@' :: scope) :: n :: rest) ∧ name = '@' :: scope ++ '/' :: n

/-- The name and version of a path, as far as the parser is concerned. -/
def PnpmPathSays (path name version : Str) : Prop := ∃ full rest v, PnpmNamed path full rest ∧
  ((rest.headD [] ≠ [] ∧ name = full ∧ v = rest.headD []) ∨ (rest.headD [] = [] ∧ LastAtVersion full name v)) ∧
  (∃ c r, v = c :: r ∧ isDigit c = true) ∧ Before '_' v version

/-- What the parser makes of any path before version 9 that it accepts. -/
def PnpmPathRule (path name version : Str) : Prop :=
  (∃ full rest, PnpmNamed path full rest) ∧
    (PnpmPathSays path name version ∨ ((∀ n v, ¬ PnpmPathSays path n v) ∧ name = [] ∧ version = []))

/-- The key without quotes around it. -/
def PnpmUnquoted (key t : Str) : Prop := ∃ a b, key = a ++ t ++ b ∧ (∀ c ∈ a, c = '\'') ∧ (∀ c ∈ b, c = '\'') ∧
  (∀ c ∈ t.head?, c ≠ '\'') ∧ (∀ c ∈ t.getLast?, c ≠ '\'')

/-- Around the first `@`; everything is the name if there is none. -/
def AroundAt (t name version : Str) : Prop :=
  '@' ∉ name ∧ ((t = name ∧ version = []) ∨ t = name ++ '@' :: version)

/-- What the parser makes of any key of version 9: an `@` in front belongs to the name. -/
def PnpmKeyRule (key name version : Str) : Prop := ∃ t, PnpmUnquoted key t ∧
  ((∃ r n, t = '@' :: r ∧ AroundAt r n version ∧ name = '@' :: n) ∨ ((∀ r, t ≠ '@' :: r) ∧ AroundAt t name version))

/-- What the parser makes of any key. -/
def PnpmRule (isNine : Bool) (key name version : Str) : Prop :=
  (IsFile key ∧ name = [] ∧ version = []) ∨
  (¬ IsFile key ∧ ((isNine = true ∧ PnpmKeyRule key name version) ∨ (isNine = false ∧ PnpmPathRule key name version)))

/-- The name and version that a key stands for, both empty for local files. -/
def PnpmRead (isNine : Bool) (path : Str → Str → Str → Prop) (key name version : Str) : Prop :=
  (IsFile key ∧ name = [] ∧ version = []) ∨
  (¬ IsFile key ∧ ((isNine = true ∧ PnpmKey9 key name version) ∨ (isNine = false ∧ path key name version)))

/-- `first` if it is not empty, otherwise `second`. -/
def FirstOf (first second r : Str) : Prop := (first ≠ [] ∧ r = first) ∨ (first = [] ∧ r = second)

/-- A tarball of a commit from GitHub; there may be anything between two occurrences of the host. -/
def CodeloadTarball (t commit : Str) : Prop := (∃ r, t = g!"https://codeload.github.com" ++ r) ∧
  ∃ pre o r, o ≠ [] ∧ r ≠ [] ∧ (∀ x ∈ o, isWord x = true ∨ x = '-' ∨ x = '.') ∧ (∀ x ∈ r, isWord x = true ∨ x = '-' ∨ x = '.') ∧
    commit ≠ [] ∧ (∀ x ∈ commit, isWord x = true) ∧
    t = pre ++ g!"https://codeload.github.com/" ++ o ++ g!"/" ++ r ++ g!"/tar.gz/" ++ commit

/-- The commit of a package. -/
def PnpmCommit (p : PnpmLockPackage) (c : Str) : Prop :=
  CodeloadTarball p.tarball c ∨ ((∀ c, ¬ CodeloadTarball p.tarball c) ∧ c = p.commit)

/-- The package that is reported for an entry, given what the key stands for; none if there is no name or no version. -/
def PnpmEntryBy (read : Str → Str → Str → Prop) (x : Str × PnpmLockPackage) (p : PackageDetails) : Prop :=
  ∃ n v name version commit, read x.1 n v ∧ FirstOf x.2.name n name ∧ FirstOf x.2.version v version ∧
    name ≠ [] ∧ version ≠ [] ∧ PnpmCommit x.2 commit ∧ p = pkg g!"npm" name version commit

/-- The package that is reported for an entry. -/
def PnpmEntry (isNine : Bool) (path : Str → Str → Str → Prop) : Str × PnpmLockPackage → PackageDetails → Prop :=
  PnpmEntryBy (PnpmRead isNine path)

end Osv.Spec
