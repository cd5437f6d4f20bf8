import Verif.Model.LockNpm
import Verif.Spec.JsonDoc
/-! # What a package-lock.json lists -/
namespace Osv.Spec
open Osv Str

/-- `NpmDepIn t name version`: the tree has, at some depth, a dependency with this name and version text. -/
inductive NpmDepIn : NpmDeps → Str → Str → Prop
  | here {name version deps rest} : NpmDepIn (.cons name (.mk version deps) rest) name version
  | inner {name version deps rest n v} : NpmDepIn deps n v → NpmDepIn (.cons name (.mk version deps) rest) n v
  | next {name dep rest n v} : NpmDepIn rest n v → NpmDepIn (.cons name dep rest) n v

/-- A package of npm. -/
def npm (name version commit : Str) : PackageDetails := ⟨name, version, commit, g!"npm", g!"npm"⟩

/-- The name and version that a dependency stands for: its own, or those behind `npm:` for an alias. -/
inductive NpmCalled : Str → Str → Str → Str → Prop
  | own (name version : Str) : (∀ r, version ≠ g!"npm:" ++ r) → NpmCalled name version name version
  | aliased (name n w : Str) : '@' ∉ w → NpmCalled name (g!"npm:" ++ n ++ '@' :: w) n w

/-- The package that a dependency stands for. `commit` gives the commit of a git resolution (see C55) and the empty text
otherwise. -/
inductive NpmEntry (commit : Str → Str) : Str → Str → PackageDetails → Prop
  | file (name path : Str) : NpmEntry commit name (g!"file:" ++ path) (npm name [] [])
  | git (name version n w : Str) : (∀ r, version ≠ g!"file:" ++ r) → NpmCalled name version n w → commit version ≠ [] →
      NpmEntry commit name version (npm n [] (commit version))
  | registry (name version n w : Str) : (∀ r, version ≠ g!"file:" ++ r) → NpmCalled name version n w → commit version = [] →
      NpmEntry commit name version (npm n w [])

/-- A name as npm allows them: not empty, and `@` only as the first character. -/
def NpmName (name : Str) : Prop := ∃ c r, name = c :: r ∧ '@' ∉ r

/-- The dependencies at all depths of a `dependencies` object of a file. -/
inductive NpmJsonDep : JMembers → Str → Str → Prop
  | here {deps name o version} : Member deps name (.obj o) → TextField o g!"version" version → NpmJsonDep deps name version
  | null {deps name} : Member deps name .null → NpmJsonDep deps name []
  | inner {deps k o ds name version} : Member deps k (.obj o) → Member o g!"dependencies" (.obj ds) →
      NpmJsonDep ds name version → NpmJsonDep deps name version

/-- A `dependencies` object in which no key occurs twice, and no spelling of `version` or `dependencies` but this. -/
inductive PlainNpmDeps : JMembers → Prop
  | mk {deps} : DistinctKeys deps → (∀ k o, Member deps k (.obj o) → PlainKeys [g!"version", g!"dependencies"] o) →
      (∀ k o ds, Member deps k (.obj o) → Member o g!"dependencies" (.obj ds) → PlainNpmDeps ds) → PlainNpmDeps deps

/-- A path with its segments, as npm writes them: no empty segment, no `.`, and `..` only at the front. -/
def NpmPath (path : Str) (segments : List Str) : Prop :=
  segments ≠ [] ∧ path = join g!"/" segments ∧ (∀ s ∈ segments, '/' ∉ s ∧ s ≠ [] ∧ s ≠ g!".") ∧
  ∃ ups rest, segments = ups ++ rest ∧ (∀ s ∈ ups, s = g!"..") ∧ (∀ s ∈ rest, s ≠ g!"..")

/-- The name at the end of a path: the last segment, together with the one before if that is a scope. -/
def NpmNameAt (segments : List Str) (name : Str) : Prop :=
  (∃ pre s, segments = pre ++ [s] ∧ (∀ t ∈ pre.getLast?, ∀ r, t ≠ '@' :: r) ∧ name = s) ∨
  (∃ pre scope s, segments = pre ++ ['@' :: scope, s] ∧ name = '@' :: scope ++ '/' :: s)

/-- The package of an entry of `packages`: its name, if it has none that at the end of the path, its version and the
commit of its resolution. -/
def NpmPackageEntry (commit : Str → Str) (path name version resolved : Str) (p : PackageDetails) : Prop :=
  ∃ n, (name ≠ [] ∧ n = name ∨ name = [] ∧ ∃ segments, NpmPath path segments ∧ NpmNameAt segments n) ∧
    p = npm n version (commit resolved)

/-- An entry of the `packages` object of a file other than the root, with its name, version and resolution. -/
inductive NpmJsonPackage (packages : JMembers) : Str → Str → Str → Str → Prop
  | obj {path o name version resolved} : path ≠ [] → Member packages path (.obj o) → TextField o g!"name" name →
      TextField o g!"version" version → TextField o g!"resolved" resolved → NpmJsonPackage packages path name version resolved
  | null {path} : path ≠ [] → Member packages path .null → NpmJsonPackage packages path [] [] []

/-- The text of a package-lock.json with a `dependencies` object and without `packages`. -/
def NpmV1File (content : Str) (deps : JMembers) : Prop :=
  ∃ doc, Json.parse content = some (.obj doc) ∧ PlainKeys [g!"lockfileVersion", g!"dependencies", g!"packages"] doc ∧
    Member doc g!"dependencies" (.obj deps) ∧ PlainNpmDeps deps ∧ ∀ v, Member doc g!"packages" v → v = .null

/-- The text of a package-lock.json with a `packages` object. -/
def NpmV2File (content : Str) (packages : JMembers) : Prop :=
  ∃ doc, Json.parse content = some (.obj doc) ∧ PlainKeys [g!"lockfileVersion", g!"dependencies", g!"packages"] doc ∧
    Member doc g!"packages" (.obj packages) ∧ DistinctKeys packages ∧
    ∀ k o, Member packages k (.obj o) → PlainKeys [g!"name", g!"version", g!"resolved", g!"dependencies"] o

end Osv.Spec
