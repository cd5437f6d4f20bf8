import Verif.Go.JsonDecode
import Verif.Go.Path
import Verif.Model.LockPip
import Verif.Model.LockYarn
/-!
# package-lock.json (`pkg/lockfile/parse-npm-lock.go`)

A list of members stands for a Go map in the order in which Go happens to iterate over it.
-/
namespace Osv
open Str

mutual
/-- `pkg/lockfile/parse-npm-lock.go:12-15` `NpmLockDependency`. The nil map and the empty map of dependencies, which lead
to the same packages, are both `NpmDeps.nil`. -/
inductive NpmDep where
  | mk (version : Str) (deps : NpmDeps)
/-- `map[string]NpmLockDependency` -/
inductive NpmDeps where
  | nil
  | cons (name : Str) (dep : NpmDep) (rest : NpmDeps)
end

/-- `m[k] = v` -/
def NpmDeps.set : NpmDeps → Str → NpmDep → NpmDeps
  | .nil, k, v => .cons k v .nil
  | .cons k' v' rest, k, v => if k' = k then .cons k' v rest else .cons k' v' (rest.set k v)

/-- `pkg/lockfile/parse-npm-lock.go:17-22` `NpmLockPackage`. The dependencies are decoded but never read. -/
structure NpmPackage where
  name : Str := []
  version : Str := []
  resolved : Str := []
deriving DecidableEq, Repr

/-- `pkg/lockfile/parse-npm-lock.go:24-30` `NpmLockfile`. -/
structure NpmLockfile where
  dependencies : NpmDeps := .nil
  packages : Option (SMap NpmPackage) := none

/-- `pkg/lockfile/parse-npm-lock.go:44-51` `mergePkgDetailsMap`. -/
def mergeDetails (m1 m2 : SMap PackageDetails) : SMap PackageDetails := m2.foldl (fun m x => m.set x.1 x.2) m1

/-- `pkg/lockfile/parse-npm-lock.go:61-93`: the key and the package of one dependency; `none` is the panic of line 72 when
there is no `@`. -/
def npmDependency (name version : Str) : Option (Str × PackageDetails) :=
  if hasPrefix version g!"file:" then
    some (name ++ g!"@" ++ version, ⟨name, [], [], npmEcosystem, npmEcosystem⟩)
  else
    let alias : Option (Str × Str) :=
      if hasPrefix version g!"npm:" then cutLast? '@' (version.drop 4) else some (name, version)
    alias.map fun nv =>
      let commit := tryExtractCommit version
      if commit ≠ [] then (nv.1 ++ g!"@" ++ commit, ⟨nv.1, [], commit, npmEcosystem, npmEcosystem⟩)
      else (nv.1 ++ g!"@" ++ version, ⟨nv.1, nv.2, commit, npmEcosystem, npmEcosystem⟩)

mutual
/-- `pkg/lockfile/parse-npm-lock.go:56-94`: one round of the loop. -/
def npmDepStep (details : SMap PackageDetails) (name : Str) : NpmDep → Option (SMap PackageDetails)
  | .mk version deps =>
    (npmDepsLoop [] deps).bind fun inner =>
      (npmDependency name version).map fun x => (mergeDetails details inner).set x.1 x.2
/-- `pkg/lockfile/parse-npm-lock.go:53-98` `parseNpmLockDependencies`: the loop, from the map `details`; `none` is a
panic. -/
def npmDepsLoop (details : SMap PackageDetails) : NpmDeps → Option (SMap PackageDetails)
  | .nil => some details
  | .cons name dep rest => (npmDepStep details name dep).bind fun details' => npmDepsLoop details' rest
end

/-- `pkg/lockfile/parse-npm-lock.go:100-109` `extractNpmPackageName`. -/
def extractNpmPackageName (name : Str) : Str :=
  let maybeScope := Path.base (Path.dir name)
  let pkgName := Path.base name
  if hasPrefix maybeScope g!"@" then maybeScope ++ g!"/" ++ pkgName else pkgName

/-- `pkg/lockfile/parse-npm-lock.go:118-139`: the key and the package of one entry. -/
def npmPackage (namePath : Str) (detail : NpmPackage) : Str × PackageDetails :=
  let finalName := if detail.name = [] then extractNpmPackageName namePath else detail.name
  let commit := tryExtractCommit detail.resolved
  let finalVersion := if commit ≠ [] then commit else detail.version
  (finalName ++ g!"@" ++ finalVersion, ⟨finalName, detail.version, commit, npmEcosystem, npmEcosystem⟩)

/-- `pkg/lockfile/parse-npm-lock.go:111-144` `parseNpmLockPackages`, from the map `details`. -/
def npmPackagesLoop (details : SMap PackageDetails) : SMap NpmPackage → SMap PackageDetails
  | [] => details
  | (namePath, detail) :: rest =>
    if namePath = [] then npmPackagesLoop details rest
    else npmPackagesLoop (details.set (npmPackage namePath detail).1 (npmPackage namePath detail).2) rest

/-- `pkg/lockfile/parse-npm-lock.go:146-152` `parseNpmLock`. -/
def parseNpmLockfile (lockfile : NpmLockfile) : Option (SMap PackageDetails) :=
  match lockfile.packages with
  | some packages => some (npmPackagesLoop [] packages)
  | none => npmDepsLoop [] lockfile.dependencies

mutual
/-- Decoding of a value into an `NpmLockDependency` that is zero. -/
def decNpmDep : JVal → Option NpmDep
  | .obj m => decNpmDepMembers m [] .nil
  | .null => some (.mk [] .nil)
  | _ => none
/-- The members of an object into an `NpmLockDependency`. -/
def decNpmDepMembers : JMembers → Str → NpmDeps → Option NpmDep
  | .nil, version, deps => some (.mk version deps)
  | .cons k v rest, version, deps =>
    match Json.fieldOf [g!"version", g!"dependencies"] k with
    | none => decNpmDepMembers rest version deps
    | some f =>
      if f = g!"version" then (Json.decStr v version).bind fun version' => decNpmDepMembers rest version' deps
      else (decNpmDeps v deps).bind fun deps' => decNpmDepMembers rest version deps'
/-- A value into a `map[string]NpmLockDependency`. -/
def decNpmDeps : JVal → NpmDeps → Option NpmDeps
  | .obj m, old => decNpmDepEntries m old
  | .null, _ => some .nil
  | _, _ => none
/-- The members of an object into a `map[string]NpmLockDependency`. -/
def decNpmDepEntries : JMembers → NpmDeps → Option NpmDeps
  | .nil, old => some old
  | .cons k v rest, old => (decNpmDep v).bind fun d => decNpmDepEntries rest (old.set k d)
end

/-- Fields of `NpmLockPackage`. -/
def npmPackageStep (f : Str) (v : JVal) (p : NpmPackage) : Option NpmPackage :=
  if f = g!"name" then (Json.decStr v p.name).map fun s => { p with name := s }
  else if f = g!"version" then (Json.decStr v p.version).map fun s => { p with version := s }
  else if f = g!"resolved" then (Json.decStr v p.resolved).map fun s => { p with resolved := s }
  else (Json.decMap (fun v => Json.decStr v []) v none).map fun _ => p

/-- Decoding of a value into an `NpmLockPackage` that is zero. -/
def decNpmPackage (v : JVal) : Option NpmPackage :=
  Json.decStruct [g!"name", g!"version", g!"resolved", g!"dependencies"] npmPackageStep v {}

/-- Fields of `NpmLockfile`. -/
def npmLockfileStep (f : Str) (v : JVal) (l : NpmLockfile) : Option NpmLockfile :=
  if f = g!"lockfileVersion" then (Json.decInt v).map fun _ => l
  else if f = g!"dependencies" then (decNpmDeps v l.dependencies).map fun d => { l with dependencies := d }
  else (Json.decMap decNpmPackage v l.packages).map fun p => { l with packages := p }

/-- Decoding into a nil `*NpmLockfile`; `some none` if it stays nil. -/
def decNpmLockfile (v : JVal) : Option (Option NpmLockfile) :=
  match v with
  | .null => some none
  | v => (Json.decStruct [g!"lockfileVersion", g!"dependencies", g!"packages"] npmLockfileStep v {}).map some

/-- `pkg/lockfile/parse-npm-lock.go:34-42` and `154-170` `ParseNpmLock`; `none` is a panic. `iterDeps` and `iterPackages`
give the order in which Go iterates over the maps of the file, `order` that of `pkgDetailsMapToSlice`. -/
def parseNpmLock (iterDeps : NpmDeps → NpmDeps) (iterPackages : SMap NpmPackage → SMap NpmPackage)
    (order : List PackageDetails → List PackageDetails) (content : Option Str) : Option Parsed :=
  match content with
  | none => some ([], true)
  | some c => match (Json.parse c).bind decNpmLockfile with
    | none => some ([], true)
    | some none => none
    | some (some l) =>
      (parseNpmLockfile { dependencies := iterDeps l.dependencies, packages := l.packages.map iterPackages }).map fun m =>
        (order (m.map (·.2)), false)

example : parseNpmLock id id id (some
    g!"{\"lockfileVersion\": 1, \"dependencies\": {\"a\": {\"version\": \"1.0\", \"dependencies\": {\"b\": {\"version\": \"npm:@s/c@2.0\"}}}}}") =
    some ([⟨g!"@s/c", g!"2.0", [], g!"npm", g!"npm"⟩, ⟨g!"a", g!"1.0", [], g!"npm", g!"npm"⟩], false) := by decide +kernel
example : parseNpmLock id id id (some
    g!"{\"packages\": {\"\": {\"name\": \"root\"}, \"node_modules/@s/a\": {\"version\": \"1.0\"}}}") =
    some ([⟨g!"@s/a", g!"1.0", [], g!"npm", g!"npm"⟩], false) := by decide +kernel
example : parseNpmLock id id id (some g!"null") = none := by decide +kernel

end Osv
