import Verif.Model.LockGradle
import Verif.Model.MemDB
/-!
# go.mod (`pkg/lockfile/parse-go-lock.go`)

`golang.org/x/mod/modfile` is not part of the repository: the decoder is a parameter. `Model/ModFile` models the decoder itself.
-/
namespace Osv
open Str

/-- `module.Version` of `golang.org/x/mod`. -/
structure GoModule where
  path : Str
  version : Str
deriving DecidableEq, Repr

/-- `modfile.Replace`: `old` and `new`. -/
structure GoReplace where
  old : GoModule
  new : GoModule
deriving DecidableEq, Repr

/-- The parts of `modfile.File` that are used. -/
structure GoModFile where
  require : List GoModule
  replace : List GoReplace

/-- `pkg/lockfile/parse-go-lock.go:11` -/
def goEcosystem : Ecosystem := g!"Go"

/-- The `PackageDetails` of lines 39-44 and 69-74. -/
def goDetails (m : GoModule) : PackageDetails := ⟨m.path, trimPrefix m.version g!"v", [], goEcosystem, goEcosystem⟩

/-- `pkg/lockfile/parse-go-lock.go:38-45`: the loop over the requirements, from the map `packages`. -/
def goRequireLoop (packages : SMap PackageDetails) : List GoModule → SMap PackageDetails
  | [] => packages
  | m :: rest => goRequireLoop (packages.set (m.path ++ g!"@" ++ m.version) (goDetails m)) rest

/-- `pkg/lockfile/parse-go-lock.go:48-66`: `replacements`. `iter` gives the order in which Go iterates over the map. -/
def goReplacements (iter : SMap PackageDetails → SMap PackageDetails) (packages : SMap PackageDetails) (r : GoReplace) : List Str :=
  if r.old.version = [] then ((iter packages).filter fun x => x.2.name = r.old.path).map (·.1)
  else if (packages.get? (r.old.path ++ g!"@" ++ r.old.version)).isSome then [r.old.path ++ g!"@" ++ r.old.version] else []

/-- `pkg/lockfile/parse-go-lock.go:47-76`: the loop over the replacements, from the map `packages`. -/
def goReplaceLoop (iter : SMap PackageDetails → SMap PackageDetails) (packages : SMap PackageDetails) :
    List GoReplace → SMap PackageDetails
  | [] => packages
  | r :: rest => goReplaceLoop iter ((goReplacements iter packages r).foldl (fun m k => m.set k (goDetails r.new)) packages) rest

/-- `pkg/lockfile/parse-go-lock.go:13-21` `deduplicatePackages`. -/
def deduplicatePackages (iter : SMap PackageDetails → SMap PackageDetails) (packages : SMap PackageDetails) : SMap PackageDetails :=
  (iter packages).foldl (fun m x => m.set (x.2.name ++ g!"@" ++ x.2.version) x.2) []

/-- `pkg/lockfile/parse-go-lock.go:23-79` `ParseGoLock`. `order` is the order of `pkgDetailsMapToSlice`. -/
def parseGoLock (decode : Str → Option GoModFile) (iter : SMap PackageDetails → SMap PackageDetails)
    (order : List PackageDetails → List PackageDetails) (content : Option Str) : Parsed :=
  match content.bind decode with
  | none => ([], true)
  | some f => (order ((deduplicatePackages iter (goReplaceLoop iter (goRequireLoop [] f.require) f.replace)).map (·.2)), false)

end Osv
