import Verif.Model.LockNpm
/-!
# packages.lock.json (`pkg/lockfile/parse-nuget-lock.go`)
-/
namespace Osv
open Str

/-- `pkg/lockfile/parse-nuget-lock.go:16-19` `NuGetLockfile`. A `NuGetLockPackage` is its only field, `resolved`. `version` is
the literal of the number, which decides the value. -/
structure NuGetLockfile where
  version : Str := g!"0"
  dependencies : Option (SMap (Option (SMap Str))) := none

/-- `pkg/lockfile/parse-nuget-lock.go:21` -/
def nugetEcosystem : Ecosystem := g!"NuGet"

/-- A value into a `NuGetLockPackage` that is zero. -/
def decNuGetPackage (v : JVal) : Option Str := Json.decStruct [g!"resolved"] (fun _ w old => Json.decStr w old) v []

/-- Fields of `NuGetLockfile`. -/
def nugetStep (f : Str) (v : JVal) (l : NuGetLockfile) : Option NuGetLockfile :=
  if f = g!"version" then (Json.decInt v).map fun _ => match v with
    | .num lit => { l with version := lit }
    | _ => l
  else (Json.decMap (fun w => Json.decMap decNuGetPackage w none) v l.dependencies).map fun d => { l with dependencies := d }

/-- Decoding into a nil `*NuGetLockfile`; `some none` if it stays nil. -/
def decNuGetLockfile (v : JVal) : Option (Option NuGetLockfile) :=
  match v with
  | .null => some none
  | v => (Json.decStruct [g!"version", g!"dependencies"] nugetStep v {}).map some

/-- `pkg/lockfile/parse-nuget-lock.go:23-36` `parseNuGetLockDependencies`, from the map `details`. -/
def nugetDepsLoop (details : SMap PackageDetails) : SMap Str → SMap PackageDetails
  | [] => details
  | (name, resolved) :: rest =>
    nugetDepsLoop (details.set (name ++ g!"@" ++ resolved) ⟨name, resolved, [], nugetEcosystem, nugetEcosystem⟩) rest

/-- `pkg/lockfile/parse-nuget-lock.go:38-49` `parseNuGetLock`: the loop over the frameworks, from the map `details`. -/
def nugetLoop (iterDeps : SMap Str → SMap Str) (details : SMap PackageDetails) : SMap (Option (SMap Str)) → SMap PackageDetails
  | [] => details
  | (_, deps) :: rest => nugetLoop iterDeps (mergeDetails details (nugetDepsLoop [] (iterDeps (deps.getD [])))) rest

/-- `pkg/lockfile/parse-nuget-lock.go:53-73` `ParseNuGetLock`; `none` is a panic. `iterDeps` and `iterFrameworks` give the order
in which Go iterates over the maps of the file, `order` that of `pkgDetailsMapToSlice`. The only literal of JSON for the integer
1 is `1`. -/
def parseNuGetLock (iterDeps : SMap Str → SMap Str) (iterFrameworks : SMap (Option (SMap Str)) → SMap (Option (SMap Str)))
    (order : List PackageDetails → List PackageDetails) (content : Option Str) : Option Parsed :=
  match content with
  | none => some ([], true)
  | some c => match (Json.parse c).bind decNuGetLockfile with
    | none => some ([], true)
    | some none => none
    | some (some l) =>
      if l.version ≠ g!"1" then some ([], true)
      else some (order ((nugetLoop iterDeps [] (iterFrameworks (l.dependencies.getD []))).map (·.2)), false)

example : parseNuGetLock id id id (some
    g!"{\"version\": 1, \"dependencies\": {\"net6.0\": {\"a\": {\"resolved\": \"1.0\"}}, \"net7.0\": {\"a\": {\"resolved\": \"1.0\"}, \"b\": {\"resolved\": \"2.0\"}}}}") =
    some ([⟨g!"a", g!"1.0", [], g!"NuGet", g!"NuGet"⟩, ⟨g!"b", g!"2.0", [], g!"NuGet", g!"NuGet"⟩], false) := by
  decide +kernel

end Osv
