import Verif.Go.JsonDecode
import Verif.Model.LockGradle
/-!
# renv.lock (`pkg/lockfile/parse-renv-lock.go`)
-/
namespace Osv
open Str

/-- `pkg/lockfile/parse-renv-lock.go:9-13` `RenvPackage`. -/
structure RenvPackage where
  package : Str := []
  version : Str := []
  repository : Str := []
deriving DecidableEq, Repr

/-- `pkg/lockfile/parse-renv-lock.go:19` -/
def cranEcosystem : Ecosystem := g!"CRAN"

/-- Fields of `RenvPackage`. -/
def renvPackageStep (f : Str) (v : JVal) (p : RenvPackage) : Option RenvPackage :=
  if f = g!"Package" then (Json.decStr v p.package).map fun s => { p with package := s }
  else if f = g!"Version" then (Json.decStr v p.version).map fun s => { p with version := s }
  else (Json.decStr v p.repository).map fun s => { p with repository := s }

/-- A value into a `RenvPackage` that is zero. -/
def decRenvPackage (v : JVal) : Option RenvPackage :=
  Json.decStruct [g!"Package", g!"Version", g!"Repository"] renvPackageStep v {}

/-- Decoding into a nil `*RenvLockfile` (`pkg/lockfile/parse-renv-lock.go:15-17`), whose only field is a map; `some none` if
it stays nil. -/
def decRenvLockfile (v : JVal) : Option (Option (Option (SMap RenvPackage))) :=
  match v with
  | .null => some none
  | v => (Json.decStruct [g!"Packages"] (fun _ w old => Json.decMap decRenvPackage w old) v none).map some

/-- `pkg/lockfile/parse-renv-lock.go:38-51`: the loop, in the order of iteration. -/
def renvLoop : SMap RenvPackage → List PackageDetails
  | [] => []
  | (_, pkg) :: rest =>
    if pkg.repository ≠ [] && pkg.repository ≠ cranEcosystem then renvLoop rest
    else ⟨pkg.package, pkg.version, [], cranEcosystem, cranEcosystem⟩ :: renvLoop rest

/-- `pkg/lockfile/parse-renv-lock.go:21-54` `ParseRenvLock`; `none` is a panic. `iter` gives the order in which Go iterates
over the map. -/
def parseRenvLock (iter : SMap RenvPackage → SMap RenvPackage) (content : Option Str) : Option Parsed :=
  match content with
  | none => some ([], true)
  | some c => match (Json.parse c).bind decRenvLockfile with
    | none => some ([], true)
    | some none => none
    | some (some packages) => some (renvLoop (iter (packages.getD [])), false)

example : parseRenvLock id (some
    g!"{\"Packages\": {\"a\": {\"Package\": \"a\", \"Version\": \"1\", \"Repository\": \"CRAN\"}, \"b\": {\"Package\": \"b\", \"Repository\": \"Other\"}, \"c\": {\"Package\": \"c\", \"Version\": \"2\"}}}") =
    some ([⟨g!"a", g!"1", [], g!"CRAN", g!"CRAN"⟩, ⟨g!"c", g!"2", [], g!"CRAN", g!"CRAN"⟩], false) := by
  decide +kernel

end Osv
