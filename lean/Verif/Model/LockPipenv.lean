import Verif.Go.JsonDecode
import Verif.Model.LockGradle
/-!
# Pipfile.lock (`pkg/lockfile/parse-pipenv-lock.go`)
-/
namespace Osv
open Str

/-- `pkg/lockfile/parse-pipenv-lock.go:13-16` `PipenvLock`. A `PipenvPackage` is its only field, `version`. -/
structure PipenvLock where
  packages : Option (SMap Str) := none
  packagesDev : Option (SMap Str) := none
deriving DecidableEq, Repr

/-- A value into a `PipenvPackage` that is zero. -/
def decPipenvPackage (v : JVal) : Option Str := Json.decStruct [g!"version"] (fun _ w old => Json.decStr w old) v []

/-- Fields of `PipenvLock`. -/
def pipenvStep (f : Str) (v : JVal) (l : PipenvLock) : Option PipenvLock :=
  if f = g!"default" then (Json.decMap decPipenvPackage v l.packages).map fun d => { l with packages := d }
  else (Json.decMap decPipenvPackage v l.packagesDev).map fun d => { l with packagesDev := d }

/-- Decoding into a nil `*PipenvLock`; `some none` if it stays nil. -/
def decPipenvLock (v : JVal) : Option (Option PipenvLock) :=
  match v with
  | .null => some none
  | v => (Json.decStruct [g!"default", g!"develop"] pipenvStep v {}).map some

/-- `s[n:]`, on bytes; `none` is the panic when there are fewer. Simplification: the bytes that are left of a character that is
cut in two, which are not valid UTF-8, are replaced by U+FFFD. -/
def dropBytes : Nat → Str → Option Str
  | 0, s => some s
  | _ + 1, [] => none
  | n + 1, c :: r =>
    if c.utf8Size ≤ n + 1 then dropBytes (n + 1 - c.utf8Size) r else some (List.replicate (c.utf8Size - (n + 1)) '\ufffd' ++ r)
termination_by n => n
decreasing_by
  have := c.utf8Size_pos
  omega

/-- `pkg/lockfile/parse-pipenv-lock.go:37-50` and `52-65`: one loop, from the map `packages`. -/
def pipenvLoop (packages : SMap PackageDetails) : SMap Str → Option (SMap PackageDetails)
  | [] => some packages
  | (name, version) :: rest =>
    if version = [] then pipenvLoop packages rest
    else (dropBytes 2 version).bind fun v => pipenvLoop (packages.set (name ++ g!"@" ++ v) ⟨name, v, [], pipEcosystem, pipEcosystem⟩) rest

/-- `pkg/lockfile/parse-pipenv-lock.go:20-68` `ParsePipenvLock`; `none` is a panic. `iter` gives the order in which Go iterates
over the maps of the file, `order` that of `pkgDetailsMapToSlice`. -/
def parsePipenvLock (iter : SMap Str → SMap Str) (order : List PackageDetails → List PackageDetails) (content : Option Str) :
    Option Parsed :=
  match content with
  | none => some ([], true)
  | some c => match (Json.parse c).bind decPipenvLock with
    | none => some ([], true)
    | some none => none
    | some (some l) => ((pipenvLoop [] (iter (l.packages.getD []))).bind fun m => pipenvLoop m (iter (l.packagesDev.getD []))).map
        fun m => (order (m.map (·.2)), false)

example : parsePipenvLock id id (some
    g!"{\"default\": {\"a\": {\"version\": \"==1.0\"}, \"b\": {}}, \"develop\": {\"a\": {\"version\": \"==1.0\"}, \"c\": {\"version\": \"==2.0\"}}}") =
    some ([⟨g!"a", g!"1.0", [], g!"PyPI", g!"PyPI"⟩, ⟨g!"c", g!"2.0", [], g!"PyPI", g!"PyPI"⟩], false) := by
  decide +kernel

end Osv
