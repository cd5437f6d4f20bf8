import Verif.Go.JsonDecode
import Verif.Model.LockGradle
/-!
# composer.lock (`pkg/lockfile/parse-composer-lock.go`)
-/
namespace Osv
open Str

/-- `pkg/lockfile/parse-composer-lock.go:10-16` `ComposerPackage`; `reference` is that of `dist`. -/
structure ComposerPackage where
  name : Str := []
  version : Str := []
  reference : Str := []
deriving DecidableEq, Repr

/-- `pkg/lockfile/parse-composer-lock.go:18-21` `ComposerLock`. -/
structure ComposerLock where
  packages : List ComposerPackage := []
  packagesDev : List ComposerPackage := []
deriving DecidableEq, Repr

/-- `pkg/lockfile/parse-composer-lock.go:23` -/
def composerEcosystem : Ecosystem := g!"Packagist"

/-- Fields of `ComposerPackage`. -/
def composerPackageStep (f : Str) (v : JVal) (p : ComposerPackage) : Option ComposerPackage :=
  if f = g!"name" then (Json.decStr v p.name).map fun s => { p with name := s }
  else if f = g!"version" then (Json.decStr v p.version).map fun s => { p with version := s }
  else (Json.decStruct [g!"reference"] (fun _ w old => Json.decStr w old) v p.reference).map fun s => { p with reference := s }

/-- A value into a `ComposerPackage` that is zero. -/
def decComposerPackage (v : JVal) : Option ComposerPackage :=
  Json.decStruct [g!"name", g!"version", g!"dist"] composerPackageStep v {}

/-- Fields of `ComposerLock`. -/
def composerStep (f : Str) (v : JVal) (l : ComposerLock) : Option ComposerLock :=
  if f = g!"packages" then (Json.decSlice decComposerPackage v).map fun x => { l with packages := x }
  else (Json.decSlice decComposerPackage v).map fun x => { l with packagesDev := x }

/-- Decoding into a nil `*ComposerLock`; `some none` if it stays nil. -/
def decComposerLock (v : JVal) : Option (Option ComposerLock) :=
  match v with
  | .null => some none
  | v => (Json.decStruct [g!"packages", g!"packages-dev"] composerStep v {}).map some

/-- `pkg/lockfile/parse-composer-lock.go:25-34` `extractCommit`. -/
def extractComposerCommit (p : ComposerPackage) : Str := if contains p.reference g!"." then [] else p.reference

/-- `pkg/lockfile/parse-composer-lock.go:58-64` and `68-74`. -/
def composerDetails (p : ComposerPackage) : PackageDetails :=
  ⟨p.name, p.version, extractComposerCommit p, composerEcosystem, composerEcosystem⟩

/-- `pkg/lockfile/parse-composer-lock.go:36-79` `ParseComposerLock`; `none` is a panic. -/
def parseComposerLock (content : Option Str) : Option Parsed :=
  match content with
  | none => some ([], true)
  | some c => match (Json.parse c).bind decComposerLock with
    | none => some ([], true)
    | some none => none
    | some (some l) => some (l.packages.map composerDetails ++ l.packagesDev.map composerDetails, false)

example : parseComposerLock (some
    g!"{\"packages\": [{\"name\": \"a/b\", \"version\": \"1.0\", \"dist\": {\"reference\": \"abc\"}}], \"packages-dev\": [{\"name\": \"c/d\", \"dist\": {\"reference\": \"1.0\"}}]}") =
    some ([⟨g!"a/b", g!"1.0", g!"abc", g!"Packagist", g!"Packagist"⟩, ⟨g!"c/d", [], [], g!"Packagist", g!"Packagist"⟩], false) := by
  decide +kernel

end Osv
