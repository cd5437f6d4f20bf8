import Verif.Model.LockGradle
/-!
# Lockfiles in TOML

`pkg/lockfile/parse-cargo-lock.go`, `parse-poetry-lock.go`, `parse-pdm-lock.go`, `parse-uv-lock.go` and `parse-pylock.go`.

The decoder (`toml.Unmarshal` of `github.com/BurntSushi/toml`) is a parameter: from the text to the packages, `none` if it
returns an error. It always sets the pointer it is given. Fields that are never read are left out of the structs.
-/
namespace Osv
open Str

/-- `pkg/lockfile/parse-cargo-lock.go:10-13` `CargoLockPackage`. -/
structure CargoPackage where
  name : Str
  version : Str
deriving DecidableEq, Repr

/-- `pkg/lockfile/parse-cargo-lock.go:20` -/
def cargoEcosystem : Ecosystem := g!"crates.io"

/-- `pkg/lockfile/parse-cargo-lock.go:22-49` `ParseCargoLock`. -/
def parseCargoLock (decode : Str → Option (List CargoPackage)) (content : Option Str) : Parsed :=
  match content.bind decode with
  | none => ([], true)
  | some packages => (packages.foldl (fun acc p => acc ++ [⟨p.name, p.version, [], cargoEcosystem, cargoEcosystem⟩]) [], false)

/-- `pkg/lockfile/parse-poetry-lock.go:10-19` `PoetryLockPackage`; `commit` is that of `source`. -/
structure PoetryPackage where
  name : Str
  version : Str
  commit : Str
deriving DecidableEq, Repr

/-- `pkg/lockfile/parse-poetry-lock.go:28-56` `ParsePoetryLock`. -/
def parsePoetryLock (decode : Str → Option (List PoetryPackage)) (content : Option Str) : Parsed :=
  match content.bind decode with
  | none => ([], true)
  | some packages => (packages.foldl (fun acc p => acc ++ [⟨p.name, p.version, p.commit, pipEcosystem, pipEcosystem⟩]) [], false)

/-- `pkg/lockfile/parse-pdm-lock.go:10-15` `PdmLockPackage`. -/
structure PdmPackage where
  name : Str
  version : Str
  revision : Str
deriving DecidableEq, Repr

/-- `pkg/lockfile/parse-pdm-lock.go:42-53` -/
def pdmDetails (p : PdmPackage) : PackageDetails :=
  let details : PackageDetails := ⟨p.name, p.version, [], pipEcosystem, pipEcosystem⟩
  if p.revision ≠ [] then { details with commit := p.revision } else details

/-- `pkg/lockfile/parse-pdm-lock.go:24-57` `ParsePdmLock`. -/
def parsePdmLock (decode : Str → Option (List PdmPackage)) (content : Option Str) : Parsed :=
  match content.bind decode with
  | none => ([], true)
  | some packages => (packages.foldl (fun acc p => acc ++ [pdmDetails p]) [], false)

/-- `pkg/lockfile/parse-uv-lock.go:11-25` `UvLockPackage`; `virtual` and `git` are those of `source`. -/
structure UvPackage where
  name : Str
  version : Str
  virtual : Str
  git : Str
deriving DecidableEq, Repr

/-- `pkg/lockfile/parse-uv-lock.go:54-69`: one round of the loop. -/
def uvStep (acc : List PackageDetails) (p : UvPackage) : List PackageDetails :=
  if p.virtual = g!"." then acc
  else
    let commit := (cut p.git g!"#").2
    acc ++ [⟨p.name, p.version, commit, pipEcosystem, pipEcosystem⟩]

/-- `pkg/lockfile/parse-uv-lock.go:37-72` `ParseUvLock`. -/
def parseUvLock (decode : Str → Option (List UvPackage)) (content : Option Str) : Parsed :=
  match content.bind decode with
  | none => ([], true)
  | some packages => (packages.foldl uvStep [], false)

/-- `pkg/lockfile/parse-pylock.go:10-24` `PylockPackage`; `commit` is that of `vcs`, `path` that of `directory`. -/
structure PylockPackage where
  name : Str
  version : Str
  commit : Str
  path : Str
deriving DecidableEq, Repr

/-- `pkg/lockfile/parse-pylock.go:50-68`: one round of the loop. -/
def pylockStep (acc : List PackageDetails) (p : PylockPackage) : List PackageDetails :=
  if p.version = [] && p.path = g!"." then acc
  else
    let details : PackageDetails := ⟨p.name, p.version, [], pipEcosystem, pipEcosystem⟩
    acc ++ [if p.commit ≠ [] then { details with commit := p.commit } else details]

/-- `pkg/lockfile/parse-pylock.go:33-71` `ParsePylock`. -/
def parsePylock (decode : Str → Option (List PylockPackage)) (content : Option Str) : Parsed :=
  match content.bind decode with
  | none => ([], true)
  | some packages => (packages.foldl pylockStep [], false)

example : parseUvLock (fun _ => some [⟨g!"root", g!"0", g!".", []⟩, ⟨g!"a", g!"1", [], g!"https://h/a#abc"⟩]) (some []) =
    ([⟨g!"a", g!"1", g!"abc", g!"PyPI", g!"PyPI"⟩], false) := by decide

end Osv
