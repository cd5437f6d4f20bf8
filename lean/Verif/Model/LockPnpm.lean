import Verif.Model.LockYarn
import Verif.Model.LockNpm
/-!
# pnpm-lock.yaml (`pkg/lockfile/parse-pnpm-lock.go`)

The YAML decoder is a parameter.
-/
namespace Osv
open Str

/-- `pkg/lockfile/parse-pnpm-lock.go:23-27` `PnpmLockPackage` with its `16-21` `PnpmLockPackageResolution`, of which only the tarball and
the commit are read. -/
structure PnpmLockPackage where
  tarball : Str := []
  commit : Str := []
  name : Str := []
  version : Str := []
deriving DecidableEq, Repr

/-- `pkg/lockfile/parse-pnpm-lock.go:29-32` `PnpmLockfile`. Simplification: all that is ever asked about the version, a
`float64`, is whether it equals 9. -/
structure PnpmLockfile where
  isNine : Bool := false
  packages : SMap PnpmLockPackage := []

/-- `pkg/lockfile/parse-pnpm-lock.go:60-64` `startsWithNumber`. -/
def startsWithNumber (s : Str) : Bool := Re.isMatch (.cat [.bot, .cls isDigit]) s

/-- `[\w.-]` -/
def isPnpmVersionChar (c : Char) : Bool := isWord c || c == '.' || c == '-'

/-- `^(.+)@([\w.-]+)(?:\(|$)`, `pkg/lockfile/parse-pnpm-lock.go:131`. -/
def rePnpmNameAtVersion : Re :=
  .cat [.bot, .cap 1 (.plus .any), .ch '@', .cap 2 (.plus (.cls isPnpmVersionChar)), .alt (.ch '(') .eot]

/-- `pkg/lockfile/parse-pnpm-lock.go:129-138` `parseNameAtVersion`: without a match both results are empty, as `name` is the
named result. -/
def parseNameAtVersion (value : Str) : Str × Str :=
  match rePnpmNameAtVersion.find value with
  | none => ([], [])
  | some f => (f.group 1, f.group 2)

/-- `pkg/lockfile/parse-pnpm-lock.go:68-127` `extractPnpmPackageNameAndVersion`: `none` is the panic of line 101,
`some none` is `errInvalidPackagePath`. The capacity of the slice that `strings.Split` returns is its length. -/
def extractPnpm (isNine : Bool) (dependencyPath : Str) : Option (Option (Str × Str)) :=
  if hasPrefix dependencyPath g!"file:" then some (some ([], []))
  else if isNine then
    let p := cutPrefix (trimFunc (· == '\'') dependencyPath) g!"@"
    let nv := cut p.1 g!"@"
    some (some (if p.2 then g!"@" ++ nv.1 else nv.1, nv.2))
  else
    match splitChar '/' dependencyPath with
    | [] => some none
    | [_] => some none
    | _ :: p :: parts =>
      let np : Option (Str × List Str) :=
        if hasPrefix p g!"@" then match parts with
          | [] => none
          | q :: parts => some (p ++ g!"/" ++ q, parts)
        else some (p, parts)
      np.map fun np =>
        let version := np.2.headD []
        let nv := if version = [] then parseNameAtVersion np.1 else (np.1, version)
        if nv.2 = [] || !startsWithNumber nv.2 then some ([], [])
        else some (nv.1, (cut nv.2 g!"_").1)

/-- `pkg/lockfile/parse-pnpm-lock.go:166-175`: the commit. -/
def pnpmCommit (p : PnpmLockPackage) : Str :=
  if hasPrefix p.tarball g!"https://codeload.github.com" then
    match reCommitCodeload.find p.tarball with
    | some f => f.group 1
    | none => p.commit
  else p.commit

/-- `pkg/lockfile/parse-pnpm-lock.go:140-187` `parsePnpmLock`, over the packages in the order of iteration; `none` is a panic,
`some none` an error. -/
def pnpmLoop (isNine : Bool) : SMap PnpmLockPackage → Option (Option (List PackageDetails))
  | [] => some (some [])
  | (s, p) :: rest =>
    match extractPnpm isNine s with
    | none => none
    | some none => some none
    | some (some nv) =>
      let name := if p.name ≠ [] then p.name else nv.1
      let version := if p.version ≠ [] then p.version else nv.2
      if name = [] || version = [] then pnpmLoop isNine rest
      else (pnpmLoop isNine rest).map fun r => r.map fun ds => ⟨name, version, pnpmCommit p, npmEcosystem, npmEcosystem⟩ :: ds

/-- `pkg/lockfile/parse-pnpm-lock.go:189-216` `ParsePnpmLock`. `decode` gives `some none` for an empty file, for which the pointer
stays nil. -/
def parsePnpmLock (decode : Str → Option (Option PnpmLockfile)) (iter : SMap PnpmLockPackage → SMap PnpmLockPackage)
    (content : Option Str) : Option Parsed :=
  match content.bind decode with
  | none => some ([], true)
  | some l =>
    let l := l.getD {}
    (pnpmLoop l.isNine (iter l.packages)).map fun r => match r with
      | none => ([], true)
      | some ds => (ds, false)

example : extractPnpm false g!"/@babel/core/7.1.0_react@18.2.0" = some (some (g!"@babel/core", g!"7.1.0")) := by decide +kernel
example : extractPnpm false g!"/@babel/core@7.1.0(react@18.2.0)" = some (some (g!"@babel/core", g!"7.1.0")) := by decide +kernel
example : extractPnpm true g!"@babel/core@7.1.0" = some (some (g!"@babel/core", g!"7.1.0")) := by decide +kernel
example : extractPnpm false g!"/@babel" = none := by decide +kernel

end Osv
