import Verif.Go.Str
/-!
# Versions of Go modules (`golang.org/x/mod/semver`, `golang.org/x/mod/module`)

The library is not part of the repository. The model follows version v0.30.0, which `go.mod` names.
-/
namespace Osv.Semver
open Str

/-- `parseInt` of `semver.go`: a decimal number without a leading zero, and what follows. -/
def int (v : Str) : Option (Str × Str) :=
  let t := v.takeWhile isDigit
  if t = [] then none
  else if hasPrefix t g!"0" && decide (t.length ≠ 1) then none
  else some (t, v.dropWhile isDigit)

/-- `isIdentChar` of `semver.go`. -/
def isIdentChar (c : Char) : Bool := ('A' ≤ c && c ≤ 'Z') || ('a' ≤ c && c ≤ 'z') || isDigit c || c == '-'

/-- `isBadNum` of `semver.go`: a number with a leading zero. -/
def isBadNum (v : Str) : Bool := v.all isDigit && decide (v.length > 1) && hasPrefix v g!"0"

/-- The loops of `parsePrerelease` and `parseBuild`: identifiers separated by dots, up to the end or to `stop`. `cur` is
the identifier that is being read, reversed; `bad` tells which identifiers are refused besides the empty one. -/
def idents (stop : Char → Bool) (bad : Str → Bool) (cur : Str) : Str → Option Str
  | [] => if cur = [] || bad cur.reverse then none else some []
  | c :: rest =>
    if stop c then (if cur = [] || bad cur.reverse then none else some (c :: rest))
    else if c == '.' then (if cur = [] || bad cur.reverse then none else idents stop bad [] rest)
    else if isIdentChar c then idents stop bad (c :: cur) rest
    else none

/-- `parsed` of `semver.go`, as far as it is used. -/
structure Parts where
  major : Str
  short : Str := []
  prerelease : Str := []
  build : Str := []
deriving DecidableEq, Repr

/-- `parse` of `semver.go`: what follows the prerelease, if there is one. -/
def afterPre (v : Str) : Option Str :=
  match v with
  | '-' :: r => idents (· == '+') isBadNum [] r
  | _ => some v

/-- `parse` of `semver.go`: what follows the build, if there is one. -/
def afterBuild (v : Str) : Option Str :=
  match v with
  | '+' :: r => idents (fun _ => false) (fun _ => false) [] r
  | _ => some v

/-- `parse` of `semver.go` from the prerelease on. -/
def tail (major v : Str) : Option Parts :=
  match afterPre v with
  | none => none
  | some rest => match afterBuild rest with
    | none => none
    | some last =>
      if last ≠ [] then none
      else some { major := major, prerelease := v.take (v.length - rest.length), build := rest }

/-- `parse` of `semver.go`. -/
def parse (v : Str) : Option Parts :=
  match v with
  | 'v' :: v => do
    let (major, v) ← int v
    match v with
    | [] => some { major := major, short := g!".0.0" }
    | '.' :: v =>
      let (_, v) ← int v
      match v with
      | [] => some { major := major, short := g!".0" }
      | '.' :: v =>
        let (_, v) ← int v
        tail major v
      | _ => none
    | _ => none
  | _ => none

/-- `semver.Canonical`; empty for what is not a version. -/
def canonical (v : Str) : Str :=
  match parse v with
  | none => []
  | some p => if p.build ≠ [] then v.take (v.length - p.build.length) else if p.short ≠ [] then v ++ p.short else v

/-- `semver.Major` -/
def major (v : Str) : Str :=
  match parse v with
  | none => []
  | some p => 'v' :: p.major

/-- `semver.Build` -/
def build (v : Str) : Str :=
  match parse v with
  | none => []
  | some p => p.build

/-- `module.CanonicalVersion` -/
def moduleVersion (v : Str) : Str :=
  if build v = g!"+incompatible" then canonical v ++ g!"+incompatible" else canonical v

/-- `splitGopkgIn` of `module.go`: the major part of the path `p ++ mark` on gopkg.in; `none` if the path is not valid. -/
def gopkgTail (p mark : Str) : Option Str :=
  match p.reverse.dropWhile isDigit with
  | 'v' :: '.' :: _ =>
    let m := g!".v" ++ (p.reverse.takeWhile isDigit).reverse ++ mark
    if m.length ≤ 2 then none
    else if hasPrefix (m.drop 2) g!"0" && decide (m ≠ g!".v0") then none
    else some m
  | _ => none

/-- `splitGopkgIn` of `module.go`, from the mark of unstable versions on. -/
def gopkgMajor (path : Str) : Option Str :=
  if hasSuffix path g!"-unstable" then gopkgTail (path.take (path.length - 9)) g!"-unstable" else gopkgTail path []

/-- `module.SplitPathVersion`: the major part of a path, empty if it has none; `none` if the path is not valid. -/
def pathMajor (path : Str) : Option Str :=
  if hasPrefix path g!"gopkg.in/" then gopkgMajor path
  else
    let isTail : Char → Bool := fun c => isDigit c || c == '.'
    let digits := (path.reverse.takeWhile isTail).reverse
    match path.reverse.dropWhile isTail with
    | 'v' :: '/' :: _ =>
      if digits = [] then some []
      else if contains digits g!"." || hasPrefix digits g!"0" || decide (digits = g!"1") then none
      else some (g!"/v" ++ digits)
    | _ => some []

/-- `module.CheckPathMajor`: whether the version belongs to the major part. -/
def checkPathMajor (v pm : Str) : Bool :=
  let pm := if hasPrefix pm g!".v" && hasSuffix pm g!"-unstable" then trimSuffix pm g!"-unstable" else pm
  if hasPrefix v g!"v0.0.0-" && decide (pm = g!".v1") then true
  else if pm = [] then major v = g!"v0" || major v = g!"v1" || build v = g!"+incompatible"
  else major v = pm.drop 1

example : moduleVersion g!"v1.2" = g!"v1.2.0" := by decide +kernel
example : moduleVersion g!"v1.2.3-rc.1+x.y" = g!"v1.2.3-rc.1" := by decide +kernel
example : moduleVersion g!"v2.0.0+incompatible" = g!"v2.0.0+incompatible" := by decide +kernel
example : moduleVersion g!"v1.2.3-01" = [] := by decide +kernel
example : pathMajor g!"gopkg.in/yaml.v3" = some g!".v3" := by decide +kernel
example : pathMajor g!"example.com/a/v2" = some g!"/v2" := by decide +kernel
example : pathMajor g!"example.com/a/v1" = none := by decide +kernel

end Osv.Semver
