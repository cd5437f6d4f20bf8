import Verif.Model.Osv
import Verif.Go.Scanner
/-!
# gradle.lockfile (`pkg/lockfile/parse-gradle-lock.go`)

Parsers take the content of the file, `none` if it cannot be opened or read, and return the packages and whether there
is an error.
-/
namespace Osv
open Str

/-- What a lockfile parser returns. -/
abbrev Parsed := List PackageDetails × Bool

/-- `pkg/lockfile/parse-maven-lock.go` `MavenEcosystem`. -/
def mavenEcosystem : Ecosystem := g!"Maven"

/-- `pkg/lockfile/parse-gradle-lock.go:10-12` `isNotGradleDependencyLine`. -/
def isNotGradleLine (line : Str) : Bool := hasPrefix line g!"#" || hasPrefix line g!"empty="

/-- `pkg/lockfile/parse-gradle-lock.go:14-29` `parseGradleLine`; `none` is an error. -/
def parseGradleLine (line : Str) : Option PackageDetails :=
  match splitCharN ':' 3 line with
  | [group, artifact, version] =>
    some { name := group ++ g!":" ++ artifact, version := (cut version g!"=").1, ecosystem := mavenEcosystem,
           compareAs := mavenEcosystem }
  | _ => none

/-- `pkg/lockfile/parse-gradle-lock.go:42-57`: loop body. The message about a skipped line is in `Model/ParserDiags`. -/
def gradleStep (packages : List PackageDetails) (line : Str) : List PackageDetails :=
  let lockLine := trimSpace line
  if isNotGradleLine lockLine then packages
  else match parseGradleLine lockLine with
    | none => packages
    | some p => packages ++ [p]

/-- `pkg/lockfile/parse-gradle-lock.go:31-64` `ParseGradleLock`. -/
def parseGradleLock (content : Option Str) : Parsed :=
  match content with
  | none => ([], true)
  | some c =>
    let res := Scanner.scan c
    if res.2 then ([], true) else (res.1.foldl gradleStep [], false)

end Osv
