import Verif.Model.Osv
/-!
# Reports (`internal/reporter/report.go`, `pkg/lockfile/parse.go:91-121`)

Colouring (`fatih/color`) is a parameter `paint` of the text functions.
-/
namespace Osv
open Str

/-- `pkg/lockfile/parse.go:91-95` `Lockfile`. -/
structure Lockfile where
  filePath : Str := []
  parsedAs : Str := []
  packages : List PackageDetails := []
deriving DecidableEq, Repr

/-- `internal/reporter/report.go:13-18` `PackageDetailsWithVulnerabilities`. -/
structure PkgReport where
  pkg : PackageDetails
  vulnerabilities : List OSV
  ignored : List OSV
deriving DecidableEq, Repr

/-- `internal/reporter/report.go:20-25` `Report`. -/
structure Report where
  lockfile : Lockfile
  packages : List PkgReport
deriving DecidableEq, Repr

/-- `internal/reporter/report.go:31-39` `countKnownVulnerabilities`. -/
def Report.countKnown (r : Report) : Nat := r.packages.foldl (fun n p => n + p.vulnerabilities.length) 0

/-- `internal/reporter/report.go:27-29` `HasKnownVulnerabilities`. -/
def Report.hasKnown (r : Report) : Bool := decide (r.countKnown > 0)

/-- `internal/reporter/report.go:45-53` `countIgnoredVulnerabilities`. -/
def Report.countIgnored (r : Report) : Nat := r.packages.foldl (fun n p => n + p.ignored.length) 0

/-- `internal/reporter/report.go:41-43` `HasIgnoredVulnerabilities`. -/
def Report.hasIgnored (r : Report) : Bool := decide (r.countIgnored > 0)

/-- `%d` of a count. -/
def showNat (n : Nat) : Str := (Nat.repr n).toList

/-- Colours used in the output. -/
inductive Color where
  | red | green | yellow | cyan | magenta | hiCyan
deriving DecidableEq, Repr

/-- `internal/reporter/report.go:81-87` `Form`. -/
def form (n : Nat) (singular plural : Str) : Str := if n = 1 then singular else plural

/-- `internal/reporter/report.go:58-76`: the lines of one package. `describe` is `OSV.Describe`. -/
def PkgReport.lines (paint : Color → Str → Str) (describe : OSV → Str) (p : PkgReport) : List Str :=
  if p.vulnerabilities.length = 0 then []
  else (g!"  " ++ paint .yellow (p.pkg.name ++ g!"@" ++ p.pkg.version) ++ g!" " ++
      paint .red g!"is affected by the following vulnerabilities:") ::
    p.vulnerabilities.map fun v => g!"    " ++ paint .cyan (v.id ++ g!":") ++ g!" " ++ describe v

/-- `internal/reporter/report.go:55-79` `formatLineByLine`. -/
def Report.formatLineByLine (paint : Color → Str → Str) (describe : OSV → Str) (r : Report) : Str :=
  join g!"\n" (r.packages.foldl (fun ls p => ls ++ p.lines paint describe) [])

/-- `internal/reporter/report.go:89-101` `describeIgnores`. -/
def Report.describeIgnores (paint : Color → Str → Str) (r : Report) : Str :=
  let count := r.countIgnored
  if count = 0 then []
  else paint .yellow (g!" (" ++ showNat count ++ g!" " ++ form count g!"was" g!"were" ++ g!" ignored)")

/-- `internal/reporter/report.go:103-135` `String`. -/
def Report.text (paint : Color → Str → Str) (describe : OSV → Str) (r : Report) : Str :=
  let count := r.countKnown
  let ignoreMsg := r.describeIgnores paint
  let word := if ignoreMsg ≠ [] then g!"new" else g!"known"
  if count = 0 then g!"  " ++ paint .green (g!"no " ++ word ++ g!" vulnerabilities found") ++ ignoreMsg ++ g!"\n"
  else r.formatLineByLine paint describe ++ g!"\n" ++ (g!"\n  " ++
    paint .red (showNat count ++ g!" " ++ word ++ g!" " ++ form count g!"vulnerability" g!"vulnerabilities" ++
      g!" found in " ++ r.lockfile.filePath) ++ ignoreMsg ++ g!"\n")

/-- `pkg/lockfile/parse.go:100-118`: line of one package. -/
def pkgLine (p : PackageDetails) : Str :=
  let eco := if p.ecosystem = [] then g!"<unknown>" else p.ecosystem
  let ln := g!"  " ++ eco ++ g!": " ++ p.name
  let ln := if p.version ≠ [] then ln ++ g!"@" ++ p.version else ln
  if p.commit ≠ [] then ln ++ g!" (" ++ p.commit ++ g!")" else ln

/-- `pkg/lockfile/parse.go:97-121` `Lockfile.String`. -/
def Lockfile.text (l : Lockfile) : Str := join g!"\n" (l.packages.foldl (fun ls p => ls ++ [pkgLine p]) [])

end Osv
