import Verif.Model.Main
import Verif.Model.OsvJson
/-!
# Results as JSON (`internal/reporter/reporter.go:75-87`, `internal/reporter/report.go:13-25`)
-/
namespace Osv
open Str Json

/-- `internal/types.go:3-9`: the fields of `PackageDetails` as JSON. -/
def pkgMembers (p : PackageDetails) : List (Str × JVal) :=
  [textAs g!"name" p.name, textAs g!"version" p.version] ++ textIf g!"commit" p.commit ++
    textIf g!"ecosystem" p.ecosystem ++ textIf g!"compareAs" p.compareAs

/-- `internal/reporter/report.go:13-18` `PackageDetailsWithVulnerabilities` as JSON: the fields of the embedded struct come
first. -/
def EncPkgReport (p : PkgReport) (v : JVal) : Prop :=
  ∃ vs is, EncVulns p.vulnerabilities vs ∧ EncVulns p.ignored is ∧
    v = jobj (pkgMembers p.pkg ++ [(g!"vulnerabilities", vs), (g!"ignored", is)])

/-- `internal/reporter/report.go:20-25` `Report` as JSON: `packages` hides that of the embedded `Lockfile`. -/
def EncReport (r : Report) (v : JVal) : Prop :=
  ∃ ps pv, Each EncPkgReport r.packages ps ∧ Slice ps pv ∧
    v = jobj [textAs g!"filePath" r.lockfile.filePath, textAs g!"parsedAs" r.lockfile.parsedAs, (g!"packages", pv)]

/-- `pkg/lockfile/parse.go:91-95` `Lockfile` as JSON. -/
def EncLockfile (l : Lockfile) (v : JVal) : Prop :=
  ∃ pv, Slice (l.packages.map fun p => jobj (pkgMembers p)) pv ∧
    v = jobj [textAs g!"filePath" l.filePath, textAs g!"parsedAs" l.parsedAs, (g!"packages", pv)]

/-- A result as JSON. -/
def EncResult (r : Result) (v : JVal) : Prop :=
  match r with
  | .lockfile l => EncLockfile l v
  | .report r => EncReport r v

/-- `internal/reporter/reporter.go:75-87` `PrintJSONResults`: a text that may be printed for the results. The slice of results
is never nil (`internal/reporter/reporter.go:28`). -/
def PrintedJSON (rs : List Result) (text : Str) : Prop :=
  ∃ vs, Each EncResult rs vs ∧ text = render (jobj [(g!"results", jarr vs)])

end Osv
