import Verif.Go.Str
import Verif.Go.Sort
import Verif.Go.Regex
/-!
# Advisories and version matching (`pkg/database/osv.go`, `internal/types.go`)

The version comparison itself (`semantic.MustParse(a, eco).CompareStr(b)` of osv-scalibr) is an external
dependency: it is a parameter `sem`, and theorems state the laws they need as hypotheses.  Its panics on
unsupported ecosystems or unparsable versions are modelled separately in `Verif.Model.OsvPanic`.
-/
namespace Osv
open Str

/-- `internal/types.go:11` `Ecosystem`. -/
abbrev Ecosystem := Str

/-- `internal/types.go:3-9` `PackageDetails`. -/
structure PackageDetails where
  name : Str
  version : Str := []
  commit : Str := []
  ecosystem : Ecosystem := []
  compareAs : Ecosystem := []
deriving DecidableEq, Repr

/-- External version comparison: `sem eco a b` is the integer returned by
`semantic.MustParse(a, eco).CompareStr(b)` (errors of `CompareStr` are ignored by the code). -/
abbrev Sem := Ecosystem → Str → Str → Int

/-- `lockfile.PipEcosystem`, `pkg/lockfile/parse-requirements-txt.go:13`. -/
def pipEcosystem : Ecosystem := g!"PyPI"

/-- `pkg/database/osv.go:29-32` `Package`. -/
structure Package where
  name : Str
  ecosystem : Ecosystem
deriving DecidableEq, Repr

/-- `pkg/database/osv.go:35-39` `NormalizedEcosystem`. -/
def Package.normalizedEcosystem (p : Package) : Ecosystem := (cut p.ecosystem g!":").1

/-- The regular expression `[-_.]+` of `pkg/database/osv.go:55`. -/
def reNameSeparators : Re := .plus (.cls fun c => c == '-' || c == '_' || c == '.')

/-- `pkg/database/osv.go:49-58` `NormalizedName`. -/
def Package.normalizedName (p : Package) : Str :=
  if p.normalizedEcosystem ≠ pipEcosystem then p.name
  else toLower (reNameSeparators.replaceAll g!"-" p.name)

/-- `pkg/database/osv.go:60-64` `RangeEvent`; absent JSON fields are empty strings. -/
structure RangeEvent where
  introduced : Str := []
  fixed : Str := []
  lastAffected : Str := []
deriving DecidableEq, Repr

/-- `pkg/database/osv.go:19-25` range types. -/
def typeSemver : Str := g!"SEMVER"
def typeEcosystem : Str := g!"ECOSYSTEM"

/-- `pkg/database/osv.go:66-69` `AffectsRange`. -/
structure AffectsRange where
  type : Str
  events : List RangeEvent
deriving DecidableEq, Repr

/-- `pkg/database/osv.go:71-85` `RangeEvent.version`. -/
def RangeEvent.version (e : RangeEvent) : Str :=
  if e.introduced ≠ [] then e.introduced
  else if e.fixed ≠ [] then e.fixed
  else if e.lastAffected ≠ [] then e.lastAffected
  else []

/-- `pkg/database/osv.go:98-114`: the `less` function given to `sort.Slice`. -/
def eventLess (cmp : Str → Str → Int) (a b : RangeEvent) : Bool :=
  if a.introduced = g!"0" then true
  else if b.introduced = g!"0" then false
  else decide (cmp a.version b.version < 0)

/-- `pkg/database/osv.go:117-130`: loop body over the sorted events. -/
def eventStep (cmp : Str → Str → Int) (v : Str) (affected : Bool) (e : RangeEvent) : Bool :=
  if affected then
    if e.fixed ≠ [] then decide (cmp v e.fixed < 0)
    else if e.lastAffected ≠ [] then decide (e.lastAffected = v) || decide (cmp v e.lastAffected ≤ 0)
    else affected
  else if e.introduced ≠ [] then decide (e.introduced = g!"0") || decide (cmp v e.introduced ≥ 0)
  else affected

/-- `pkg/database/osv.go:116-132`: the loop over the sorted events. -/
def eventsContain (cmp : Str → Str → Int) (v : Str) (es : List RangeEvent) : Bool :=
  es.foldl (eventStep cmp v) false

/-- The guard `ar.Type == TypeEcosystem || ar.Type == TypeSemver` (`osv.go:88`, `osv.go:141`). -/
def AffectsRange.versioned (r : AffectsRange) : Bool :=
  decide (r.type = typeEcosystem) || decide (r.type = typeSemver)

/-- `pkg/database/osv.go:87-133` `containsVersion`: the answer. The in-place sorting of `ar.Events` is
modelled in `Verif.Model.MemHeap`. -/
def AffectsRange.containsVersion (S : Sorter) (sem : Sem) (r : AffectsRange) (pkg : PackageDetails) : Bool :=
  if !r.versioned then false
  else if r.events.length = 0 then false
  else eventsContain (sem pkg.compareAs) pkg.version (S.sort (eventLess (sem pkg.compareAs)) r.events)

/-- `pkg/database/osv.go:139-150` `affectsVersion`. Note that the loop *returns false* at the first range of
another type. -/
def affectsVersion (S : Sorter) (sem : Sem) (pkg : PackageDetails) : List AffectsRange → Bool
  | [] => false
  | r :: rs =>
    if !r.versioned then false
    else if r.containsVersion S sem pkg then true
    else affectsVersion S sem pkg rs

/-- `pkg/database/osv.go:175-179` `Affected`. -/
structure Affected where
  package : Package
  versions : List Str := []
  ranges : List AffectsRange := []
deriving DecidableEq, Repr

/-- The zero `time.Time` as `MarshalJSON` prints it. -/
def zeroTime : Str := g!"0001-01-01T00:00:00Z"

/-- `pkg/database/osv.go:182-191` `OSV`. A time is the text that `MarshalJSON` prints for it. -/
structure OSV where
  id : Str
  aliases : List Str := []
  summary : Str := []
  published : Str := zeroTime
  modified : Str := zeroTime
  withdrawn : Option Str := none
  details : Str := []
  affected : List Affected := []
deriving DecidableEq, Repr

/-- The zero value. -/
instance : Inhabited OSV := ⟨{ id := [] }⟩

/-- `pkg/database/osv.go:193-201` `isAliasOf`. -/
def OSV.isAliasOf (o v : OSV) : Bool :=
  v.aliases.any fun a => decide (o.id = a) || o.aliases.contains a

/-- `pkg/database/osv.go:203-211` `AffectsEcosystem`. -/
def OSV.affectsEcosystem (o : OSV) (eco : Ecosystem) : Bool :=
  o.affected.any fun a => decide (a.package.ecosystem = eco)

/-- `pkg/database/osv.go:271-282` `areEcosystemsEqual`. -/
def areEcosystemsEqual (a b : Ecosystem) : Bool :=
  let ca := cut a g!":"
  let cb := cut b g!":"
  if ca.2 ≠ [] ∧ cb.2 ≠ [] then decide (ca.1 = cb.1) && decide (ca.2 = cb.2)
  else decide (ca.1 = cb.1)

/-- `pkg/database/osv.go:285-310`: the loop body of `IsAffected` for one affected entry. The warning
printed for entries with neither ranges nor versions is `entriesDiags` in `Verif.Model.MemHeap`. -/
def Affected.matchesPkg (S : Sorter) (sem : Sem) (a : Affected) (pkg : PackageDetails) : Bool :=
  areEcosystemsEqual a.package.ecosystem pkg.ecosystem && decide (a.package.normalizedName = pkg.name) &&
  !(decide (a.ranges.length = 0) && decide (a.versions.length = 0)) &&
  (a.versions.contains pkg.version || affectsVersion S sem pkg a.ranges || decide (pkg.version = []))

/-- `pkg/database/osv.go:284-313` `IsAffected`. -/
def OSV.isAffected (S : Sorter) (sem : Sem) (o : OSV) (pkg : PackageDetails) : Bool :=
  o.affected.any fun a => a.matchesPkg S sem pkg

/-- `pkg/database/vulnerabilities.go:22-37` `Includes`. -/
def includesVuln (vs : List OSV) (v : OSV) : Bool :=
  vs.any fun o => decide (o.id = v.id) || o.isAliasOf v || v.isAliasOf o

/-- `pkg/database/vulnerabilities.go:10-20` `Unique`. -/
def uniqueVulns (vs : List OSV) : List OSV :=
  vs.foldl (fun acc v => if includesVuln acc v then acc else acc ++ [v]) []

end Osv
