import Verif.Go.Regex
import Verif.Model.LockGradle
import Verif.Model.MemDB
/-!
# pom.xml (`pkg/lockfile/parse-maven-lock.go`)

The decoder of `encoding/xml`, with `MavenLockProperties.UnmarshalXML` (lines 73-99) that collects the properties in a map, is a
parameter. A successful `xml.Unmarshal` never leaves the pointer nil.
-/
namespace Osv
open Str

/-- `pkg/lockfile/parse-maven-lock.go:11-16` `MavenLockDependency`. -/
structure MavenLockDependency where
  groupID : Str
  artifactID : Str
  version : Str
deriving DecidableEq, Repr

/-- `pkg/lockfile/parse-maven-lock.go:59-65` `MavenLockFile`. -/
structure MavenLockFile where
  properties : SMap Str
  dependencies : List MavenLockDependency
  managedDependencies : List MavenLockDependency
deriving DecidableEq, Repr

/-- `[[(]?(.*?)(?:,|[)\]]|$)` (line 19) -/
def mavenRequirementRe : Re := Re.cat [Re.opt (Re.cls fun c => c == '[' || c == '('), Re.cap 1 (Re.star false Re.any),
  Re.alt (Re.ch ',') (Re.alt (Re.cls fun c => c == ')' || c == ']') Re.eot)]

/-- `pkg/lockfile/parse-maven-lock.go:18-28` `parseResolvedVersion`. -/
def mavenParseResolvedVersion (version : Str) : Str :=
  match Re.find mavenRequirementRe version with
  | none => g!"0"
  | some f => if f.group 1 = [] then g!"0" else f.group 1

/-- `\${(.+)}` (line 31) -/
def mavenInterpolationRe : Re := Re.cat [Re.lit g!"${", Re.cap 1 (Re.plus Re.any), Re.ch '}']

/-- `pkg/lockfile/parse-maven-lock.go:30-51` `resolveVersionValue`. The message on stderr is in `Model/ParserDiags`. -/
def mavenResolveVersionValue (properties : SMap Str) (version : Str) : Str :=
  match Re.find mavenInterpolationRe version with
  | none => version
  | some f => match properties.get? (f.group 1) with
    | some val => val
    | none => g!"0"

/-- `pkg/lockfile/parse-maven-lock.go:53-57` `ResolveVersion`. -/
def mavenResolveVersion (properties : SMap Str) (version : Str) : Str :=
  mavenParseResolvedVersion (mavenResolveVersionValue properties version)

/-- `pkg/lockfile/parse-maven-lock.go:118-127` and `130-139`: one loop, from the map `details`. -/
def mavenLoop (properties : SMap Str) (details : SMap PackageDetails) : List MavenLockDependency → SMap PackageDetails
  | [] => details
  | d :: rest =>
    let finalName := d.groupID ++ g!":" ++ d.artifactID
    mavenLoop properties (details.set finalName ⟨finalName, mavenResolveVersion properties d.version, [], mavenEcosystem, mavenEcosystem⟩) rest

/-- `pkg/lockfile/parse-maven-lock.go:101-142` `ParseMavenLock`. `order` is the order of `pkgDetailsMapToSlice`. -/
def parseMavenLock (decode : Str → Option MavenLockFile) (order : List PackageDetails → List PackageDetails) (content : Option Str) :
    Parsed :=
  match content.bind decode with
  | none => ([], true)
  | some f => (order ((mavenLoop f.properties (mavenLoop f.properties [] f.managedDependencies) f.dependencies).map (·.2)), false)

example : mavenResolveVersion [(g!"x", g!"[1.0,2.0)")] g!"${x}" = g!"1.0" := by decide +kernel
example : mavenResolveVersion [] g!"(,2.0]" = g!"0" := by decide +kernel

end Osv
