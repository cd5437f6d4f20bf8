import Verif.Go.Yaml
import Verif.Model.LockPnpm
import Verif.Model.LockPubspec
import Verif.Model.Config
/-!
# Files in YAML, from nodes to structs

`pkg/lockfile/parse-pnpm-lock.go`, `pkg/lockfile/parse-pubspec-lock.go`, `internal/configer/load.go`.
-/
namespace Osv
open Str

/-- Reading of YAML text: `none` is a syntax error and `some none` an empty document. -/
abbrev YamlReader := Str → Option (Option YNode)

/-- `pkg/lockfile/parse-pnpm-lock.go:16-21` `PnpmLockPackageResolution`: tarball and commit. -/
def yamlResolution (n : YNode) : Option (Str × Str) := do
  let fs ← Yaml.fields n
  let tarball ← Yaml.text (Yaml.at_ fs g!"tarball")
  let commit ← Yaml.text (Yaml.at_ fs g!"commit")
  let _ ← Yaml.text (Yaml.at_ fs g!"repo")
  let _ ← Yaml.text (Yaml.at_ fs g!"type")
  some (tarball, commit)

/-- `pkg/lockfile/parse-pnpm-lock.go:23-27` `PnpmLockPackage`. -/
def yamlPnpmPackage (n : YNode) : Option PnpmLockPackage := do
  let fs ← Yaml.fields n
  let resolution ← yamlResolution (Yaml.at_ fs g!"resolution")
  let name ← Yaml.text (Yaml.at_ fs g!"name")
  let version ← Yaml.text (Yaml.at_ fs g!"version")
  some ⟨resolution.1, resolution.2, name, version⟩

/-- `pkg/lockfile/parse-pnpm-lock.go:39-56` `UnmarshalYAML`. `nine` is `strconv.ParseFloat` with the question whether the number is 9;
`none` if the text is not a number. -/
def yamlPnpm (nine : Str → Option Bool) (n : YNode) : Option PnpmLockfile := do
  let fs ← Yaml.fields n
  let version ← Yaml.text (Yaml.at_ fs g!"lockfileVersion")
  let packages ← Yaml.mapOf yamlPnpmPackage (Yaml.at_ fs g!"packages")
  let isNine ← nine version
  some ⟨isNine, packages⟩

/-- `yaml.Unmarshal` in `pkg/lockfile/parse-pnpm-lock.go:198`: the pointer stays nil for an empty document and for null, for which
`UnmarshalYAML` is not called. -/
def pnpmDecode (nine : Str → Option Bool) (yaml : YamlReader) (content : Str) : Option (Option PnpmLockfile) :=
  match yaml content with
  | none => none
  | some none => some none
  | some (some (.scalar _ true)) => some none
  | some (some n) => (yamlPnpm nine n).map some

/-- `pkg/lockfile/parse-pubspec-lock.go:18-25`: a description as a struct. -/
def yamlDescription (n : YNode) : Option PubspecDescription := do
  let fs ← Yaml.fields n
  let name ← Yaml.text (Yaml.at_ fs g!"name")
  let url ← Yaml.text (Yaml.at_ fs g!"url")
  let path ← Yaml.text (Yaml.at_ fs g!"path")
  let ref ← Yaml.text (Yaml.at_ fs g!"resolved-ref")
  some ⟨name, url, path, ref⟩

/-- A description as a `*string`. -/
def yamlPointer : YNode → Option (Option Str)
  | .scalar _ true => some none
  | .scalar v false => some (some v)
  | _ => none

/-- What `UnmarshalYAML` (`pkg/lockfile/parse-pubspec-lock.go:17-47`) has to decode. It is not called for null (`prepare` in the
library). -/
def yamlDescribed : YNode → Option PubspecNode
  | .scalar _ true => none
  | n => some ⟨yamlDescription n, yamlPointer n⟩

/-- `pkg/lockfile/parse-pubspec-lock.go:49-53` `PubspecLockPackage`. -/
def yamlPubspecPackage (n : YNode) : Option PubspecPackage := do
  let fs ← Yaml.fields n
  let _ ← Yaml.text (Yaml.at_ fs g!"source")
  let version ← Yaml.text (Yaml.at_ fs g!"version")
  some ⟨version, yamlDescribed (Yaml.at_ fs g!"description")⟩

/-- `pkg/lockfile/parse-pubspec-lock.go:55-58` `PubspecLockfile`. -/
def yamlPubspec (n : YNode) : Option (SMap PubspecPackage) := do
  let fs ← Yaml.fields n
  let packages ← Yaml.mapOf yamlPubspecPackage (Yaml.at_ fs g!"packages")
  let _ ← Yaml.mapOf Yaml.text (Yaml.at_ fs g!"sdks")
  some packages

/-- `yaml.Unmarshal` in `pkg/lockfile/parse-pubspec-lock.go:71`. -/
def pubspecDecode (yaml : YamlReader) (content : Str) : Option (Option (SMap PubspecPackage)) :=
  match yaml content with
  | none => none
  | some none => some none
  | some (some (.scalar _ true)) => some none
  | some (some n) => (yamlPubspec n).map some

/-- `internal/configer/load.go:16-21` `rawDatabaseConfig`. -/
def yamlRawDB (n : YNode) : Option RawDB := do
  let fs ← Yaml.fields n
  let url ← Yaml.text (Yaml.at_ fs g!"url")
  let name ← Yaml.text (Yaml.at_ fs g!"name")
  let type ← Yaml.text (Yaml.at_ fs g!"type")
  let dir ← Yaml.text (Yaml.at_ fs g!"working-directory")
  some ⟨url, name, type, dir⟩

/-- `internal/configer/load.go:23-27` `rawConfig`. -/
def yamlConfig (n : YNode) : Option RawConfig := do
  let fs ← Yaml.fields n
  let ignore ← Yaml.listOf Yaml.text (Yaml.at_ fs g!"ignore")
  let databases ← Yaml.listOf yamlRawDB (Yaml.at_ fs g!"extra-databases")
  some ⟨ignore, databases⟩

/-- `yaml.Unmarshal` in `internal/configer/load.go:146`. -/
def configDecode (yaml : YamlReader) (content : Str) : Option RawConfig :=
  match yaml content with
  | none => none
  | some none => some {}
  | some (some n) => yamlConfig n

/-- What `load` (`internal/configer/load.go:133-153`) finds at a path, given the files; `none`: missing, `some none`: not readable. -/
def configFiles (yaml : YamlReader) (file : Str → Option (Option Str)) (path : Str) : ConfigFile :=
  match file path with
  | none => .missing
  | some none => .unreadable
  | some (some c) => match configDecode yaml c with
    | none => .malformed
    | some raw => .ok raw

end Osv
