import Verif.Go.Toml
import Verif.Model.LockToml
/-!
# Lockfiles in TOML, from values to structs

`pkg/lockfile/parse-cargo-lock.go`, `parse-poetry-lock.go`, `parse-pdm-lock.go`, `parse-uv-lock.go` and `parse-pylock.go`.
-/
namespace Osv
open Str

/-- Reading of TOML text: `none` is a syntax error. -/
abbrev TomlReader := Str → Option TNode

/-- `pkg/lockfile/parse-cargo-lock.go:10-13` `CargoLockPackage`. -/
def tomlCargoPackage (n : TNode) : Option CargoPackage := do
  let es ← Toml.fields n
  let name ← Toml.get Toml.text [] es g!"name"
  let version ← Toml.get Toml.text [] es g!"version"
  some ⟨name, version⟩

/-- `pkg/lockfile/parse-cargo-lock.go:15-18` `CargoLockFile`. -/
def tomlCargo (n : TNode) : Option (List CargoPackage) := do
  let es ← Toml.fields n
  let _ ← Toml.get Toml.int () es g!"version"
  Toml.get (Toml.listOf tomlCargoPackage) [] es g!"package"

/-- `toml.Unmarshal` in `pkg/lockfile/parse-cargo-lock.go:31`. -/
def cargoDecode (toml : TomlReader) (content : Str) : Option (List CargoPackage) := (toml content).bind tomlCargo

/-- `pkg/lockfile/parse-poetry-lock.go:10-13` `PoetryLockPackageSource`: the commit. -/
def tomlPoetrySource (n : TNode) : Option Str := do
  let es ← Toml.fields n
  let _ ← Toml.get Toml.text [] es g!"type"
  Toml.get Toml.text [] es g!"resolved_reference"

/-- `pkg/lockfile/parse-poetry-lock.go:15-19` `PoetryLockPackage`. -/
def tomlPoetryPackage (n : TNode) : Option PoetryPackage := do
  let es ← Toml.fields n
  let name ← Toml.get Toml.text [] es g!"name"
  let version ← Toml.get Toml.text [] es g!"version"
  let commit ← Toml.get tomlPoetrySource [] es g!"source"
  some ⟨name, version, commit⟩

/-- `pkg/lockfile/parse-poetry-lock.go:21-24` `PoetryLockFile`. -/
def tomlPoetry (n : TNode) : Option (List PoetryPackage) := do
  let es ← Toml.fields n
  let _ ← Toml.get Toml.int () es g!"version"
  Toml.get (Toml.listOf tomlPoetryPackage) [] es g!"package"

/-- `toml.Unmarshal` in `pkg/lockfile/parse-poetry-lock.go:37`. -/
def poetryDecode (toml : TomlReader) (content : Str) : Option (List PoetryPackage) := (toml content).bind tomlPoetry

/-- `pkg/lockfile/parse-pdm-lock.go:10-15` `PdmLockPackage`. -/
def tomlPdmPackage (n : TNode) : Option PdmPackage := do
  let es ← Toml.fields n
  let name ← Toml.get Toml.text [] es g!"name"
  let version ← Toml.get Toml.text [] es g!"version"
  let _ ← Toml.get (Toml.listOf Toml.text) [] es g!"groups"
  let revision ← Toml.get Toml.text [] es g!"revision"
  some ⟨name, version, revision⟩

/-- `pkg/lockfile/parse-pdm-lock.go:17-20` `PdmLockFile`. -/
def tomlPdm (n : TNode) : Option (List PdmPackage) := do
  let es ← Toml.fields n
  let _ ← Toml.get Toml.text [] es g!"lock-version"
  Toml.get (Toml.listOf tomlPdmPackage) [] es g!"package"

/-- `toml.Unmarshal` in `pkg/lockfile/parse-pdm-lock.go:33`. -/
def pdmDecode (toml : TomlReader) (content : Str) : Option (List PdmPackage) := (toml content).bind tomlPdm

/-- `pkg/lockfile/parse-uv-lock.go:11-14` `UvLockPackageSource`: virtual and git. -/
def tomlUvSource (n : TNode) : Option (Str × Str) := do
  let es ← Toml.fields n
  let virtual ← Toml.get Toml.text [] es g!"virtual"
  let git ← Toml.get Toml.text [] es g!"git"
  some (virtual, git)

/-- `pkg/lockfile/parse-uv-lock.go:16-25` `UvLockPackage`. Simplification: the optional dependencies are never read, and which of their
shapes are an error is the parameter `optional`. -/
def tomlUvPackage (optional : TNode → Option Unit) (n : TNode) : Option UvPackage := do
  let es ← Toml.fields n
  let name ← Toml.get Toml.text [] es g!"name"
  let version ← Toml.get Toml.text [] es g!"version"
  let source ← Toml.get tomlUvSource ([], []) es g!"source"
  let _ ← Toml.get optional () es g!"optional-dependencies"
  some ⟨name, version, source.1, source.2⟩

/-- `pkg/lockfile/parse-uv-lock.go:30-33` `UvLockFile`. -/
def tomlUv (optional : TNode → Option Unit) (n : TNode) : Option (List UvPackage) := do
  let es ← Toml.fields n
  let _ ← Toml.get Toml.int () es g!"version"
  Toml.get (Toml.listOf (tomlUvPackage optional)) [] es g!"package"

/-- `toml.Unmarshal` in `pkg/lockfile/parse-uv-lock.go:46`. -/
def uvDecode (optional : TNode → Option Unit) (toml : TomlReader) (content : Str) : Option (List UvPackage) :=
  (toml content).bind (tomlUv optional)

/-- `pkg/lockfile/parse-pylock.go:10-13` `pylockVCS`: the commit. -/
def tomlPylockVCS (n : TNode) : Option Str := do
  let es ← Toml.fields n
  let _ ← Toml.get Toml.text [] es g!"type"
  Toml.get Toml.text [] es g!"commit-id"

/-- `pkg/lockfile/parse-pylock.go:15-17` `pylockDirectory`. -/
def tomlPylockDirectory (n : TNode) : Option Str := do
  let es ← Toml.fields n
  Toml.get Toml.text [] es g!"path"

/-- `pkg/lockfile/parse-pylock.go:19-24` `PylockPackage`. -/
def tomlPylockPackage (n : TNode) : Option PylockPackage := do
  let es ← Toml.fields n
  let name ← Toml.get Toml.text [] es g!"name"
  let version ← Toml.get Toml.text [] es g!"version"
  let commit ← Toml.get tomlPylockVCS [] es g!"vcs"
  let path ← Toml.get tomlPylockDirectory [] es g!"directory"
  some ⟨name, version, commit, path⟩

/-- `pkg/lockfile/parse-pylock.go:26-29` `PylockLockfile`. -/
def tomlPylock (n : TNode) : Option (List PylockPackage) := do
  let es ← Toml.fields n
  let _ ← Toml.get Toml.text [] es g!"lock-version"
  Toml.get (Toml.listOf tomlPylockPackage) [] es g!"packages"

/-- `toml.Unmarshal` in `pkg/lockfile/parse-pylock.go:42`. -/
def pylockDecode (toml : TomlReader) (content : Str) : Option (List PylockPackage) := (toml content).bind tomlPylock

end Osv
