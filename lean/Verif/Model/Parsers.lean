import Verif.Model.Csv
import Verif.Model.LockBun
import Verif.Model.LockComposer
import Verif.Model.LockGemfile
import Verif.Model.LockGoMod
import Verif.Model.LockMaven
import Verif.Model.LockMix
import Verif.Model.LockNuGet
import Verif.Model.LockPipenv
import Verif.Model.LockPnpm
import Verif.Model.LockPubspec
import Verif.Model.LockRenv
import Verif.Model.LockToml
import Verif.Model.PomXml
import Verif.Model.TomlFiles
import Verif.Model.YamlFiles
import Verif.Go.Jsonc
/-!
# The table of parsers (`pkg/lockfile/parse.go`)

Everything the parsers get from outside is collected in `ParserEnv`.
-/
namespace Osv
open Str

/-- Files, what is left of the third-party decoders, and the iteration orders of Go maps. -/
structure ParserEnv where
  /-- content of the readable files -/
  file : Str → Option Str
  isFloat : Str → Bool
  /-- text to tree of TOML -/
  toml : TomlReader
  /-- the optional dependencies of uv.lock, which are decoded and not used -/
  uvOptional : TNode → Option Unit
  /-- text to tree of YAML -/
  yaml : YamlReader
  /-- whether the version of a pnpm-lock.yaml is at least 9, `none` if it is no number -/
  pnpmNine : Str → Option Bool
  gomod : Str → Option GoModFile
  iterBun : SMap (List JVal) → SMap (List JVal)
  iterGo : SMap PackageDetails → SMap PackageDetails
  iterNpmDeps : NpmDeps → NpmDeps
  iterNpm : SMap NpmPackage → SMap NpmPackage
  iterStr : SMap Str → SMap Str
  iterNuGet : SMap (Option (SMap Str)) → SMap (Option (SMap Str))
  iterPnpm : SMap PnpmLockPackage → SMap PnpmLockPackage
  iterPubspec : SMap (Str × PubspecDescription) → SMap (Str × PubspecDescription)
  iterRenv : SMap RenvPackage → SMap RenvPackage
  /-- order of `pkgDetailsMapToSlice` -/
  order : List PackageDetails → List PackageDetails
  /-- the same for `requirements.txt`, where it is called once per file -/
  reqOrder : Str → List Str → List PackageDetails → List PackageDetails
  /-- bound for the nesting of `requirements.txt` files; C40 says that a large enough one exists -/
  reqDepth : Nat

/-- The error of `ParseRequirementsTxt` as a flag. -/
def reqParsed : Option (List PackageDetails) → Parsed
  | none => ([], true)
  | some ps => (ps, false)

/-- `pkg/lockfile/parse.go:21-43` `parsers`, applied to a path; `none` is a panic (or a `reqDepth` that is too small), and an
unknown name is an error (`pkg/lockfile/parse.go:131-135`). -/
def parseFile (P : ParserEnv) (parser path : Str) : Option Parsed :=
  let c := P.file path
  if parser = g!"bun.lock" then parseBunLock Jsonc.toJSON P.isFloat P.iterBun c
  else if parser = g!"Cargo.lock" then some (parseCargoLock (cargoDecode P.toml) c)
  else if parser = g!"composer.lock" then parseComposerLock c
  else if parser = g!"Gemfile.lock" then some (parseGemfileLock c)
  else if parser = g!"go.mod" then some (parseGoLock P.gomod P.iterGo P.order c)
  else if parser = g!"mix.lock" then some (parseMixLock c)
  else if parser = g!"package-lock.json" then parseNpmLock P.iterNpmDeps P.iterNpm P.order c
  else if parser = g!"packages.lock.json" then parseNuGetLock P.iterStr P.iterNuGet P.order c
  else if parser = g!"pdm.lock" then some (parsePdmLock (pdmDecode P.toml) c)
  else if parser = g!"pnpm-lock.yaml" then parsePnpmLock (pnpmDecode P.pnpmNine P.yaml) P.iterPnpm c
  else if parser = g!"poetry.lock" then some (parsePoetryLock (poetryDecode P.toml) c)
  else if parser = g!"pylock.toml" then some (parsePylock (pylockDecode P.toml) c)
  else if parser = g!"Pipfile.lock" then parsePipenvLock P.iterStr P.order c
  else if parser = g!"pom.xml" then some (parseMavenLock pomDecode P.order c)
  else if parser = g!"pubspec.lock" then parsePubspecLock (pubspecDecode P.yaml) P.iterPubspec c
  else if parser = g!"renv.lock" then parseRenvLock P.iterRenv c
  else if parser = g!"requirements.txt" then (parseRequirementsTxt P.file P.reqOrder P.reqDepth path).map reqParsed
  else if parser = g!"yarn.lock" then some (parseYarnLock c)
  else if parser = g!"uv.lock" then some (parseUvLock (uvDecode P.uvOptional P.toml) c)
  else if parser = g!"gradle.lockfile" then some (parseGradleLock c)
  else if parser = g!"buildscript-gradle.lockfile" then some (parseGradleLock c)
  else some ([], true)

end Osv
