import Verif.Model.Main
import Verif.Model.Parsers
/-!
# Messages of the parsers

Four parsers write to stderr about what they cannot make sense of, and go on. The text is written as it is.
-/
namespace Osv
open Str

inductive ParseDiag where
  /-- `pkg/lockfile/parse-gradle-lock.go:51` -/
  | gradleLine (line : Str)
  /-- `pkg/lockfile/parse-mix-lock.go:44-47` -/
  | mixFields
  /-- `pkg/lockfile/parse-yarn-lock.go:158-162` -/
  | yarnVersion (name : Str)
  /-- `pkg/lockfile/parse-maven-lock.go:43-48` -/
  | mavenProperty (name property : Str)
deriving DecidableEq, Repr

/-- The text of a message. -/
def ParseDiag.text : ParseDiag → Str
  | .gradleLine line => g!"skipping invalid line in gradle lockfile: " ++ line ++ g!"\n"
  | .mixFields => g!"Found less than four fields when parsing a line that looks like a dependency in a mix.lock - please report this!\n"
  | .yarnVersion name => g!"Failed to determine version of " ++ name ++ g!" while parsing a yarn.lock - please report this!\n"
  | .mavenProperty name property => g!"Failed to resolve version of " ++ name ++ g!": property \"" ++ property ++ g!"\" could not be found\n"

/-- `pkg/lockfile/parse-gradle-lock.go:42-54`: the message about one line. -/
def gradleDiag (line : Str) : Option ParseDiag :=
  let lockLine := trimSpace line
  if isNotGradleLine lockLine then none
  else match parseGradleLine lockLine with
    | none => some (.gradleLine lockLine)
    | some _ => none

/-- `pkg/lockfile/parse-gradle-lock.go:31-64` `ParseGradleLock`: its messages. The lines before one that is too long are looked at. -/
def gradleDiags (content : Option Str) : List ParseDiag :=
  match content with
  | none => []
  | some c => (Scanner.scan c).1.filterMap gradleDiag

/-- `pkg/lockfile/parse-mix-lock.go:28-50`: the message about one line. -/
def mixDiag (line : Str) : Option ParseDiag :=
  match reMixLine.find line with
  | none => none
  | some _ => if (fieldsFunc (· == ',') line).length < 4 then some .mixFields else none

/-- `pkg/lockfile/parse-mix-lock.go:14-78` `ParseMixLock`: its messages. -/
def mixDiags (content : Option Str) : List ParseDiag :=
  match content with
  | none => []
  | some c => (Scanner.scan c).1.filterMap mixDiag

/-- `pkg/lockfile/parse-yarn-lock.go:152-172` and `191-197`: the message about one block. -/
def yarnDiag (group : List Str) : Option ParseDiag :=
  if skipYarnGroup group then none
  else if (parsePackageGroup group).version = [] then some (.yarnVersion (parsePackageGroup group).name) else none

/-- `pkg/lockfile/parse-yarn-lock.go:174-200` `ParseYarnLock`: its messages. Here a line that is too long is noticed before. -/
def yarnDiags (content : Option Str) : List ParseDiag :=
  match content with
  | none => []
  | some c =>
    let res := Scanner.scan c
    if res.2 then [] else (groupPackageLines res.1).filterMap yarnDiag

/-- `pkg/lockfile/parse-maven-lock.go:30-51` `resolveVersionValue`: its message. -/
def mavenDiag (properties : SMap Str) (d : MavenLockDependency) : Option ParseDiag :=
  match Re.find mavenInterpolationRe d.version with
  | none => none
  | some f => match properties.get? (f.group 1) with
    | some _ => none
    | none => some (.mavenProperty (d.groupID ++ g!":" ++ d.artifactID) (f.group 1))

/-- `pkg/lockfile/parse-maven-lock.go:101-142` `ParseMavenLock`: its messages. -/
def mavenDiags (decode : Str → Option MavenLockFile) (content : Option Str) : List ParseDiag :=
  match content.bind decode with
  | none => []
  | some f => f.managedDependencies.filterMap (mavenDiag f.properties) ++ f.dependencies.filterMap (mavenDiag f.properties)

/-- `pkg/lockfile/parse.go:21-43` `parsers`: the messages of each. -/
def parserDiags (P : ParserEnv) (parser path : Str) : List ParseDiag :=
  if parser = g!"mix.lock" then mixDiags (P.file path)
  else if parser = g!"pom.xml" then mavenDiags pomDecode (P.file path)
  else if parser = g!"yarn.lock" then yarnDiags (P.file path)
  else if parser = g!"gradle.lockfile" then gradleDiags (P.file path)
  else if parser = g!"buildscript-gradle.lockfile" then gradleDiags (P.file path)
  else []

/-- `main.go:431-462` and `308-337`: the messages of the parsers while the lockfiles are read. A file that is not parsed, as its config is
bad or its parser unknown, has no path and no parser in its entry and no messages; neither have CSV files. -/
def runParserDiags (P : ParserEnv) (files : List FileEntry) : List ParseDiag :=
  files.flatMap fun x => parserDiags P x.lockf.parsedAs x.lockf.filePath

end Osv
