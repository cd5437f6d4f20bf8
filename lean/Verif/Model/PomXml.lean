import Verif.Go.Xml
import Verif.Model.LockMaven
/-!
# From XML to a pom (`encoding/xml` with the struct tags of `pkg/lockfile/parse-maven-lock.go`)

Text is read by `Xml.read`. Names are local names, as in the comparisons that the library makes for tags without a name space.
Attributes are left out as no field refers to one.
-/
namespace Osv
open Str

/-- `unmarshal` of a string: the text of the element. Elements in it are skipped. -/
def xmlString (acc : Str) : List XNode → Str
  | [] => acc
  | .text s :: rest => xmlString (acc ++ s) rest
  | .elem _ _ :: rest => xmlString acc rest
  | .other :: rest => xmlString acc rest

/-- `unmarshal` of a `MavenLockDependency` (`pkg/lockfile/parse-maven-lock.go:11-16`): a field is set each time its element occurs. -/
def xmlDependency (d : MavenLockDependency) : List XNode → MavenLockDependency
  | [] => d
  | .elem n k :: rest =>
    if n = g!"groupId" then xmlDependency { d with groupID := xmlString [] k } rest
    else if n = g!"artifactId" then xmlDependency { d with artifactID := xmlString [] k } rest
    else if n = g!"version" then xmlDependency { d with version := xmlString [] k } rest
    else xmlDependency d rest
  | _ :: rest => xmlDependency d rest

/-- `pkg/lockfile/parse-maven-lock.go:73-99` `UnmarshalXML` of the properties, after the first line. The end of the element is the end
of the list. -/
def xmlProperties (m : SMap Str) : List XNode → SMap Str
  | [] => m
  | .elem n k :: rest => xmlProperties (m.set n (xmlString [] k)) rest
  | _ :: rest => xmlProperties m rest

/-- `unmarshalPath` below the last parent of the path: each `dependency` is appended. -/
def xmlDependencies (acc : List MavenLockDependency) : List XNode → List MavenLockDependency
  | [] => acc
  | .elem n k :: rest =>
    if n = g!"dependency" then xmlDependencies (acc ++ [xmlDependency ⟨[], [], []⟩ k]) rest else xmlDependencies acc rest
  | _ :: rest => xmlDependencies acc rest

/-- `unmarshalPath` below `dependencyManagement`. -/
def xmlManaged (acc : List MavenLockDependency) : List XNode → List MavenLockDependency
  | [] => acc
  | .elem n k :: rest => if n = g!"dependencies" then xmlManaged (xmlDependencies acc k) rest else xmlManaged acc rest
  | _ :: rest => xmlManaged acc rest

/-- `unmarshal` of `MavenLockFile` (`pkg/lockfile/parse-maven-lock.go:59-65`). The field `ModelVersion` is never used and left out.
Line 74 of the file starts with a new map for each `properties` element. -/
def xmlProject (f : MavenLockFile) : List XNode → MavenLockFile
  | [] => f
  | .elem n k :: rest =>
    if n = g!"properties" then xmlProject { f with properties := xmlProperties [] k } rest
    else if n = g!"dependencies" then xmlProject { f with dependencies := xmlDependencies f.dependencies k } rest
    else if n = g!"dependencyManagement" then xmlProject { f with managedDependencies := xmlManaged f.managedDependencies k } rest
    else xmlProject f rest
  | _ :: rest => xmlProject f rest

/-- `xml.Unmarshal(lockfileContents, &parsedLockfile)` (`pkg/lockfile/parse-maven-lock.go:110`), given the first element of the document
and what is in it. The element must be a `project`. -/
def xmlDecodePom (root : Str × List XNode) : Option MavenLockFile :=
  if root.1 = g!"project" then some (xmlProject ⟨[], [], []⟩ root.2) else none

/-- `xml.Unmarshal`, from text. -/
def pomDecode (content : Str) : Option MavenLockFile := (Xml.read content).bind xmlDecodePom

end Osv
