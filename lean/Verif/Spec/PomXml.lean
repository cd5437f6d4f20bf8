import Verif.Model.PomXml
/-! # What is written in a pom.xml -/
namespace Osv.Spec
open Osv Str

/-- The contents of all elements with this name, in order. -/
def named (n : Str) (kids : List XNode) : List (List XNode) :=
  kids.filterMap fun
    | .elem m k => if m = n then some k else none
    | _ => none

/-- The contents of all elements at a path, in order. -/
def elementsAt : List Str → List XNode → List (List XNode)
  | [], kids => [kids]
  | n :: path, kids => (named n kids).flatMap (elementsAt path)

/-- The text of an element, without that of elements in it. -/
def textOf (kids : List XNode) : Str :=
  kids.flatMap fun
    | .text s => s
    | _ => []

/-- The text of the last element with this name, if there is one. -/
def valueOf (n : Str) (kids : List XNode) : Option Str := (named n kids).getLast?.map textOf

/-- A dependency as it is written. Elements that are missing are taken as empty. -/
def writtenDependency (kids : List XNode) : MavenLockDependency :=
  ⟨(valueOf g!"groupId" kids).getD [], (valueOf g!"artifactId" kids).getD [], (valueOf g!"version" kids).getD []⟩

/-- The value of a property. -/
def writtenProperty (kids : List XNode) (name : Str) : Option Str := (named g!"properties" kids).getLast?.bind (valueOf name)

/-- What a pom says, given the contents of `project`. -/
structure PomSays (kids : List XNode) (f : MavenLockFile) : Prop where
  properties : ∀ name, f.properties.get? name = writtenProperty kids name
  dependencies : f.dependencies = (elementsAt [g!"dependencies", g!"dependency"] kids).map writtenDependency
  managed : f.managedDependencies =
    (elementsAt [g!"dependencyManagement", g!"dependencies", g!"dependency"] kids).map writtenDependency

end Osv.Spec
