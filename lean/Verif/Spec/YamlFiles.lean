import Verif.Model.YamlFiles
import Verif.Spec.Yaml
/-! # What YAML files say -/
namespace Osv.Spec
open Str

/-- A pnpm package: a mapping with a name, a version and a resolution. -/
def PnpmPackageShape : YNode → Prop := YIsStruct [
  (g!"resolution", YIsStruct [(g!"tarball", YIsText), (g!"commit", YIsText), (g!"repo", YIsText), (g!"type", YIsText)]),
  (g!"name", YIsText), (g!"version", YIsText)]

/-- A pnpm-lock.yaml, apart from whether the version is a number. -/
def PnpmShape : YNode → Prop := YIsStruct [(g!"lockfileVersion", YIsText), (g!"packages", YIsMapOf PnpmPackageShape)]

structure PnpmPackageSays (n : YNode) (p : PnpmLockPackage) : Prop where
  tarball : YText n [g!"resolution", g!"tarball"] p.tarball
  commit : YText n [g!"resolution", g!"commit"] p.commit
  name : YText n [g!"name"] p.name
  version : YText n [g!"version"] p.version

structure PnpmSays (nine : Str → Option Bool) (n : YNode) (l : PnpmLockfile) : Prop where
  version : ∃ s, YText n [g!"lockfileVersion"] s ∧ nine s = some l.isNine
  once : (l.packages.map Prod.fst).Nodup
  packages : ∀ k p, (k, p) ∈ l.packages ↔ ∃ v, YAt n [g!"packages", k] v ∧ PnpmPackageSays v p

/-- A description is text or a mapping. -/
def DescriptionShape (n : YNode) : Prop :=
  YIsText n ∨ YIsStruct [(g!"name", YIsText), (g!"url", YIsText), (g!"path", YIsText), (g!"resolved-ref", YIsText)] n

def PubspecPackageShape : YNode → Prop := YIsStruct [(g!"source", YIsText), (g!"description", DescriptionShape), (g!"version", YIsText)]

/-- A pubspec.lock. -/
def PubspecShape : YNode → Prop := YIsStruct [(g!"packages", YIsMapOf PubspecPackageShape), (g!"sdks", YIsMapOf YIsText)]

/-- A package in a pubspec.lock and how it is reported. -/
structure PubspecSays (n : YNode) (p : PackageDetails) : Prop where
  listed : ∃ v, YAt n [g!"packages", p.name] v ∧ YText v [g!"version"] p.version ∧ YText v [g!"description", g!"resolved-ref"] p.commit
  ecosystem : p.ecosystem = g!"Pub" ∧ p.compareAs = g!"Pub"

def RawDBShape : YNode → Prop :=
  YIsStruct [(g!"url", YIsText), (g!"name", YIsText), (g!"type", YIsText), (g!"working-directory", YIsText)]

/-- A config. -/
def ConfigShape : YNode → Prop := YIsStruct [(g!"ignore", YIsListOf YIsText), (g!"extra-databases", YIsListOf RawDBShape)]

structure RawDBSays (n : YNode) (d : RawDB) : Prop where
  url : YText n [g!"url"] d.url
  name : YText n [g!"name"] d.name
  type : YText n [g!"type"] d.type
  workingDirectory : YText n [g!"working-directory"] d.workingDirectory

structure ConfigSays (n : YNode) (c : RawConfig) : Prop where
  ignore : ∃ l, YItems n [g!"ignore"] l ∧ Each (fun v s => YText v [] s) l c.ignore
  databases : ∃ l, YItems n [g!"extra-databases"] l ∧ Each RawDBSays l c.databases

end Osv.Spec
