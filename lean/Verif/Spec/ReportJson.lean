import Verif.Go.JsonDecode
import Verif.Model.OsvJson
import Verif.Model.Main
/-!
# Reading the JSON output

What a program that consumes the output does: look up members of objects by name.  A member that is missing or null stands for
the empty text or the empty list.
-/
namespace Osv.Spec
open Osv Str

/-- The last member with this name. -/
def lookup (v : JVal) (k : Str) : Option JVal :=
  match v with
  | .obj m => (m.toList.reverse.find? fun x => decide (x.1 = k)).map (·.2)
  | _ => none

/-- The text under a name. -/
def textAt (v : JVal) (k : Str) : Option Str :=
  match lookup v k with
  | none => some []
  | some .null => some []
  | some (.str s) => some s
  | some _ => none

/-- The text under a name, if there is one. -/
def textAt? (v : JVal) (k : Str) : Option (Option Str) :=
  match lookup v k with
  | none => some none
  | some .null => some none
  | some (.str s) => some (some s)
  | some _ => none

/-- Read all elements. -/
def readAll {α : Type} (read : JVal → Option α) : List JVal → Option (List α)
  | [] => some []
  | v :: l => match read v, readAll read l with
    | some a, some as => some (a :: as)
    | _, _ => none

/-- The list under a name. -/
def listAt {α : Type} (read : JVal → Option α) (v : JVal) (k : Str) : Option (List α) :=
  match lookup v k with
  | none => some []
  | some .null => some []
  | some (.arr l) => readAll read l.toList
  | some _ => none

def readText (v : JVal) : Option Str := match v with | .str s => some s | _ => none

def readEvent (v : JVal) : Option RangeEvent := do
  return { introduced := ← textAt v g!"introduced", fixed := ← textAt v g!"fixed", lastAffected := ← textAt v g!"last_affected" }

def readRange (v : JVal) : Option AffectsRange := do
  return { type := ← textAt v g!"type", events := ← listAt readEvent v g!"events" }

def readAffected (v : JVal) : Option Affected := do
  let p ← lookup v g!"package"
  return { package := ⟨← textAt p g!"name", ← textAt p g!"ecosystem"⟩, versions := ← listAt readText v g!"versions",
           ranges := ← listAt readRange v g!"ranges" }

def readAdvisory (v : JVal) : Option OSV := do
  return { id := ← textAt v g!"id", aliases := ← listAt readText v g!"aliases", summary := ← textAt v g!"summary",
           published := ← textAt v g!"published", modified := ← textAt v g!"modified",
           withdrawn := ← textAt? v g!"withdrawn", details := ← textAt v g!"details",
           affected := ← listAt readAffected v g!"affected" }

def readPackage (v : JVal) : Option PackageDetails := do
  return { name := ← textAt v g!"name", version := ← textAt v g!"version", commit := ← textAt v g!"commit",
           ecosystem := ← textAt v g!"ecosystem", compareAs := ← textAt v g!"compareAs" }

def readPkgReport (v : JVal) : Option PkgReport := do
  return { pkg := ← readPackage v, vulnerabilities := ← listAt readAdvisory v g!"vulnerabilities",
           ignored := ← listAt readAdvisory v g!"ignored" }

/-- A file with its packages. -/
def readFile {α : Type} (read : JVal → Option α) (v : JVal) : Option (Str × Str × List α) := do
  return (← textAt v g!"filePath", ← textAt v g!"parsedAs", ← listAt read v g!"packages")

/-- The document. -/
def readDocument {α : Type} (read : JVal → Option α) (v : JVal) : Option (List (Str × Str × List α)) := listAt (readFile read) v g!"results"

/-- What a report says. -/
def reportContent (r : Report) : Str × Str × List PkgReport := (r.lockfile.filePath, r.lockfile.parsedAs, r.packages)

/-- What a list of packages says. -/
def lockfileContent (l : Lockfile) : Str × Str × List PackageDetails := (l.filePath, l.parsedAs, l.packages)

end Osv.Spec
