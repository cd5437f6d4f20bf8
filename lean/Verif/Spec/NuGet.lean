import Verif.Spec.Lists
import Verif.Model.LockNuGet
import Verif.Model.LockPipenv
/-! # What packages.lock.json and Pipfile.lock list -/
namespace Osv.Spec
open Osv Str

/-- A member of `m` that is an object with the text `text` in `f`. -/
def TextOf (m : JMembers) (name f text : Str) : Prop := ∃ v o, Member m name v ∧ ObjectOf v o ∧ TextField o f text

/-- No key twice, and every member is an object with a text in `f`. -/
def TextsTyped (m : JMembers) (f : Str) : Prop :=
  DistinctKeys m ∧ ∀ k v, Member m k v → ∃ o, ObjectOf v o ∧ PlainKeys [f] o ∧ ∀ w, Member o f w → IsText w

/-- A dependency of some framework in a packages.lock.json. -/
def NuGetEntry (frameworks : JMembers) (p : PackageDetails) : Prop :=
  ∃ fw v deps name resolved, Member frameworks fw v ∧ ObjectOf v deps ∧ TextOf deps name g!"resolved" resolved ∧
    p = pkg g!"NuGet" name resolved []

/-- The text of a packages.lock.json whose `version` is the number `version`. -/
def NuGetFile (content version : Str) (frameworks : JMembers) : Prop :=
  ∃ doc, Json.parse content = some (.obj doc) ∧ PlainKeys [g!"version", g!"dependencies"] doc ∧
    Member doc g!"version" (.num version) ∧ Int64Text version ∧ ObjectField doc g!"dependencies" frameworks ∧
    DistinctKeys frameworks ∧ ∀ k v, Member frameworks k v → ∃ deps, ObjectOf v deps ∧ TextsTyped deps g!"resolved"

/-- A package of a section of a Pipfile.lock: its version is written behind `==`. -/
def PipenvEntry (section_ : JMembers) (p : PackageDetails) : Prop :=
  ∃ name version, TextOf section_ name g!"version" (g!"==" ++ version) ∧ p = pkg g!"PyPI" name version []

/-- The text of a Pipfile.lock with the given sections. -/
def PipenvFile (content : Str) (default develop : JMembers) : Prop :=
  ∃ doc, Json.parse content = some (.obj doc) ∧ PlainKeys [g!"default", g!"develop"] doc ∧
    ObjectField doc g!"default" default ∧ ObjectField doc g!"develop" develop ∧ TextsTyped default g!"version" ∧
    TextsTyped develop g!"version"

end Osv.Spec
