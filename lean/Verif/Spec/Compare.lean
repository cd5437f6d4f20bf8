import Verif.Spec.Vulns
/-! # Specification of when a check has to compare versions -/
namespace Osv.Spec
open Osv

/-- The entry of an advisory is for the package. -/
def EntryFor (a : Affected) (pkg : PackageDetails) : Prop :=
  EcoMatch a.package.ecosystem pkg.ecosystem ∧ entryName a = pkg.name

/-- ECOSYSTEM and SEMVER ranges. -/
def HasVersions (r : AffectsRange) : Prop := r.type = g!"ECOSYSTEM" ∨ r.type = g!"SEMVER"

/-- All versions that the advisory gives for the package, and that of the package itself, are valid. -/
def Comparable (parses : Ecosystem → Str → Bool) (pkg : PackageDetails) (o : OSV) : Prop :=
  ∀ a ∈ o.affected, EntryFor a pkg → ∀ r ∈ a.ranges, HasVersions r → r.events ≠ [] →
    parses pkg.compareAs pkg.version = true ∧
    ∀ e ∈ r.events, e.introduced ≠ g!"0" → parses pkg.compareAs e.version = true

/-- The entry cannot be decided without comparing versions: it is for the package, does not list its version, and its first range
with events is an ECOSYSTEM or SEMVER one, as are all before it. -/
def NeedsComparison (a : Affected) (pkg : PackageDetails) : Prop :=
  EntryFor a pkg ∧ pkg.version ∉ a.versions ∧
  ∃ pre r post, a.ranges = pre ++ r :: post ∧ (∀ q ∈ pre, HasVersions q ∧ q.events = []) ∧ HasVersions r ∧ r.events ≠ []

/-- The entry says without comparing versions that the package is affected. -/
def Listed (a : Affected) (pkg : PackageDetails) : Prop :=
  EntryFor a pkg ∧ (a.ranges ≠ [] ∨ a.versions ≠ []) ∧ (pkg.version ∈ a.versions ∨ pkg.version = [])

/-- Deciding whether the advisory affects the package compares versions: it is not withdrawn, it is filed under the package, and it
has an entry that needs a comparison before which no entry settles the matter. -/
def ComparesVersions (o : OSV) (pkg : PackageDetails) : Prop :=
  o.withdrawn = none ∧
  (∃ a ∈ o.affected, ecoBase a.package.ecosystem ++ g!"-" ++ entryName a = pkg.ecosystem ++ g!"-" ++ pkg.name) ∧
  ∃ pre a post, o.affected = pre ++ a :: post ∧ (∀ b ∈ pre, ¬ Listed b pkg) ∧ NeedsComparison a pkg

end Osv.Spec
