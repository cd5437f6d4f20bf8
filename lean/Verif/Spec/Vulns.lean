import Verif.Spec.Version
import Verif.Spec.Ecosystem
/-! # Specification of "same vulnerability" and of "affects" -/
namespace Osv.Spec
open Osv

/-- Two advisories are the same vulnerability: they share an ID or an alias. -/
def Related (a b : OSV) : Prop :=
  a.id = b.id ∨ a.id ∈ b.aliases ∨ b.id ∈ a.aliases ∨ ∃ x ∈ a.aliases, x ∈ b.aliases

instance (a b : OSV) : Decidable (Related a b) := by unfold Related; infer_instance

/-- The name of an advisory entry as it is compared with package names. -/
def entryName (a : Affected) : Str :=
  if ecoBase a.package.ecosystem = g!"PyPI" then pep503 a.package.name else a.package.name

/-- The advisory affects the package: some entry for its ecosystem and name lists the version, has an
ECOSYSTEM or SEMVER range containing it, or the package has no version and the entry restricts anything. -/
def Affects (cmp : Str → Str → Int) (o : OSV) (pkg : PackageDetails) : Prop :=
  ∃ a ∈ o.affected, EcoMatch a.package.ecosystem pkg.ecosystem ∧ entryName a = pkg.name ∧
    (pkg.version ∈ a.versions ∨
     (∃ r ∈ a.ranges, (r.type = g!"ECOSYSTEM" ∨ r.type = g!"SEMVER") ∧ InRange cmp r.events pkg.version) ∨
     (pkg.version = [] ∧ (a.ranges ≠ [] ∨ a.versions ≠ [])))

/-- The advisory names the package without saying anything about versions. -/
def Unbounded (o : OSV) (pkg : PackageDetails) : Prop :=
  ∃ a ∈ o.affected, EcoMatch a.package.ecosystem pkg.ecosystem ∧ entryName a = pkg.name ∧ a.ranges = [] ∧ a.versions = []

/-- Advisory data without surprises: all ranges are ECOSYSTEM or SEMVER with well-formed events. -/
def WellFormedOSV (cmp : Str → Str → Int) (o : OSV) : Prop :=
  ∀ a ∈ o.affected, ∀ r ∈ a.ranges,
    (r.type = g!"ECOSYSTEM" ∨ r.type = g!"SEMVER") ∧ WellFormed cmp r.events

end Osv.Spec
