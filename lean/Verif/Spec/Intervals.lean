import Verif.Spec.Vulns
import Verif.Spec.Packagist
import Verif.Spec.MavenVersion
import Verif.Spec.Pep440
import Verif.Spec.NuGetOrder
import Verif.Spec.GemVersion
import Verif.Spec.CranVersion
/-!
# Intervals of versions

The events of a range by an order of version texts, whatever order it is.
-/
namespace Osv.Spec
open Osv

/-- The comparison is one of a total preorder on some texts. -/
structure CmpLawsOn (good : Str → Prop) (cmp : Str → Str → Int) : Prop where
  refl : ∀ a, good a → cmp a a = 0
  flip : ∀ a b, good a → good b → (cmp a b < 0 ↔ 0 < cmp b a)
  trans : ∀ a b c, good a → good b → good c → cmp a b ≤ 0 → cmp b c ≤ 0 → cmp a c ≤ 0

/-- The version `x` is in the range that the (unordered) events describe: some introduction that is not newer is not cut off by a
fix or a last affected version. -/
def IntervalBy (older : Str → Str → Prop) (evs : List RangeEvent) (x : Str) : Prop :=
  ∃ i ∈ evs, i.introduced ≠ [] ∧ (i.introduced = g!"0" ∨ ¬ older x i.introduced) ∧
    (∀ f ∈ evs, f.fixed ≠ [] → i.introduced = g!"0" ∨ older i.introduced f.fixed → older x f.fixed) ∧
    (∀ l ∈ evs, l.lastAffected ≠ [] → i.introduced = g!"0" ∨ ¬ older l.lastAffected i.introduced → ¬ older l.lastAffected x)

/-- Two events that may stand together: not twice the beginning of all versions, nor an introduction beside a fix or a last affected
version where neither is older. -/
def ApartBy (older : Str → Str → Prop) (a b : RangeEvent) : Prop :=
  ¬ (a.introduced = g!"0" ∧ b.introduced = g!"0") ∧
  (a.introduced ≠ g!"0" → b.introduced ≠ g!"0" → older a.version b.version ∨ older b.version a.version ∨
    (a.introduced ≠ [] ↔ b.introduced ≠ []))

/-- The versions of an event are such versions, or it is the introduction of all versions. -/
def EventBy (good : Str → Prop) (e : RangeEvent) : Prop :=
  (e.introduced = [] ∨ e.introduced = g!"0" ∨ good e.introduced) ∧ (e.fixed = [] ∨ good e.fixed) ∧ (e.lastAffected = [] ∨ good e.lastAffected)

/-- The advisory affects the package: an entry for its ecosystem and name lists the version, has a range with the version in one of the
intervals, or the package has no version and the entry restricts anything. -/
def AffectsBy (older : Str → Str → Prop) (o : OSV) (pkg : PackageDetails) : Prop :=
  ∃ a ∈ o.affected, EcoMatch a.package.ecosystem pkg.ecosystem ∧ entryName a = pkg.name ∧
    (pkg.version ∈ a.versions ∨ (∃ r ∈ a.ranges, IntervalBy older r.events pkg.version) ∨
     (pkg.version = [] ∧ (a.ranges ≠ [] ∨ a.versions ≠ [])))

/-- Ranges of such versions in which every event says one thing and the events can stand together. -/
def RangesBy (good : Str → Prop) (older : Str → Str → Prop) (o : OSV) : Prop :=
  ∀ a ∈ o.affected, ∀ r ∈ a.ranges, (r.type = g!"ECOSYSTEM" ∨ r.type = g!"SEMVER") ∧ (∀ e ∈ r.events, EventBy good e ∧ Single e) ∧
    r.events.Pairwise (ApartBy older)

/-- Ecosystems, the texts of their versions and the order of those: semantic versions, PEP 440, and the orders of NuGet,
RubyGems, CRAN, Packagist and Maven. -/
inductive EcosystemOrder : Ecosystem → (Str → Prop) → (Str → Str → Prop) → Prop
  | crates : EcosystemOrder g!"crates.io" Precedence.Good Precedence.Older
  | go : EcosystemOrder g!"Go" Precedence.Good Precedence.Older
  | hex : EcosystemOrder g!"Hex" Precedence.Good Precedence.Older
  | npm : EcosystemOrder g!"npm" Precedence.Good Precedence.Older
  | conan : EcosystemOrder g!"ConanCenter" Precedence.Good Precedence.Older
  | python : EcosystemOrder g!"PyPI" Pep440.Good Pep440.Older
  | nuget : EcosystemOrder g!"NuGet" NuGetOrder.Good NuGetOrder.Older
  | gems : EcosystemOrder g!"RubyGems" GemVersion.Good GemVersion.Older
  | cran : EcosystemOrder g!"CRAN" CranVersion.Good CranVersion.Older
  | php : EcosystemOrder g!"Packagist" Packagist.Good Packagist.Older
  | maven : EcosystemOrder g!"Maven" MavenVersion.Good MavenVersion.Older

end Osv.Spec
