import Verif.Lemmas.Ecosystem
import Verif.Spec.Samples
/-! # C07 Explicit versions and version-less packages -/
namespace Osv
open Spec

/-- `IsAffected`, spelled out: some entry for the ecosystem and name that has ranges or versions lists the
version, has a matching range, or the package has no version. -/
theorem isAffected_iff (S : Sorter) (sem : Sem) (o : OSV) (pkg : PackageDetails) :
    o.isAffected S sem pkg = true ↔ ∃ a ∈ o.affected,
      EcoMatch a.package.ecosystem pkg.ecosystem ∧ a.package.normalizedName = pkg.name ∧
      (a.ranges ≠ [] ∨ a.versions ≠ []) ∧
      (pkg.version ∈ a.versions ∨ affectsVersion S sem pkg a.ranges = true ∨ pkg.version = []) := by
  unfold OSV.isAffected
  rw [List.any_eq_true]
  constructor
  · rintro ⟨a, ha, h⟩
    simp only [Affected.matchesPkg, Bool.and_eq_true, areEcosystemsEqual_iff, decide_eq_true_eq,
      Bool.not_eq_true', Bool.and_eq_false_iff, decide_eq_false_iff_not, Bool.or_eq_true,
      List.contains_iff_mem, List.length_eq_zero_iff] at h
    exact ⟨a, ha, h.1.1.1, h.1.1.2, h.1.2, or_assoc.mp h.2⟩
  · rintro ⟨a, ha, h1, h2, h3, h4⟩
    refine ⟨a, ha, ?_⟩
    simp only [Affected.matchesPkg, Bool.and_eq_true, areEcosystemsEqual_iff, decide_eq_true_eq,
      Bool.not_eq_true', Bool.and_eq_false_iff, decide_eq_false_iff_not, Bool.or_eq_true,
      List.contains_iff_mem, List.length_eq_zero_iff]
    exact ⟨⟨⟨h1, h2⟩, h3⟩, or_assoc.mpr h4⟩

/-- An entry for the package that lists its exact version makes it affected, whatever the ranges and the
other entries say. -/
theorem C07_explicit_version (S : Sorter) (sem : Sem) (o : OSV) (a : Affected) (pkg : PackageDetails)
    (ha : a ∈ o.affected) (he : EcoMatch a.package.ecosystem pkg.ecosystem)
    (hn : a.package.normalizedName = pkg.name) (hv : pkg.version ∈ a.versions) :
    o.isAffected S sem pkg = true :=
  (isAffected_iff S sem o pkg).mpr
    ⟨a, ha, he, hn, .inr (fun e => by rw [e] at hv; simp at hv), .inl hv⟩

/-- A package without a version is affected by every entry for it that has ranges or versions. -/
theorem C07_versionless (S : Sorter) (sem : Sem) (o : OSV) (a : Affected) (pkg : PackageDetails)
    (ha : a ∈ o.affected) (he : EcoMatch a.package.ecosystem pkg.ecosystem)
    (hn : a.package.normalizedName = pkg.name) (hne : a.ranges ≠ [] ∨ a.versions ≠ [])
    (hv : pkg.version = []) : o.isAffected S sem pkg = true :=
  (isAffected_iff S sem o pkg).mpr ⟨a, ha, he, hn, hne, .inr (.inr hv)⟩

/-- Entries with neither ranges nor versions never match: dropping them changes nothing. -/
theorem C07_empty_entries (S : Sorter) (sem : Sem) (o : OSV) (pkg : PackageDetails) :
    o.isAffected S sem pkg =
      OSV.isAffected S sem
        { o with affected := o.affected.filter fun a => !(a.ranges.isEmpty && a.versions.isEmpty) } pkg := by
  rw [Bool.eq_iff_iff, isAffected_iff, isAffected_iff]
  constructor
  · rintro ⟨a, ha, h1, h2, h3, h4⟩
    refine ⟨a, ?_, h1, h2, h3, h4⟩
    simp only [List.mem_filter]
    refine ⟨ha, ?_⟩
    rcases h3 with h | h <;> simp [h]
  · rintro ⟨a, ha, h⟩
    exact ⟨a, (List.mem_filter.mp ha).1, h⟩

/-- An entry of another ecosystem or name never matches: dropping it changes nothing. -/
theorem C07_only_matching_entries (S : Sorter) (sem : Sem) (o : OSV) (pkg : PackageDetails) :
    o.isAffected S sem pkg =
      OSV.isAffected S sem
        { o with affected := o.affected.filter fun a =>
            decide (EcoMatch a.package.ecosystem pkg.ecosystem) &&
            decide (a.package.normalizedName = pkg.name) } pkg := by
  rw [Bool.eq_iff_iff, isAffected_iff, isAffected_iff]
  constructor
  · rintro ⟨a, ha, h1, h2, h⟩
    refine ⟨a, ?_, h1, h2, h⟩
    simp [List.mem_filter, ha, h1, h2]
  · rintro ⟨a, ha, h⟩
    exact ⟨a, (List.mem_filter.mp ha).1, h⟩

example : let a : Affected := { package := ⟨g!"Foo.bar", g!"PyPI"⟩, versions := [g!"1"] }
    EcoMatch a.package.ecosystem g!"PyPI" ∧ a.package.normalizedName = g!"foo-bar" ∧
    OSV.isAffected Sorter.insertion numSem { id := g!"A", affected := [a] }
      { name := g!"foo-bar", version := g!"1", ecosystem := g!"PyPI" } = true ∧
    OSV.isAffected Sorter.insertion numSem { id := g!"A", affected := [a] }
      { name := g!"foo-bar", version := g!"2", ecosystem := g!"PyPI" } = false := by decide

end Osv
