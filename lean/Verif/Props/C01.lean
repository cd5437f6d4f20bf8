import Verif.Lemmas.Version
import Verif.Spec.Samples
/-! # C01 Version ranges are evaluated as intervals -/
namespace Osv
open Spec

/-- For every sort routine satisfying Go's contract, every version order that is a total preorder and every
well-formed list of events in any order, a range contains a version exactly when it is of a versioned type
and the version lies in the union of the half-open (`fixed`) or closed (`last_affected`) intervals. -/
theorem C01_range_intervals (S : Sorter) (sem : Sem) (r : AffectsRange) (pkg : PackageDetails)
    (hc : CmpLaws (sem pkg.compareAs)) (hw : WellFormed (sem pkg.compareAs) r.events) :
    r.containsVersion S sem pkg = true ↔
      (r.type = g!"ECOSYSTEM" ∨ r.type = g!"SEMVER") ∧
      InRange (sem pkg.compareAs) r.events pkg.version := by
  unfold AffectsRange.containsVersion
  rw [← versioned_iff]
  cases ht : r.versioned
  · simp
  · by_cases he : r.events.length = 0
    · have : r.events = [] := List.length_eq_zero_iff.mp he
      simp [InRange, this]
    · simp only [Bool.not_true, Bool.false_eq_true, if_false, if_neg he, true_and]
      exact eventsContain_sort S hc pkg.version r.events hw

/-- The order in which the advisory lists its events (and the sort routine) is irrelevant. -/
theorem C01_event_order_irrelevant (S S' : Sorter) (sem : Sem) (t : Str) (evs evs' : List RangeEvent)
    (hp : evs.Perm evs') (pkg : PackageDetails)
    (hc : CmpLaws (sem pkg.compareAs)) (hw : WellFormed (sem pkg.compareAs) evs) :
    AffectsRange.containsVersion S sem ⟨t, evs⟩ pkg = AffectsRange.containsVersion S' sem ⟨t, evs'⟩ pkg := by
  have hw' := hw.perm hc hp
  rw [Bool.eq_iff_iff, C01_range_intervals S sem ⟨t, evs⟩ pkg hc hw,
    C01_range_intervals S' sem ⟨t, evs'⟩ pkg hc hw', InRange.perm_iff hp]

/-- Events at pairwise different versions are well formed (the quantifier of the property). -/
theorem C01_different_versions (cmp : Str → Str → Int) (evs : List RangeEvent)
    (hs : ∀ e ∈ evs, Single e) (hd : evs.Pairwise (DifferentVersions cmp)) : WellFormed cmp evs :=
  ⟨hs, hd.imp fun h => separated_of_ne cmp _ _ h⟩

/-- `IsAffected` on an advisory with one entry for the package and one versioned range, none of whose
explicit versions is the package's (non-empty) version: exactly the interval condition. -/
theorem C01_is_affected (S : Sorter) (sem : Sem) (o : OSV) (a : Affected) (r : AffectsRange)
    (pkg : PackageDetails) (ho : o.affected = [a]) (hr : a.ranges = [r])
    (heco : a.package.ecosystem = pkg.ecosystem) (hname : a.package.normalizedName = pkg.name)
    (hv : pkg.version ≠ []) (hnv : pkg.version ∉ a.versions)
    (ht : r.type = g!"ECOSYSTEM" ∨ r.type = g!"SEMVER")
    (hc : CmpLaws (sem pkg.compareAs)) (hw : WellFormed (sem pkg.compareAs) r.events) :
    o.isAffected S sem pkg = true ↔ InRange (sem pkg.compareAs) r.events pkg.version := by
  have h1 := C01_range_intervals S sem r pkg hc hw
  simp only [ht, true_and] at h1
  rw [← h1]
  have hver : r.versioned = true := (versioned_iff r).mpr ht
  simp [OSV.isAffected, ho, Affected.matchesPkg, hr, heco, hname, hv, hnv, areEcosystemsEqual,
    affectsVersion, hver]

/-- The hypotheses are satisfiable by a non-trivial range (two intervals, events out of order), and both
answers occur. -/
example : CmpLaws numCmp ∧ WellFormed numCmp sampleEvents ∧
    InRange numCmp sampleEvents g!"6" ∧ ¬ InRange numCmp sampleEvents g!"4" :=
  ⟨numCmp_laws, sampleEvents_wf, by decide, by decide⟩

/-- Without separation the order of the listed events matters: an introduction and a fix at the same
version give different answers depending on which is listed first, although the version order is lawful. -/
theorem C01_ties_are_order_dependent :
    ∃ (sem : Sem) (evs evs' : List RangeEvent) (pkg : PackageDetails),
      CmpLaws (sem pkg.compareAs) ∧ (∀ e ∈ evs, Single e) ∧ evs.Perm evs' ∧
      ∀ S : Sorter, AffectsRange.containsVersion S sem ⟨g!"SEMVER", evs⟩ pkg ≠
        AffectsRange.containsVersion S sem ⟨g!"SEMVER", evs'⟩ pkg := by
  refine ⟨numSem, [evIntro g!"1", evFixed g!"1"], [evFixed g!"1", evIntro g!"1"],
    { name := g!"a", version := g!"2" }, numCmp_laws, ?_, List.Perm.swap _ _ _, ?_⟩
  · intro e he
    apply single_of_isSingle
    revert e; decide
  · intro S
    unfold AffectsRange.containsVersion
    rw [S.fixed _ [evIntro g!"1", evFixed g!"1"] (by decide),
      S.fixed _ [evFixed g!"1", evIntro g!"1"] (by decide)]
    decide

end Osv
