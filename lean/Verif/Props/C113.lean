import Verif.Props.C03
import Verif.Props.C08
import Verif.Lemmas.VersionOn
/-!
# C113: the laws of the comparison are needed for the versions that occur only

C01 and C03 for comparisons that are no total preorders on all texts (`pkg/database/osv.go:85-131`, `284-313`). `Props/C114` has one, with
a range and a package that meet the hypotheses.
-/
namespace Osv
open Spec

/-- If the comparison is a total preorder on some texts, and the version of the package and those of the events are among them, the range
contains the version exactly when it is in one of the intervals; whatever it makes of other texts, and whatever the order of the events. -/
theorem C113_range (S : Sorter) (sem : Sem) (r : AffectsRange) (pkg : PackageDetails) (good : Str → Prop) (older : Str → Str → Prop)
    (H : AgreesOn (sem pkg.compareAs) good older) (hv : good pkg.version) (he : ∀ e ∈ r.events, EventBy good e)
    (hs : ∀ e ∈ r.events, Single e) (ha : r.events.Pairwise (ApartBy older)) :
    r.containsVersion S sem pkg = true ↔ (r.type = g!"ECOSYSTEM" ∨ r.type = g!"SEMVER") ∧ IntervalBy older r.events pkg.version := by
  unfold AffectsRange.containsVersion
  rw [← versioned_iff]
  cases ht : r.versioned
  · simp
  · by_cases hn : r.events.length = 0
    · have : r.events = [] := List.length_eq_zero_iff.mp hn
      simp [IntervalBy, this]
    · simp only [Bool.not_true, Bool.false_eq_true, if_false, if_neg hn, true_and]
      exact H.contains S hv he hs ha

/-- So is an advisory one for the package exactly if it affects it by the order. -/
theorem C113_affected (S : Sorter) (sem : Sem) (pkg : PackageDetails) (good : Str → Prop) (older : Str → Str → Prop)
    (H : AgreesOn (sem pkg.compareAs) good older) (hv : good pkg.version) (o : OSV) (ho : RangesBy good older o) :
    o.isAffected S sem pkg = true ↔ AffectsBy older o pkg := by
  have range : ∀ a ∈ o.affected, ∀ r ∈ a.ranges, (r.containsVersion S sem pkg = true ↔ IntervalBy older r.events pkg.version) := by
    intro a ha r hr
    have h := ho a ha r hr
    rw [C113_range S sem r pkg good older H hv (fun e he => (h.2.1 e he).1) (fun e he => (h.2.1 e he).2) h.2.2]
    exact and_iff_right h.1
  rw [isAffected_iff]
  have hname : ∀ a : Affected, a.package.normalizedName = entryName a := fun a => normalizedName_eq _
  constructor
  · rintro ⟨a, ha, h1, h2, h3, h4⟩
    refine ⟨a, ha, h1, by rw [← hname]; exact h2, ?_⟩
    rcases h4 with h | h | h
    · exact .inl h
    · obtain ⟨r, hr, h⟩ := C08_only_matching_ranges S sem pkg a.ranges h
      exact .inr (.inl ⟨r, hr, (range a ha r hr).mp h⟩)
    · exact .inr (.inr ⟨h, h3⟩)
  · rintro ⟨a, ha, h1, h2, h⟩
    refine ⟨a, ha, h1, by rw [hname]; exact h2, ?_⟩
    rcases h with h | ⟨r, hr, hin⟩ | ⟨h, h3⟩
    · exact ⟨.inr (fun e => by rw [e] at h; simp at h), .inl h⟩
    · refine ⟨.inl (fun e => by rw [e] at hr; simp at hr), .inr (.inl ?_)⟩
      rw [(C08_union_partial S sem pkg a.ranges a.ranges (.refl _) (fun q hq => (ho a ha q hq).1)).1]
      exact ⟨r, hr, (range a ha r hr).mpr hin⟩
    · exact ⟨h3, .inr (.inr h)⟩

#print axioms C113_range
#print axioms C113_affected

end Osv
