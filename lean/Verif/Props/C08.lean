import Verif.Props.C01
import Verif.Props.C07
import Verif.Spec.Vulns
/-!
# C08 Any matching version range is enough

The full statement: for every entry `a` of the advisory that is for the package, if some range `r ∈ a.ranges`
contains the version then `o.isAffected`.  It is false: `affectsVersion` returns false at the first range
that is not ECOSYSTEM or SEMVER (for example GIT), hiding the later ones.
-/
namespace Osv
open Spec

/-- `affectsVersion` is true exactly when some range contains the version and no range of another type comes
before it. -/
theorem affectsVersion_iff (S : Sorter) (sem : Sem) (pkg : PackageDetails) (rs : List AffectsRange) :
    affectsVersion S sem pkg rs = true ↔
      ∃ pre r post, rs = pre ++ r :: post ∧ (∀ q ∈ pre, q.versioned = true) ∧
        r.containsVersion S sem pkg = true := by
  induction rs with
  | nil => simp [affectsVersion]
  | cons q rs ih =>
    unfold affectsVersion
    cases hq : q.versioned with
    | false =>
      simp only [Bool.not_false, if_true, Bool.false_eq_true, false_iff]
      rintro ⟨pre, r, post, h1, h2, h3⟩
      cases pre with
      | nil =>
        simp only [List.nil_append, List.cons.injEq] at h1
        rw [h1.1] at hq
        simp [AffectsRange.containsVersion, hq] at h3
      | cons x pre =>
        simp only [List.cons_append, List.cons.injEq] at h1
        have := h2 x (by simp)
        rw [← h1.1, hq] at this; cases this
    | true =>
      simp only [Bool.not_true, Bool.false_eq_true, if_false]
      split
      · rename_i hc
        simp only [true_iff]
        exact ⟨[], q, rs, rfl, by simp, hc⟩
      · rename_i hc
        rw [ih]
        constructor
        · rintro ⟨pre, r, post, h1, h2, h3⟩
          refine ⟨q :: pre, r, post, by simp [h1], ?_, h3⟩
          intro x hx
          rcases List.mem_cons.mp hx with rfl | hx
          · exact hq
          · exact h2 x hx
        · rintro ⟨pre, r, post, h1, h2, h3⟩
          cases pre with
          | nil =>
            simp only [List.nil_append, List.cons.injEq] at h1
            rw [← h1.1] at h3; exact absurd h3 hc
          | cons x pre =>
            simp only [List.cons_append, List.cons.injEq] at h1
            exact ⟨pre, r, post, h1.2, fun y hy => h2 y (List.mem_cons_of_mem _ hy), h3⟩

/-- Partial: the statement holds when no range of another type precedes the matching one. Missing: entries
where a GIT (or unknown) range comes first, for which it is false (`C08_git_range_hides_others`). -/
theorem C08_any_range_partial (S : Sorter) (sem : Sem) (o : OSV) (a : Affected) (pkg : PackageDetails)
    (pre post : List AffectsRange) (r : AffectsRange)
    (ha : a ∈ o.affected) (he : EcoMatch a.package.ecosystem pkg.ecosystem)
    (hn : a.package.normalizedName = pkg.name) (hr : a.ranges = pre ++ r :: post)
    (hpre : ∀ q ∈ pre, q.type = g!"ECOSYSTEM" ∨ q.type = g!"SEMVER")
    (hin : r.containsVersion S sem pkg = true) :
    o.isAffected S sem pkg = true := by
  refine (isAffected_iff S sem o pkg).mpr ⟨a, ha, he, hn, .inl (by simp [hr]), .inr (.inl ?_)⟩
  exact (affectsVersion_iff S sem pkg a.ranges).mpr
    ⟨pre, r, post, hr, fun q hq => (versioned_iff q).mpr (hpre q hq), hin⟩

/-- When all ranges are versioned, the ranges are a union: an entry's ranges match exactly when one of them
contains the version, in whatever order they are listed. -/
theorem C08_union_partial (S : Sorter) (sem : Sem) (pkg : PackageDetails) (rs rs' : List AffectsRange)
    (hp : rs.Perm rs') (hv : ∀ q ∈ rs, q.type = g!"ECOSYSTEM" ∨ q.type = g!"SEMVER") :
    (affectsVersion S sem pkg rs = true ↔ ∃ r ∈ rs, r.containsVersion S sem pkg = true) ∧
    affectsVersion S sem pkg rs = affectsVersion S sem pkg rs' := by
  have key : ∀ l : List AffectsRange, (∀ q ∈ l, q.type = g!"ECOSYSTEM" ∨ q.type = g!"SEMVER") →
      (affectsVersion S sem pkg l = true ↔ ∃ r ∈ l, r.containsVersion S sem pkg = true) := by
    intro l hl
    rw [affectsVersion_iff]
    constructor
    · rintro ⟨pre, r, post, rfl, -, h⟩; exact ⟨r, by simp, h⟩
    · rintro ⟨r, hr, h⟩
      obtain ⟨pre, post, rfl⟩ := List.append_of_mem hr
      exact ⟨pre, r, post, rfl, fun q hq => (versioned_iff q).mpr (hl q (by simp [hq])), h⟩
  refine ⟨key rs hv, ?_⟩
  rw [Bool.eq_iff_iff, key rs hv, key rs' (fun q hq => hv q (hp.mem_iff.mpr hq))]
  simp only [hp.mem_iff]

/-- The exact rule of the program, where the events of the ECOSYSTEM and SEMVER ranges are in order: an entry for the package
matches if it lists the version, if one of its ranges contains the version and no range of another type comes before it, or
if the package has no version. -/
theorem C08_exact (S : Sorter) (sem : Sem) (o : OSV) (pkg : PackageDetails) (hc : CmpLaws (sem pkg.compareAs))
    (hw : ∀ a ∈ o.affected, ∀ r ∈ a.ranges, (r.type = g!"ECOSYSTEM" ∨ r.type = g!"SEMVER") →
      WellFormed (sem pkg.compareAs) r.events) :
    o.isAffected S sem pkg = true ↔
      ∃ a ∈ o.affected, EcoMatch a.package.ecosystem pkg.ecosystem ∧ entryName a = pkg.name ∧
        (pkg.version ∈ a.versions ∨
          (∃ pre r post, a.ranges = pre ++ r :: post ∧
            (∀ q ∈ pre ++ [r], q.type = g!"ECOSYSTEM" ∨ q.type = g!"SEMVER") ∧
            InRange (sem pkg.compareAs) r.events pkg.version) ∨
          (pkg.version = [] ∧ (a.ranges ≠ [] ∨ a.versions ≠ []))) := by
  rw [isAffected_iff]
  have hname : ∀ a : Affected, a.package.normalizedName = entryName a := fun a => normalizedName_eq _
  have key : ∀ a ∈ o.affected, affectsVersion S sem pkg a.ranges = true ↔
      ∃ pre r post, a.ranges = pre ++ r :: post ∧ (∀ q ∈ pre ++ [r], q.type = g!"ECOSYSTEM" ∨ q.type = g!"SEMVER") ∧
        InRange (sem pkg.compareAs) r.events pkg.version := by
    intro a ha
    rw [affectsVersion_iff]
    constructor
    · rintro ⟨pre, r, post, h1, h2, h3⟩
      have hr : r ∈ a.ranges := by simp [h1]
      have ht : r.type = g!"ECOSYSTEM" ∨ r.type = g!"SEMVER" := by
        rw [← versioned_iff]
        cases hv : r.versioned with
        | true => rfl
        | false => simp [AffectsRange.containsVersion, hv] at h3
      refine ⟨pre, r, post, h1, fun q hq => ?_, ((C01_range_intervals S sem r pkg hc (hw a ha r hr ht)).1 h3).2⟩
      rcases List.mem_append.1 hq with hq | hq
      · exact (versioned_iff q).1 (h2 q hq)
      · rw [List.mem_singleton.1 hq]; exact ht
    · rintro ⟨pre, r, post, h1, h2, h3⟩
      have hr : r ∈ a.ranges := by simp [h1]
      have ht := h2 r (by simp)
      exact ⟨pre, r, post, h1, fun q hq => (versioned_iff q).2 (h2 q (by simp [hq])),
        (C01_range_intervals S sem r pkg hc (hw a ha r hr ht)).2 ⟨ht, h3⟩⟩
  constructor
  · rintro ⟨a, ha, h1, h2, h3, h4⟩
    refine ⟨a, ha, h1, by rw [← hname]; exact h2, ?_⟩
    rcases h4 with h | h | h
    · exact .inl h
    · exact .inr (.inl ((key a ha).1 h))
    · exact .inr (.inr ⟨h, h3⟩)
  · rintro ⟨a, ha, h1, h2, h⟩
    refine ⟨a, ha, h1, by rw [hname]; exact h2, ?_⟩
    rcases h with h | h | ⟨h, h'⟩
    · exact ⟨.inr (List.ne_nil_of_mem h), .inl h⟩
    · refine ⟨.inl ?_, .inr (.inl ((key a ha).2 h))⟩
      obtain ⟨pre, r, post, h, _⟩ := h
      simp [h]
    · exact ⟨h', .inr (.inr h)⟩

/-- A range never matches by accident: if the ranges match then one of them contains the version. -/
theorem C08_only_matching_ranges (S : Sorter) (sem : Sem) (pkg : PackageDetails) (rs : List AffectsRange)
    (h : affectsVersion S sem pkg rs = true) : ∃ r ∈ rs, r.containsVersion S sem pkg = true := by
  obtain ⟨pre, r, post, rfl, -, h⟩ := (affectsVersion_iff S sem pkg rs).mp h
  exact ⟨r, by simp, h⟩

/-- The full statement is false: with a GIT range listed first, a package whose version is in a SEMVER range
of the entry is not affected. Holds for every sort routine. -/
theorem C08_git_range_hides_others :
    ∃ (sem : Sem) (o : OSV) (a : Affected) (r : AffectsRange) (pkg : PackageDetails),
      a ∈ o.affected ∧ r ∈ a.ranges ∧ EcoMatch a.package.ecosystem pkg.ecosystem ∧
      a.package.normalizedName = pkg.name ∧ r.type = g!"SEMVER" ∧
      CmpLaws (sem pkg.compareAs) ∧ InRange (sem pkg.compareAs) r.events pkg.version ∧
      ∀ S : Sorter, r.containsVersion S sem pkg = true ∧ o.isAffected S sem pkg = false := by
  let r : AffectsRange := ⟨g!"SEMVER", [evIntro g!"0", evFixed g!"3"]⟩
  let git : AffectsRange := ⟨g!"GIT", [evIntro g!"0"]⟩
  let a : Affected := { package := ⟨g!"foo", g!"npm"⟩, ranges := [git, r] }
  let pkg : PackageDetails := { name := g!"foo", version := g!"2", ecosystem := g!"npm", compareAs := g!"npm" }
  refine ⟨numSem, { id := g!"OSV-1", affected := [a] }, a, r, pkg, by simp, by simp [a], by decide, by decide,
    rfl, numCmp_laws, by decide, fun S => ⟨?_, ?_⟩⟩
  · unfold AffectsRange.containsVersion
    rw [show r.events = [evIntro g!"0", evFixed g!"3"] from rfl,
      S.fixed _ [evIntro g!"0", evFixed g!"3"] (by decide)]
    decide
  · have h : affectsVersion S numSem pkg a.ranges = false := by
      simp [affectsVersion, a, git, AffectsRange.versioned, typeEcosystem, typeSemver]
    simp [OSV.isAffected, Affected.matchesPkg, h, a, pkg]

/-- The full claim: a version in any ECOSYSTEM or SEMVER range of an entry for the package is affected. -/
def C08_full : Prop :=
  ∀ (S : Sorter) (sem : Sem) (o : OSV) (a : Affected) (r : AffectsRange) (pkg : PackageDetails),
    CmpLaws (sem pkg.compareAs) → a ∈ o.affected → r ∈ a.ranges → EcoMatch a.package.ecosystem pkg.ecosystem →
    entryName a = pkg.name → (r.type = g!"ECOSYSTEM" ∨ r.type = g!"SEMVER") → WellFormed (sem pkg.compareAs) r.events →
    InRange (sem pkg.compareAs) r.events pkg.version → o.isAffected S sem pkg = true

theorem C08_counterexample : ¬ C08_full := by
  intro h
  let r : AffectsRange := ⟨g!"SEMVER", [evIntro g!"0", evFixed g!"3"]⟩
  let git : AffectsRange := ⟨g!"GIT", [evIntro g!"0"]⟩
  let a : Affected := { package := ⟨g!"foo", g!"npm"⟩, ranges := [git, r] }
  let pkg : PackageDetails := { name := g!"foo", version := g!"2", ecosystem := g!"npm", compareAs := g!"npm" }
  have hw : WellFormed numCmp r.events := by
    refine ⟨?_, ?_⟩
    · intro e he
      simp only [r, List.mem_cons, List.not_mem_nil, or_false] at he
      rcases he with rfl | rfl
      · exact .introduced _ (by decide)
      · exact .fixed _ (by decide)
    · exact List.pairwise_cons.mpr ⟨fun b hb => separated_of_ne _ _ _ (by
        rw [List.mem_singleton.mp hb]; unfold DifferentVersions; decide), List.pairwise_singleton _ _⟩
  have h1 := h Sorter.insertion numSem { id := g!"OSV-1", affected := [a] } a r pkg numCmp_laws (by simp) (by simp [a])
    (by decide) (by decide) (.inr rfl) hw (by decide)
  have h2 : affectsVersion Sorter.insertion numSem pkg a.ranges = false := by
    simp [affectsVersion, a, git, AffectsRange.versioned, typeEcosystem, typeSemver]
  simp [OSV.isAffected, Affected.matchesPkg, h2, a, pkg] at h1

/-- The partial theorem's hypotheses are satisfiable by an entry with several ranges. -/
example : let r : AffectsRange := ⟨g!"SEMVER", [evIntro g!"5"]⟩
    let pre : List AffectsRange := [⟨g!"ECOSYSTEM", [evIntro g!"1", evFixed g!"2"]⟩]
    (∀ q ∈ pre, q.type = g!"ECOSYSTEM" ∨ q.type = g!"SEMVER") ∧
    r.containsVersion Sorter.insertion numSem { name := g!"foo", version := g!"6" } = true := by decide

end Osv
