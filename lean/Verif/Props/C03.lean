import Verif.Lemmas.MemDB
import Verif.Props.C07
import Verif.Props.C08
/-!
# C03 Local database check is sound and complete

Full statement of completeness: for every load sequence `os` and package `pkg`, every non-withdrawn `o ∈ os`
with `o.isAffected pkg` is related to a reported advisory.  It is false for packages whose ecosystem has a
suffix (`Debian:11`): advisories are filed under the ecosystem without suffix, but looked up with it.
-/
namespace Osv
open Spec

/-- Soundness: only loaded, non-withdrawn advisories that affect the package are reported. -/
theorem C03_sound (S : Sorter) (sem : Sem) (os : List OSV) (names : List Str) (pkg : PackageDetails) (o : OSV)
    (h : o ∈ (MemDB.loadAll os names).vulnerabilitiesAffectingPackage S sem pkg) :
    o ∈ os ∧ o.withdrawn = none ∧ o.isAffected S sem pkg = true := by
  rw [affecting_loadAll] at h
  have h1 := (uniqueVulns_spec _).1.mem h
  rw [List.mem_filter, mem_filed] at h1
  simp only [Bool.and_eq_true, Option.isNone_iff_eq_none] at h1
  exact ⟨h1.1.1, h1.2⟩

/-- Partial completeness, for packages whose ecosystem has no suffix: every loaded non-withdrawn advisory
that affects the package is reported, or a reported one shares an ID or alias with it. Missing: ecosystems
with a suffix, for which it is false (`C03_suffixed_ecosystem_never_matches`). -/
theorem C03_complete_partial (S : Sorter) (sem : Sem) (os : List OSV) (pkg : PackageDetails) (o : OSV)
    (heco : ':' ∉ pkg.ecosystem) (ho : o ∈ os) (hw : o.withdrawn = none)
    (ha : o.isAffected S sem pkg = true) :
    ∃ r ∈ (MemDB.loadAll os []).vulnerabilitiesAffectingPackage S sem pkg, Related r o := by
  rw [affecting_loadAll]
  apply (uniqueVulns_spec _).2.2
  rw [List.mem_filter, mem_filed]
  obtain ⟨a, ha', he, hn, -, -⟩ := (isAffected_iff S sem o pkg).mp ha
  exact ⟨⟨ho, .inl rfl, a, ha', key_of_match a pkg heco he hn⟩, by simp [hw, ha]⟩

theorem isAffected_iff_affects (S : Sorter) (sem : Sem) (o : OSV) (pkg : PackageDetails)
    (hc : CmpLaws (sem pkg.compareAs)) (hw : WellFormedOSV (sem pkg.compareAs) o) :
    o.isAffected S sem pkg = true ↔ Affects (sem pkg.compareAs) o pkg := by
  rw [isAffected_iff]
  have hname : ∀ a : Affected, a.package.normalizedName = entryName a := fun a => normalizedName_eq _
  constructor
  · rintro ⟨a, ha, h1, h2, h3, h4⟩
    refine ⟨a, ha, h1, by rw [← hname]; exact h2, ?_⟩
    rcases h4 with h | h | h
    · exact .inl h
    · obtain ⟨r, hr, h⟩ := C08_only_matching_ranges S sem pkg a.ranges h
      exact .inr (.inl ⟨r, hr, (C01_range_intervals S sem r pkg hc (hw a ha r hr).2).mp h⟩)
    · exact .inr (.inr ⟨h, h3⟩)
  · rintro ⟨a, ha, h1, h2, h⟩
    refine ⟨a, ha, h1, by rw [hname]; exact h2, ?_⟩
    rcases h with h | ⟨r, hr, ht, hin⟩ | ⟨h, h3⟩
    · exact ⟨.inr (fun e => by rw [e] at h; simp at h), .inl h⟩
    · refine ⟨.inl (fun e => by rw [e] at hr; simp at hr), .inr (.inl ?_)⟩
      rw [(C08_union_partial S sem pkg a.ranges a.ranges (.refl _) (fun q hq => (hw a ha q hq).1)).1]
      exact ⟨r, hr, (C01_range_intervals S sem r pkg hc (hw a ha r hr).2).mpr ⟨ht, hin⟩⟩
    · exact ⟨h3, .inr (.inr h)⟩

/-- End to end, against the independent specification: on well-formed advisories and for packages without an
ecosystem suffix, the reported advisories are loaded, not withdrawn and affect the package by the
specification, and every such advisory is covered by a reported one. -/
theorem C03_end_to_end_partial (S : Sorter) (sem : Sem) (os : List OSV) (pkg : PackageDetails)
    (heco : ':' ∉ pkg.ecosystem) (hc : CmpLaws (sem pkg.compareAs))
    (hw : ∀ o ∈ os, WellFormedOSV (sem pkg.compareAs) o) :
    (∀ o ∈ (MemDB.loadAll os []).vulnerabilitiesAffectingPackage S sem pkg,
      o ∈ os ∧ o.withdrawn = none ∧ Affects (sem pkg.compareAs) o pkg) ∧
    (∀ o ∈ os, o.withdrawn = none → Affects (sem pkg.compareAs) o pkg →
      ∃ r ∈ (MemDB.loadAll os []).vulnerabilitiesAffectingPackage S sem pkg, Related r o) := by
  constructor
  · intro o ho
    obtain ⟨h1, h2, h3⟩ := C03_sound S sem os [] pkg o ho
    exact ⟨h1, h2, (isAffected_iff_affects S sem o pkg hc (hw o h1)).mp h3⟩
  · intro o ho h1 h2
    exact C03_complete_partial S sem os pkg o heco ho h1
      ((isAffected_iff_affects S sem o pkg hc (hw o ho)).mpr h2)

/-- A package whose ecosystem has a suffix gets nothing from any database whose ecosystems contain no `-`
before the suffix. -/
theorem C03_suffix_finds_nothing (S : Sorter) (sem : Sem) (os : List OSV) (names : List Str)
    (pkg : PackageDetails) (base suffix : Str) (hp : pkg.ecosystem = base ++ ':' :: suffix)
    (hb : '-' ∉ base) :
    (MemDB.loadAll os names).vulnerabilitiesAffectingPackage S sem pkg = [] := by
  have hnone : filed names pkg.key os = [] := by
    rw [List.eq_nil_iff_forall_not_mem]
    intro o ho
    obtain ⟨-, -, a, -, hk⟩ := mem_filed.mp ho
    unfold Affected.key PackageDetails.key at hk
    rw [normalizedEcosystem_eq, hp] at hk
    have hcolon : ':' ∉ ecoBase a.package.ecosystem := by
      unfold ecoBase
      intro h
      have := List.all_eq_true.mp (List.all_takeWhile (l := a.package.ecosystem) (p := (· != ':'))) _ h
      simp at this
    generalize ecoBase a.package.ecosystem = e at hk hcolon
    -- compare the text before the first '-' and ':' on both sides
    clear ho hp
    induction e generalizing base with
    | nil =>
      cases base with
      | nil => simp at hk
      | cons c base => simp at hk; exact hb (by simp [← hk.1])
    | cons d e ih =>
      cases base with
      | nil => simp at hk; exact hcolon (by simp [hk.1])
      | cons c base =>
        simp only [List.cons_append, List.cons.injEq] at hk
        exact ih base (fun h => hb (by simp [h])) (by simpa using hk.2) (fun h => hcolon (by simp [h]))
  rw [affecting_loadAll, hnone]
  rfl

/-- Completeness is false for suffixed ecosystems: this loaded, non-withdrawn advisory affects the package,
but nothing is reported. -/
theorem C03_suffixed_ecosystem_never_matches :
    ∃ (os : List OSV) (o : OSV) (pkg : PackageDetails), o ∈ os ∧ o.withdrawn = none ∧
      (∀ S sem, o.isAffected S sem pkg = true) ∧
      ∀ S sem, (MemDB.loadAll os []).vulnerabilitiesAffectingPackage S sem pkg = [] := by
  let a : Affected := { package := ⟨g!"curl", g!"Debian:11"⟩, versions := [g!"7"] }
  let o : OSV := { id := g!"DSA-1", affected := [a] }
  let pkg : PackageDetails :=
    { name := g!"curl", version := g!"7", ecosystem := g!"Debian:11", compareAs := g!"Debian:11" }
  refine ⟨[o], o, pkg, by simp, rfl, ?_, ?_⟩
  · intro S sem
    exact C07_explicit_version S sem o a pkg (by simp [o]) (by decide) (by decide) (by decide)
  · intro S sem
    exact C03_suffix_finds_nothing S sem [o] [] pkg g!"Debian" g!"11" rfl (by decide)

/-- The full claim: on well-formed advisories the reported ones are those that are not withdrawn and affect the package, up to
advisories about the same vulnerability. -/
def C03_full : Prop :=
  ∀ (S : Sorter) (sem : Sem) (os : List OSV) (pkg : PackageDetails), CmpLaws (sem pkg.compareAs) →
    (∀ o ∈ os, WellFormedOSV (sem pkg.compareAs) o) →
    (∀ o ∈ (MemDB.loadAll os []).vulnerabilitiesAffectingPackage S sem pkg,
      o ∈ os ∧ o.withdrawn = none ∧ Affects (sem pkg.compareAs) o pkg) ∧
    (∀ o ∈ os, o.withdrawn = none → Affects (sem pkg.compareAs) o pkg →
      ∃ r ∈ (MemDB.loadAll os []).vulnerabilitiesAffectingPackage S sem pkg, Related r o)

theorem C03_counterexample : ¬ C03_full := by
  intro h
  let a : Affected := { package := ⟨g!"curl", g!"Debian:11"⟩, versions := [g!"7"] }
  let o : OSV := { id := g!"DSA-1", affected := [a] }
  let pkg : PackageDetails :=
    { name := g!"curl", version := g!"7", ecosystem := g!"Debian:11", compareAs := g!"Debian:11" }
  have hw : ∀ o' ∈ [o], WellFormedOSV numCmp o' := by
    intro o' ho' a' ha' r hr
    rw [List.mem_singleton.mp ho'] at ha'
    rw [List.mem_singleton.mp ha'] at hr
    cases hr
  have h1 := (h Sorter.insertion numSem [o] pkg numCmp_laws hw).2 o (by simp) rfl
    ⟨a, by simp [o], by decide, by decide, .inl (by simp [a, pkg])⟩
  rw [C03_suffix_finds_nothing _ numSem [o] [] pkg g!"Debian" g!"11" rfl (by decide)] at h1
  obtain ⟨r, hr, -⟩ := h1
  cases hr

/-- The hypotheses of the partial theorems are satisfiable. -/
example : let a : Affected := { package := ⟨g!"foo", g!"npm"⟩, ranges := [⟨g!"SEMVER", sampleEvents⟩] }
    let o : OSV := { id := g!"GHSA-1", affected := [a] }
    let pkg : PackageDetails := { name := g!"foo", version := g!"6", ecosystem := g!"npm", compareAs := g!"npm" }
    ':' ∉ pkg.ecosystem ∧ WellFormedOSV numCmp o ∧ Affects numCmp o pkg := by
  refine ⟨by decide, ?_, ?_⟩
  · intro a' ha' r hr
    simp at ha'
    subst ha'
    simp at hr
    subst hr
    exact ⟨.inr rfl, sampleEvents_wf⟩
  · exact ⟨_, List.mem_singleton.mpr rfl, by decide, by decide,
      .inr (.inl ⟨_, List.mem_singleton.mpr rfl, .inr rfl, by decide⟩)⟩

end Osv
