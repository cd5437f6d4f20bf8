import Verif.Lemmas.OsvPanic
import Verif.Spec.Compare
import Verif.Spec.Samples
import Verif.Props.C09
/-!
# C62 Checking against a local database never crashes

`semantic.MustParse` panics if the ecosystem is not supported or a version is not valid. `parses eco v` says which pairs it accepts.
The ecosystem of a package comes from the user for packages given as CSV; versions come from advisories and lockfiles.
-/
namespace Osv
open Spec

/-- The full claim: no sequence of checks against any local database panics. -/
def C62_full : Prop :=
  ∀ (S : Sorter) (T : PanicSorter S) (parses : Ecosystem → Str → Bool) (sem : Sem) (os : List OSV) (names : List Str)
    (ps : List PackageDetails), (HeapDB.load os names).checkP T parses sem ps ≠ none

namespace Cmp

theorem hasVersions_iff (r : AffectsRange) : r.versioned = true ↔ HasVersions r := versioned_iff r

theorem for_iff (p : PackageDetails) (a : Affected) : For p a ↔ EntryFor a p := by
  unfold For EntryFor
  rw [Bool.and_eq_true, areEcosystemsEqual_iff, decide_eq_true_iff, normalizedName_eq]
  rfl

theorem needs_iff (p : PackageDetails) (a : Affected) : Needs p a ↔ NeedsComparison a p := by
  unfold Needs NeedsComparison Reaches
  simp only [for_iff, hasVersions_iff]

theorem decided_iff (p : PackageDetails) (a : Affected) : Decided p a ↔ Listed a p := by
  unfold Decided Listed
  rw [for_iff]

theorem compares_iff (os : List OSV) (p : PackageDetails) :
    (∃ o ∈ filed [] p.key os, NeedsOsv p o) ↔ ∃ o ∈ os, ComparesVersions o p := by
  have hk : ∀ a : Affected, a.key = p.key ↔
      ecoBase a.package.ecosystem ++ g!"-" ++ entryName a = p.ecosystem ++ g!"-" ++ p.name := by
    intro a
    unfold Affected.key PackageDetails.key
    rw [normalizedEcosystem_eq, normalizedName_eq]
    exact Iff.rfl
  constructor
  · rintro ⟨o, ho, hw, pre, a, post, h1, h2, h3⟩
    obtain ⟨h4, -, b, hb, h5⟩ := mem_filed.mp ho
    exact ⟨o, h4, hw, ⟨b, hb, (hk b).mp h5⟩, pre, a, post, h1, fun x hx => fun hh => h2 x hx ((decided_iff p x).mpr hh),
      (needs_iff p a).mp h3⟩
  · rintro ⟨o, ho, hw, ⟨b, hb, h5⟩, pre, a, post, h1, h2, h3⟩
    exact ⟨o, mem_filed.mpr ⟨ho, .inl rfl, b, hb, (hk b).mpr h5⟩, hw, pre, a, post, h1,
      fun x hx => fun hh => h2 x hx ((decided_iff p x).mp hh), (needs_iff p a).mpr h3⟩

end Cmp

/-- If all versions that could be compared are valid then no check panics, and the results are those of the model without panics,
in every history. Missing: invalid versions and unsupported ecosystems, for which see `C62_unparsable_iff` and
`C62_supported_iff`. -/
theorem C62_partial (S : Sorter) (T : PanicSorter S) (parses : Ecosystem → Str → Bool) (sem : Sem) (os : List OSV)
    (names : List Str) (ps : List PackageDetails) (h : ∀ p ∈ ps, ∀ o ∈ os, Comparable parses p o) :
    (HeapDB.load os names).checkP T parses sem ps = some ((HeapDB.load os names).check S sem ps) := by
  refine Cmp.check_ok T parses sem ps _ (heapSim_refl (fun r => ⟨rfl, .refl _⟩) _) ?_
  intro p hp i
  show Cmp.OsvOk parses p (os.getD i default)
  rw [List.getD_eq_getElem?_getD]
  cases hx : os[i]? with
  | none => intro a ha; simp [default] at ha
  | some o =>
    intro a ha hf r hr hv he
    exact h p hp o (List.mem_of_getElem? hx) a ha ((Cmp.for_iff p a).mp hf) r hr ((Cmp.hasVersions_iff r).mp hv) he

/-- A package whose version is not valid panics exactly if a loaded advisory makes the check compare versions. -/
theorem C62_unparsable_iff (S : Sorter) (T : PanicSorter S) (parses : Ecosystem → Str → Bool) (sem : Sem) (os : List OSV)
    (pkg : PackageDetails) (hp : parses pkg.compareAs pkg.version = false) :
    (HeapDB.load os []).checkP T parses sem [pkg] = none ↔ ∃ o ∈ os, ComparesVersions o pkg := by
  rw [← Cmp.compares_iff, ← (Cmp.affecting_bad T parses sem hp os [] (HeapDB.load os [])
    (heapSim_refl (fun r => ⟨rfl, .refl _⟩) _) rfl).1]
  simp only [HeapDB.checkP]
  cases (HeapDB.load os []).affectingP T parses sem pkg <;> simp

/-- If the ecosystem alone decides whether versions are valid, then a check panics exactly if one of the packages has an unsupported
ecosystem and a loaded advisory makes the check compare its version. -/
theorem C62_supported_iff (S : Sorter) (T : PanicSorter S) (supported : Ecosystem → Bool) (sem : Sem) (os : List OSV)
    (ps : List PackageDetails) :
    (HeapDB.load os []).checkP T (fun eco _ => supported eco) sem ps = none ↔
      ∃ p ∈ ps, supported p.compareAs = false ∧ ∃ o ∈ os, ComparesVersions o p := by
  rw [Cmp.check_supported T sem supported os [] ps _ (heapSim_refl (fun r => ⟨rfl, .refl _⟩) _) rfl]
  simp only [Cmp.compares_iff]

/-- An entry for an ecosystem that the comparison does not know. -/
def C62_entry : Affected :=
  ⟨⟨g!"actions/checkout", g!"GitHub Actions"⟩, [], [⟨g!"ECOSYSTEM", [evIntro g!"0", evFixed g!"3"]⟩]⟩

def C62_sample : OSV := { id := g!"GHSA-1", affected := [C62_entry] }

def C62_package : PackageDetails :=
  ⟨g!"actions/checkout", g!"2", [], g!"GitHub Actions", g!"GitHub Actions"⟩

theorem Cmp.sample_compares : ComparesVersions C62_sample C62_package :=
  ⟨rfl, ⟨C62_entry, List.mem_singleton.mpr rfl, by decide⟩, [], C62_entry, [], rfl, by simp, ⟨by decide, by decide⟩, by decide,
    [], ⟨g!"ECOSYSTEM", [evIntro g!"0", evFixed g!"3"]⟩, [], rfl, by simp, .inl rfl, by simp⟩

/-- A package of an ecosystem that is not supported crashes the program, for every sort routine, as soon as an advisory has a range
for it. -/
theorem C62_counterexample : ¬ C62_full := by
  intro h
  refine h Sorter.insertion PanicSorter.insertion (fun eco _ => decide (eco = g!"npm")) numSem [C62_sample] [] [C62_package] ?_
  rw [C62_supported_iff _ _ (fun eco => decide (eco = g!"npm"))]
  exact ⟨C62_package, by simp, by decide, C62_sample, by simp, Cmp.sample_compares⟩

/-- The hypothesis of the partial theorem is satisfiable. -/
example : Comparable (fun eco _ => decide (eco = g!"npm"))
    { name := g!"foo", version := g!"6", ecosystem := g!"npm", compareAs := g!"npm" }
    { id := g!"A", affected := [{ package := ⟨g!"foo", g!"npm"⟩, ranges := [⟨g!"SEMVER", sampleEvents⟩] }] } :=
  fun _ _ _ _ _ _ _ => ⟨by decide, fun _ _ _ => rfl⟩

/-- And that of the characterisations: an advisory with a comparison after an entry for another package. -/
example : ComparesVersions
    { id := g!"A", affected := [⟨⟨g!"bar", g!"npm"⟩, [g!"6"], []⟩,
      ⟨⟨g!"foo", g!"npm"⟩, [], [⟨g!"SEMVER", []⟩, ⟨g!"SEMVER", sampleEvents⟩, ⟨g!"GIT", []⟩]⟩] }
    { name := g!"foo", version := g!"6", ecosystem := g!"npm", compareAs := g!"npm" } := by
  refine ⟨rfl, ⟨⟨⟨g!"foo", g!"npm"⟩, [], [⟨g!"SEMVER", []⟩, ⟨g!"SEMVER", sampleEvents⟩, ⟨g!"GIT", []⟩]⟩, by simp, by decide⟩,
    [⟨⟨g!"bar", g!"npm"⟩, [g!"6"], []⟩], _, [], rfl, ?_, ⟨by decide, by decide⟩, by decide,
    [⟨g!"SEMVER", []⟩], ⟨g!"SEMVER", sampleEvents⟩, _, rfl, ?_, .inr rfl, by decide⟩
  · intro b hb
    rw [List.mem_singleton.mp hb]
    rintro ⟨⟨-, h⟩, -⟩
    revert h; decide
  · intro q hq
    rw [List.mem_singleton.mp hq]
    exact ⟨.inr rfl, rfl⟩

end Osv
