import Verif.Lemmas.Merge
import Verif.Spec.RunSamples
/-! # C25 Merging results of several databases -/
namespace Osv
open Spec

/-- No two vulnerabilities of a package, reported or ignored, share an ID or an alias. -/
theorem C25_no_duplicates (pkg : PackageDetails) (ig : List Str) (i : Nat) (all : List (List (List OSV))) :
    let res := transposePkgResults pkg ig i all
    (res.vulnerabilities ++ res.ignored).Pairwise (fun a b => ¬ Related a b) := by
  rw [transpose_eq]
  have h := (uniqueVulns_spec (returned i all)).2.1
  dsimp only
  generalize uniqueVulns (returned i all) = u at *
  refine List.pairwise_append.2 ⟨h.sublist List.filter_sublist, h.sublist List.filter_sublist, ?_⟩
  intro a ha b hb hr
  have ha' := List.mem_filter.1 ha
  have hb' := List.mem_filter.1 hb
  have hne : a ≠ b := by rintro rfl; rw [hb'.2] at ha'; simp at ha'
  exact pairwise_forall (fun a b hab hba => hab (Related.symm hba)) h ha'.1 hb'.1 hne hr

/-- Every vulnerability of a package was returned by some database for this package. -/
theorem C25_sound (pkg : PackageDetails) (ig : List Str) (i : Nat) (all : List (List (List OSV))) :
    let res := transposePkgResults pkg ig i all
    ∀ v ∈ res.vulnerabilities ++ res.ignored, ∃ r ∈ all, ∃ vs, r[i]? = some vs ∧ v ∈ vs := by
  intro res v hv
  have hv' : v ∈ uniqueVulns (returned i all) := by
    simp only [res, transpose_eq, List.mem_append, List.mem_filter] at hv
    rcases hv with h | h <;> exact h.1
  have := (uniqueVulns_spec (returned i all)).1.subset hv'
  obtain ⟨r, hr, hvr⟩ := List.mem_flatMap.1 this
  refine ⟨r, hr, ?_⟩
  rw [List.getD_eq_getElem?_getD] at hvr
  cases h : r[i]? with
  | none => rw [h] at hvr; cases hvr
  | some vs => rw [h] at hvr; exact ⟨vs, rfl, hvr⟩

/-- Every returned vulnerability, or one sharing an ID or alias with it, is in the result. -/
theorem C25_complete (pkg : PackageDetails) (ig : List Str) (i : Nat) (all : List (List (List OSV))) :
    let res := transposePkgResults pkg ig i all
    ∀ r ∈ all, ∀ vs, r[i]? = some vs → ∀ v ∈ vs, ∃ o ∈ res.vulnerabilities ++ res.ignored, Related o v := by
  intro res r hr vs hvs v hv
  have : v ∈ returned i all :=
    List.mem_flatMap.2 ⟨r, hr, by rw [List.getD_eq_getElem?_getD, hvs]; exact hv⟩
  obtain ⟨o, ho, hrel⟩ := (uniqueVulns_spec (returned i all)).2.2 v this
  refine ⟨o, ?_, hrel⟩
  simp only [res, transpose_eq, List.mem_append, List.mem_filter]
  cases ig.contains o.id <;> simp [ho]

/-- Two databases returning an advisory and its alias: the first wins. -/
example : transposePkgResults (samplePkg g!"m" g!"Go") [] 0 [[[sampleB]], [[sampleA, sampleC]]] =
    ⟨samplePkg g!"m" g!"Go", [sampleB, sampleC], []⟩ := by decide

end Osv
