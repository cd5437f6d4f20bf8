import Verif.Lemmas.MemDB
import Verif.Spec.Samples
/-! # C06 Withdrawn advisories are never reported by local databases -/
namespace Osv
open Spec

/-- No reported vulnerability is withdrawn. -/
theorem C06_never_reported (S : Sorter) (sem : Sem) (os : List OSV) (names : List Str) (pkg : PackageDetails) :
    ∀ o ∈ (MemDB.loadAll os names).vulnerabilitiesAffectingPackage S sem pkg, o.withdrawn = none := by
  intro o h
  rw [affecting_loadAll] at h
  have h1 := (uniqueVulns_spec _).1.mem h
  rw [List.mem_filter] at h1
  simp only [Bool.and_eq_true, Option.isNone_iff_eq_none] at h1
  exact h1.2.1

/-- Withdrawn advisories suppress nothing: the result is the same as if they were not in the database. -/
theorem C06_never_suppresses (S : Sorter) (sem : Sem) (os : List OSV) (names : List Str)
    (pkg : PackageDetails) :
    (MemDB.loadAll os names).vulnerabilitiesAffectingPackage S sem pkg =
      (MemDB.loadAll (os.filter fun o => o.withdrawn.isNone) names).vulnerabilitiesAffectingPackage S sem pkg := by
  rw [affecting_loadAll, affecting_loadAll]
  congr 1
  unfold filed
  induction os with
  | nil => rfl
  | cons o os ih =>
    rw [List.flatMap_cons, List.filter_append, List.filter_cons, ih]
    cases h : o.withdrawn with
    | none => simp [List.filter_append]
    | some w =>
      simp only [Option.isNone_some, Bool.false_eq_true, if_false]
      rw [List.append_left_eq_self, List.filter_eq_nil_iff]
      intro x hx
      have : x = o := by
        split at hx
        · simp at hx
        · rw [List.mem_map] at hx
          obtain ⟨_, _, rfl⟩ := hx; rfl
      subst this
      simp [h]

example : let e : Affected := { package := ⟨g!"foo", g!"npm"⟩, versions := [g!"1"] }
    let pkg : PackageDetails := { name := g!"foo", version := g!"1", ecosystem := g!"npm" }
    ((MemDB.loadAll [{ id := g!"A", withdrawn := some g!"2020", affected := [e] },
        { id := g!"B", aliases := [g!"A"], affected := [e] }]
      []).vulnerabilitiesAffectingPackage Sorter.insertion numSem pkg).map (·.id) = [g!"B"] := by decide

end Osv
