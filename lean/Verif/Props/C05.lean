import Verif.Lemmas.MemDB
import Verif.Props.C07
/-! # C05 The package-name filter never hides a vulnerability -/
namespace Osv
open Spec

/-- Loading with a list of package names gives, for every package whose name is in the list, exactly the
result of loading the full database. -/
theorem C05_filter_transparent (S : Sorter) (sem : Sem) (os : List OSV) (names : List Str)
    (pkg : PackageDetails) (h : pkg.name ∈ names) :
    (MemDB.loadAll os names).vulnerabilitiesAffectingPackage S sem pkg =
      (MemDB.loadAll os []).vulnerabilitiesAffectingPackage S sem pkg := by
  rw [affecting_loadAll, affecting_loadAll]
  congr 1
  unfold filed
  rw [List.filter_flatMap, List.filter_flatMap]
  congr 1
  funext o
  have h0 : ¬ ((decide (([] : List Str).length ≠ 0) && !mightAffectPackages o []) = true) := by simp
  rw [if_neg h0]
  split
  · rename_i hc
    -- dropped by the filter: then it does not affect the package
    have hna : o.isAffected S sem pkg = false := by
      rw [← Bool.not_eq_true]
      intro ha
      obtain ⟨a, ha', -, hn, -, -⟩ := (isAffected_iff S sem o pkg).mp ha
      simp only [Bool.and_eq_true, Bool.not_eq_true'] at hc
      have : mightAffectPackages o names = true := by
        unfold mightAffectPackages
        rw [List.any_eq_true]
        exact ⟨a, ha', by rw [hn]; simpa using h⟩
      rw [this] at hc
      exact absurd hc.2 (by decide)
    symm
    rw [List.filter_nil, List.filter_eq_nil_iff]
    intro x hx
    rw [List.mem_map] at hx
    obtain ⟨_, _, rfl⟩ := hx
    simp [hna]
  · rfl

/-- Whole checks agree when every package's name is in the list, as in `main.go` where the list is made of
the names of all packages being checked. -/
theorem C05_check_transparent (S : Sorter) (sem : Sem) (os : List OSV) (pkgs : List PackageDetails)
    (names : List Str) (h : ∀ p ∈ pkgs, p.name ∈ names) :
    (MemDB.loadAll os names).check S sem pkgs = (MemDB.loadAll os []).check S sem pkgs := by
  unfold MemDB.check
  apply List.map_congr_left
  intro p hp
  exact C05_filter_transparent S sem os names p (h p hp)

example : let p : PackageDetails := { name := g!"foo", version := g!"1", ecosystem := g!"npm" }
    p.name ∈ [g!"bar", g!"foo"] ∧
    (MemDB.loadAll [{ id := g!"A", affected := [{ package := ⟨g!"foo", g!"npm"⟩, versions := [g!"1"] }] },
        { id := g!"B", affected := [{ package := ⟨g!"baz", g!"npm"⟩, versions := [g!"1"] }] }]
      [g!"bar", g!"foo"]).vulnerabilities.length = 1 := by decide

end Osv
