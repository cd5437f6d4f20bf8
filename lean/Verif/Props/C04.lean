import Verif.Lemmas.MemDB
import Verif.Spec.Samples
/-! # C04 No duplicate vulnerabilities per package -/
namespace Osv
open Spec

/-- No two vulnerabilities reported for a package by a local database share an ID or an alias, for every
load sequence and every alias graph. -/
theorem C04_no_duplicates (S : Sorter) (sem : Sem) (os : List OSV) (names : List Str) (pkg : PackageDetails) :
    ((MemDB.loadAll os names).vulnerabilitiesAffectingPackage S sem pkg).Pairwise
      (fun a b => ¬ Related a b) := by
  rw [affecting_loadAll]
  exact (uniqueVulns_spec _).2.1

/-- The reported IDs are pairwise different. -/
theorem C04_ids_nodup (S : Sorter) (sem : Sem) (os : List OSV) (names : List Str) (pkg : PackageDetails) :
    (((MemDB.loadAll os names).vulnerabilitiesAffectingPackage S sem pkg).map (·.id)).Nodup := by
  rw [List.Nodup, List.pairwise_map]
  exact (C04_no_duplicates S sem os names pkg).imp fun h e => h (.inl e)

/-- An advisory that lists the same package several times is reported once; of two advisories that are
aliases of each other only the first loaded is. -/
example : let e : Affected := { package := ⟨g!"foo", g!"npm"⟩, versions := [g!"1"] }
    let o1 : OSV := { id := g!"A", affected := [e, e] }
    let o2 : OSV := { id := g!"B", aliases := [g!"A"], affected := [e] }
    let pkg : PackageDetails := { name := g!"foo", version := g!"1", ecosystem := g!"npm" }
    ((MemDB.loadAll [o1, o2] []).vulnerabilitiesAffectingPackage Sorter.insertion numSem pkg).map (·.id)
      = [g!"A"] := by decide

end Osv
