import Verif.Lemmas.Merge
import Verif.Lemmas.Run
import Verif.Spec.RunSamples
/-! # C27 A failing database does not lose the results of others -/
namespace Osv
open Spec

/-- The database answers the `n`-th check. -/
def DB.answers (db : DB) (n : Nat) (ps : List PackageDetails) : Bool :=
  match (db.check n ps).1 with
  | .ok _ => true
  | .error _ => false

/-- The report is exactly as if the failing databases were not configured. -/
theorem C27_report (n : Nat) (dbs : List DB) (r r' : RState) (lockf : Lockfile) (ig : List Str) :
    (checkLockfile n dbs r lockf ig).2 =
      (checkLockfile n (dbs.filter fun db => db.answers n lockf.packages) r' lockf ig).2 := by
  have key : (checkAll n lockf dbs r).2 = (checkAll n lockf (dbs.filter fun db => db.answers n lockf.packages) r').2 := by
    unfold checkAll
    rw [checkAll_results, checkAll_results]
    simp only [List.nil_append]
    rw [List.filterMap_filter]
    congr 1
    funext db
    unfold DB.answers DB.answer
    cases (db.check n lockf.packages).1 <;> simp
  unfold checkLockfile
  dsimp only
  rw [key]

/-- What the remaining databases returned for a package is in its report: every returned vulnerability, or one
sharing an ID or alias with it, is listed. -/
theorem C27_keeps_results (n : Nat) (dbs : List DB) (r : RState) (lockf : Lockfile) (ig : List Str) (db : DB)
    (hdb : db ∈ dbs) (results : List (List OSV)) (hok : (db.check n lockf.packages).1 = .ok results)
    (i : Nat) (pkg : PackageDetails) (hp : lockf.packages[i]? = some pkg) (vs : List OSV)
    (hvs : results[i]? = some vs) (v : OSV) (hv : v ∈ vs) :
    ∃ p, (checkLockfile n dbs r lockf ig).2.packages[i]? = some p ∧ p.pkg = pkg ∧
      ∃ o ∈ p.vulnerabilities ++ p.ignored, Related o v := by
  unfold checkLockfile
  dsimp only
  rw [List.getElem?_mapIdx, hp]
  refine ⟨transposePkgResults pkg ig i (checkAll n lockf dbs r).2, rfl, rfl, ?_⟩
  rw [transpose_eq]
  have hmem : results ∈ (checkAll n lockf dbs r).2 := by
    unfold checkAll
    rw [checkAll_results, List.nil_append, List.mem_filterMap]
    exact ⟨db, hdb, by rw [DB.answer, hok]⟩
  have : v ∈ returned i (checkAll n lockf dbs r).2 :=
    List.mem_flatMap.2 ⟨results, hmem, by rw [List.getD_eq_getElem?_getD, hvs]; exact hv⟩
  obtain ⟨o, ho, hrel⟩ := (uniqueVulns_spec _).2.2 v this
  refine ⟨o, ?_, hrel⟩
  simp only [List.mem_append, List.mem_filter]
  cases ig.contains o.id <;> simp [ho]

theorem warn_events (r : RState) (n : Str) (b : Bool) : ∃ es, (r.warn n b).events = r.events ++ es := by
  cases b
  · exact ⟨[], by simp [RState.warn]⟩
  · exact ⟨[.warning n], rfl⟩

/-- For every failing database an error is printed. -/
theorem C27_error_printed (n : Nat) (dbs : List DB) (r : RState) (lockf : Lockfile) (ig : List Str) (db : DB)
    (hdb : db ∈ dbs) (hfail : db.answers n lockf.packages = false) :
    .error (.dbCheck lockf.filePath db.name) ∈ (checkLockfile n dbs r lockf ig).1.events ∧
      (checkLockfile n dbs r lockf ig).1.hasErrored = true := by
  show _ ∈ (checkAll n lockf dbs r).1.events ∧ (checkAll n lockf dbs r).1.hasErrored = true
  unfold checkAll
  generalize ([] : List (List (List OSV))) = l0
  have hkeep : ∀ (dbs : List DB) (acc : RState × List (List (List OSV))),
      (.error (.dbCheck lockf.filePath db.name) ∈ acc.1.events ∧ acc.1.hasErrored = true ∨ db ∈ dbs) →
      .error (.dbCheck lockf.filePath db.name) ∈ (dbs.foldl (checkStep n lockf) acc).1.events ∧
        (dbs.foldl (checkStep n lockf) acc).1.hasErrored = true := by
    intro dbs
    induction dbs with
    | nil => intro acc h; simpa using h
    | cons d dbs ih =>
      intro acc h
      rw [List.foldl_cons]
      apply ih
      rcases h with h | h
      · left
        obtain ⟨es, he⟩ := warn_events acc.1 d.name (d.check n lockf.packages).2
        have hw : (acc.1.warn d.name (d.check n lockf.packages).2).hasErrored = true := by
          unfold RState.warn; split <;> exact h.2
        unfold checkStep
        dsimp only
        cases (d.check n lockf.packages).1 <;> simp [RState.printError, he, h.1, hw]
      · rcases List.mem_cons.1 h with rfl | h
        · left
          unfold checkStep
          dsimp only
          unfold DB.answers at hfail
          split at hfail
          · cases hfail
          · rename_i e he
            simp [he, RState.printError]
        · exact .inr h
  exact hkeep dbs (r, l0) (.inr hdb)

/-- One database fails, the other one's vulnerability is still reported. -/
example : let bad : DB := { name := g!"bad", identifier := g!"bad", info := .other, check := fun _ _ => (.error (), false) }
    (checkLockfile 0 [bad, sampleDB apiDBConfig [sampleA]] { outputAsJSON := false }
      ⟨g!"go.mod", g!"go.mod", [samplePkg g!"m" g!"Go"]⟩ []).2.packages =
      [⟨samplePkg g!"m" g!"Go", [sampleA], []⟩] := by decide

end Osv
