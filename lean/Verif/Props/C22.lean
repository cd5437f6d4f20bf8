import Verif.Lemmas.Run
import Verif.Lemmas.Paths
import Verif.Spec.RunSamples
/-!
# C22 Exit code 0 means nothing wrong

The full statement is `C22_full`; it is false, because errors while listing a directory are lost.
-/
namespace Osv
open Spec

/-- The full statement: if lockfiles are checked and the exit code is 0, then all paths could be read, nothing
was reported as wrong (neither errors nor diagnostics of databases) and no vulnerability was shown. -/
def C22_full : Prop :=
  ∀ (S : Sorter) (env : Env) (f : Flags), f.printVersion = false → f.listEcosystems = false →
    (run S env f).exit = 0 →
      (f.parseAs ≠ csvRowName → ∀ arg ∈ f.args, ∀ p, PathPart arg p → Readable (env.path p)) ∧
      (∀ e ∈ (run S env f).events, (∀ m, e ≠ .error m) ∧ ∀ n, e ≠ .warning n) ∧
      (∀ x ∈ shown (run S env f).events, ¬ Vulnerable x)

/-- Exit code 0 means: no error was printed, no vulnerability was shown, all paths could be opened, all lockfiles
and their configs were read, all databases were loaded, and every lockfile has its result. Missing: paths that
can be opened but not inspected or listed, and diagnostics that databases write directly to stderr. -/
theorem C22_exit_zero_partial (S : Sorter) (env : Env) (f : Flags) (hv : f.printVersion = false)
    (hl : f.listEcosystems = false) (h : (run S env f).exit = 0) :
    (∀ m, .error m ∉ (run S env f).events) ∧
    (∀ x ∈ shown (run S env f).events, ¬ Vulnerable x) ∧
    (f.parseAs ≠ csvRowName → ∀ arg ∈ f.args, ∀ p, PathPart arg p → env.path p ≠ .cannotOpen) ∧
    (∀ x ∈ (readOf S env f).files, x.err = false) ∧
    (f.listPackages = false → ∀ c ∈ neededConfigs env f (readOf S env f),
      (env.load c f.offline f.batchSize (allPackageNames env (readOf S env f).files)).1 ≠ none) ∧
    (shown (run S env f).events).map lockfileOf = (readOf S env f).files.map (·.lockf) := by
  have hexit : (run S env f).exit = (runBody S env f).exit := rfl
  rw [hexit] at h
  rw [run_shown]
  cases runCase S env f with
  | info h' _ _ => simp [hv, hl] at h'
  | stopped _ he _ _ _ _ _ => omega
  | normal _ inv =>
    have he := inv.exit
    rw [h] at he
    have hz : (runBody S env f).r.sum.hard = false ∧ (runBody S env f).r.sum.any = false ∧
        (runBody S env f).r.sum.shown.any Result.vuln = false := by
      unfold exitOf at he
      revert he
      cases (runBody S env f).r.sum.hard <;> cases (runBody S env f).r.sum.any <;>
        cases (runBody S env f).r.sum.shown.any Result.vuln <;> simp
    obtain ⟨hh, ha, hs⟩ := hz
    have hhard := inv.hard
    rw [hh] at hhard
    have hhard := Bool.or_eq_false_iff.1 hhard.symm
    have hfiles : ∀ x ∈ (readOf S env f).files, x.err = false := by
      intro x hx
      have := List.any_eq_false.1 hhard.2 x hx
      simpa using this
    refine ⟨?_, ?_, ?_, hfiles, ?_, ?_⟩
    · intro m hm
      rw [run_error_iff] at hm
      have := (sum_any_iff _).2 ⟨m, hm⟩
      simp [ha] at this
    · intro x hx hvx
      have := List.any_eq_false.1 hs x hx
      exact this ((Result.vuln_iff x).2 hvx)
    · intro hcsv arg harg p hp hc
      rw [pathPart_iff] at hp
      have : someBadPath env f = true := by
        simp only [someBadPath, Bool.and_eq_true, decide_eq_true_eq, List.any_eq_true]
        exact ⟨hcsv, arg, harg, by rw [hp]; exact hc⟩
      have := inv.any this
      simp [ha] at this
    · intro hlp c hc hn
      have := hhard.1
      simp only [someLoadFails, hlp, Bool.not_false, Bool.true_and] at this
      have := List.any_eq_false.1 this c hc
      simp [hn] at this
    · rw [inv.shown, List.filter_eq_self.2 (fun x hx => by simp [hfiles x hx])]

/-- The full statement is false: a directory that cannot be listed is skipped without any message. -/
theorem C22_unlistable_directory : ¬ C22_full := by
  intro h
  have := (h Sorter.insertion sampleEnv { sampleFlags [g!"d", g!"e"] with globalIgnores := [g!"C"] } rfl rfl
    (by decide +kernel)).1 (by decide) g!"e" (by decide) g!"e" (.inl ⟨by decide, rfl⟩)
  rcases this with h | ⟨es, h⟩ <;> exact absurd h (by simp [sampleEnv])

/-- Diagnostics of a database are no error either: with unreadable advisories the exit code is still 0. -/
theorem C22_database_diagnostics :
    let env : Env := { sampleEnv with load := fun c _ _ _ => (some (sampleDB c []), true) }
    (run Sorter.insertion env (sampleFlags [g!"go.mod"])).exit = 0 ∧
      .warning g!"Go" ∈ (run Sorter.insertion env (sampleFlags [g!"go.mod"])).events := by
  decide +kernel

/-! ### Non-vacuity -/

/-- A run with two lockfiles and exit code 0. -/
example : (run Sorter.insertion sampleEnv { sampleFlags [g!"d"] with globalIgnores := [g!"C"] }).exit = 0 ∧
    (shown (run Sorter.insertion sampleEnv { sampleFlags [g!"d"] with globalIgnores := [g!"C"] }).events).length = 2 := by
  decide +kernel

end Osv
