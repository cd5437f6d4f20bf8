import Verif.Lemmas.Run
import Verif.Spec.RunSamples
/-!
# C23 Exit code classification
-/
namespace Osv
open Spec

/-- Once lockfiles are found and an explicit config is loaded, the exit code is 127 if a database, a lockfile or
the config of a lockfile failed; otherwise 1 if a shown result lists a vulnerability; otherwise 127 if any other
error was printed; otherwise 0. -/
theorem C23_exit_code (S : Sorter) (env : Env) (f : Flags) (h : Started f (run S env f).events) :
    ((∃ m, .error m ∈ (run S env f).events ∧ HardMsg m) → (run S env f).exit = 127) ∧
    ((¬ ∃ m, .error m ∈ (run S env f).events ∧ HardMsg m) →
      (∃ x ∈ shown (run S env f).events, Vulnerable x) → (run S env f).exit = 1) ∧
    ((¬ ∃ m, .error m ∈ (run S env f).events ∧ HardMsg m) →
      (¬ ∃ x ∈ shown (run S env f).events, Vulnerable x) →
      (∃ m, .error m ∈ (run S env f).events) → (run S env f).exit = 127) ∧
    ((¬ ∃ m, .error m ∈ (run S env f).events) →
      (¬ ∃ x ∈ shown (run S env f).events, Vulnerable x) → (run S env f).exit = 0) := by
  obtain ⟨hv, hl, hstop⟩ := h
  have hexit : (run S env f).exit = (runBody S env f).exit := rfl
  rw [run_shown, hexit]
  simp only [run_error_iff] at hstop ⊢
  rw [← sum_hard_iff, ← sum_any_iff]
  have hvul : (∃ x ∈ (runBody S env f).r.sum.shown, Vulnerable x) ↔
      (runBody S env f).r.sum.shown.any Result.vuln = true := by
    rw [List.any_eq_true]; simp only [Result.vuln_iff]
  rw [hvul]
  have hhard : (runBody S env f).r.sum.hard = true → (runBody S env f).r.sum.any = true := by
    rw [sum_hard_iff, sum_any_iff]; rintro ⟨m, hm, _⟩; exact ⟨m, hm⟩
  cases runCase S env f with
  | info h _ _ => simp [hv, hl] at h
  | stopped _ _ _ hst _ _ _ =>
    obtain ⟨m, hm, hs⟩ := (any_isErr _ _).1 hst
    obtain ⟨h1, h2, h3⟩ := hstop m hm
    cases m with
    | noPaths => exact absurd rfl h1
    | badParseAs n => exact absurd rfl (h2 n)
    | badConfig e => exact absurd rfl (h3 e)
    | _ => cases hs
  | normal _ inv =>
    rw [inv.exit, exitOf]
    revert hhard
    cases (runBody S env f).r.sum.hard <;> cases (runBody S env f).r.sum.any <;>
      cases (runBody S env f).r.sum.shown.any Result.vuln <;> simp

/-- The messages that decide the exit code are printed exactly when a lockfile (or its config) could not be read
or a needed database could not be loaded. -/
theorem C23_failures (S : Sorter) (env : Env) (f : Flags) (h : Started f (run S env f).events) :
    (∃ m, .error m ∈ (run S env f).events ∧ HardMsg m) ↔
      (∃ x ∈ (readOf S env f).files, x.err = true) ∨
      (f.listPackages = false ∧ ∃ c ∈ neededConfigs env f (readOf S env f),
        (env.load c f.offline f.batchSize (allPackageNames env (readOf S env f).files)).1 = none) := by
  obtain ⟨hv, hl, hstop⟩ := h
  simp only [run_error_iff] at hstop ⊢
  rw [← sum_hard_iff]
  cases runCase S env f with
  | info h _ _ => simp [hv, hl] at h
  | stopped _ _ _ hst _ _ _ =>
    obtain ⟨m, hm, hs⟩ := (any_isErr _ _).1 hst
    obtain ⟨h1, h2, h3⟩ := hstop m hm
    cases m with
    | noPaths => exact absurd rfl h1
    | badParseAs n => exact absurd rfl (h2 n)
    | badConfig e => exact absurd rfl (h3 e)
    | _ => cases hs
  | normal _ inv =>
    rw [inv.hard, Bool.or_eq_true, List.any_eq_true, someLoadFails, Bool.and_eq_true, List.any_eq_true]
    simp only [Bool.not_eq_true', Option.isNone_iff_eq_none]
    exact or_comm

/-! ### Non-vacuity -/

/-- Both lockfiles are checked, the result for `go.mod` is ignored, that for `yarn.lock` is not. -/
example : (run Sorter.insertion sampleEnv (sampleFlags [g!"d"])).exit = 1 := by decide +kernel
example : Started (sampleFlags [g!"d"]) (run Sorter.insertion sampleEnv (sampleFlags [g!"d"])).events := by
  refine ⟨rfl, rfl, ?_⟩
  have : ∀ e ∈ (run Sorter.insertion sampleEnv (sampleFlags [g!"d"])).events, e.isErr (fun _ => true) = false := by
    decide +kernel
  intro m hm
  exact absurd (this _ hm) (by simp [Event.isErr])
example : (run Sorter.insertion sampleEnv (sampleFlags [g!"d", g!"nope"])).exit = 1 := by decide +kernel
example : (run Sorter.insertion sampleEnv { sampleFlags [g!"d", g!"nope"] with globalIgnores := [g!"C"] }).exit = 127 := by
  decide +kernel

end Osv
