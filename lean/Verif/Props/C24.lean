import Verif.Lemmas.Run
import Verif.Spec.RunSamples
/-! # C24 JSON mode keeps stdout machine readable -/
namespace Osv
open Spec

theorem filter_stdout_nil (es : List Event) (h : es.any Event.isStdout = false) :
    es.filter (fun e => decide (OnStdout e)) = [] := by
  rw [List.filter_eq_nil_iff]
  intro e he
  have := List.any_eq_false.1 h e he
  rw [Event.isStdout_iff] at this
  simpa using this

/-- With `--json`, stdout receives exactly one JSON document, on every path through the program. -/
theorem C24_json (S : Sorter) (env : Env) (f : Flags) (h : f.json = true) :
    ∃ rs, (run S env f).events.filter (fun e => decide (OnStdout e)) = [.json rs] ∧
      (run S env f).events.getLast? = some (.json rs) := by
  obtain ⟨hj, hs⟩ := runCase_json (runCase S env f)
  unfold run
  generalize runBody S env f = x at *
  have hj' : x.r.outputAsJSON = true := hj.trans h
  have hs' : x.r.events.any (Event.isStray x.r.outputAsJSON) = false := hs
  rw [hj'] at hs'
  have hs' := isStdout_of_stray _ hs'
  refine ⟨x.r.results, ?_, ?_⟩
  · simp only [h, if_true, RState.printJSON, List.filter_append, filter_stdout_nil _ hs', List.nil_append]
    rfl
  · simp [h, RState.printJSON]

/-- The document holds one result per successfully read lockfile, in order; in text mode the same results are
printed one by one. -/
theorem C24_results (S : Sorter) (env : Env) (f : Flags) (h : Started f (run S env f).events) :
    (shown (run S env f).events).map lockfileOf =
      ((readOf S env f).files.filter fun x => !x.err).map (·.lockf) := by
  obtain ⟨hv, hl, hstop⟩ := h
  simp only [run_error_iff] at hstop
  rw [run_shown]
  cases runCase S env f with
  | info h _ _ => simp [hv, hl] at h
  | stopped _ _ _ hst _ _ _ =>
    obtain ⟨m, hm, hs⟩ := (any_isErr _ _).1 hst
    obtain ⟨h1, h2, h3⟩ := hstop m hm
    cases m with
    | noPaths => exact absurd rfl h1
    | badParseAs n => exact absurd rfl (h2 n)
    | badConfig e => exact absurd rfl (h3 e)
    | _ => cases hs
  | normal _ inv => exact inv.shown

/-- If the program stops early, there are no results (with `--json`: an empty list). -/
theorem C24_no_results (S : Sorter) (env : Env) (f : Flags) (h : ¬ Started f (run S env f).events) :
    shown (run S env f).events = [] := by
  rw [run_shown]
  cases runCase S env f with
  | info _ _ h => rw [h]
  | stopped _ _ _ _ h _ _ => exact h
  | normal hf inv =>
    exfalso
    apply h
    refine ⟨hf.1, hf.2, fun m hm => ?_⟩
    rw [run_error_iff] at hm
    have hs : (runBody S env f).r.events.any (Event.isErr ErrMsg.isStop) = false := inv.stop
    have := List.any_eq_false.1 hs _ hm
    cases m <;> simp [Event.isErr, ErrMsg.isStop] at this ⊢

/-- Without `--json` nothing but messages and results reaches stdout: no error and no JSON document. -/
theorem C24_text (S : Sorter) (env : Env) (f : Flags) (h : f.json = false) :
    ∀ e ∈ (run S env f).events.filter (fun e => decide (OnStdout e)),
      (∃ m, e = .text .stdout m) ∨ ∃ x, e = .result x := by
  intro e he
  obtain ⟨hm, ho⟩ := List.mem_filter.1 he
  have ho := of_decide_eq_true ho
  have hm' : e ∈ (runBody S env f).r.events := by simpa [run, h] using hm
  have hs : (runBody S env f).r.events.any (Event.isStray (runBody S env f).r.outputAsJSON) = false :=
    (runCase_json (runCase S env f)).2
  cases e with
  | text s m => cases ho; exact .inl ⟨m, rfl⟩
  | error m => cases ho
  | result x => exact .inr ⟨x, rfl⟩
  | json rs => exact absurd rfl (List.any_eq_false.1 hs _ hm')
  | warning n => cases ho

/-! ### Non-vacuity -/

/-- One document with two results. -/
example : (run Sorter.insertion sampleEnv { sampleFlags [g!"d"] with json := true }).events.filter
    (fun e => decide (OnStdout e)) = [Event.json [
      .report ⟨⟨g!"d/go.mod", g!"go.mod", [samplePkg g!"m" g!"Go"]⟩, [⟨samplePkg g!"m" g!"Go", [], [sampleA]⟩]⟩,
      .report ⟨⟨g!"d/yarn.lock", g!"yarn.lock", [samplePkg g!"n" g!"npm"]⟩, [⟨samplePkg g!"n" g!"npm", [sampleC], []⟩]⟩]] := by
  decide +kernel

/-- An early stop: an empty document. -/
example : (run Sorter.insertion sampleEnv { sampleFlags [g!"nope"] with json := true }).events.filter
    (fun e => decide (OnStdout e)) = [Event.json []] := by
  decide +kernel

end Osv
