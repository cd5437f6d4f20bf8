import Verif.Lemmas.Crash
import Verif.Spec.Crash
import Verif.Spec.RunSamples
import Verif.Props.C23Codes
/-!
# C83 A crash is visible, and nothing else is

Nothing recovers from a panic. This says when the command panics, what it has printed by then, and that otherwise it does what `run`
says, for which the other properties are proved.
-/
namespace Osv
open Spec

namespace Crash

theorem prep_started (S : Sorter) (env : Env) (f : Flags) (p : LoopState × List DB × List FileEntry)
    (hp : runPrep S env f = .inr p) : Started f (run S env f).events := by
  have hflags : f.printVersion = false ∧ f.listEcosystems = false := by
    unfold runPrep at hp
    dsimp only at hp
    split at hp
    · cases hp
    split at hp
    · cases hp
    rename_i h1 h2
    exact ⟨by simpa using h1, by simpa using h2⟩
  obtain ⟨hinv, -, -, -⟩ := prep_inv S env f p hp
  have hx : runBody S env f = finish env f (p.2.2.foldl (loopStep f p.2.1) p.1) := by rw [runBody_prep, hp]
  have hl := loopInv_foldl f p.2.1 _ _ _ [] p.2.2 [] p.1 hinv
  have hfin := (finalInv env f _ _ _ _ _ hl).stop
  rw [← hx] at hfin
  refine ⟨hflags.1, hflags.2, ?_⟩
  intro m hm
  rw [run_error_iff] at hm
  have hn : m.isStop = false := by
    cases h : m.isStop with
    | false => rfl
    | true =>
      have : (runBody S env f).r.sum.stop = true := (any_isErr _ _).2 ⟨m, hm, h⟩
      rw [this] at hfin; cases hfin
  refine ⟨?_, ?_, ?_⟩
  · rintro rfl; cases hn
  · rintro n rfl; cases hn
  · rintro e rfl; cases hn

theorem mem_forConfigs (dbs : List DB) (cs : List DBConfig) (db : DB) :
    db ∈ forConfigs dbs cs ↔ db ∈ dbs ∧ ∃ d ∈ cs, d.identifier = db.identifier := by
  unfold forConfigs
  rw [List.mem_flatMap]
  constructor
  · rintro ⟨db', h1, h2⟩
    obtain ⟨d, hd, he⟩ := List.mem_filterMap.1 h2
    split at he
    · rename_i hi; cases he; exact ⟨h1, d, hd, hi⟩
    · cases he
  · rintro ⟨h1, d, hd, hi⟩
    exact ⟨db, h1, List.mem_filterMap.2 ⟨d, hd, by rw [if_pos hi]⟩⟩

theorem readBad_iff (env : Env) (f : Flags) (want q : Str) (hw : ':' ∉ want) :
    readBad env (looksLocal f) (want ++ ':' :: q) = true ↔
      want ≠ csvRowName ∧ want ≠ csvFileName ∧ parserOf want q ∈ parserNames ∧
      (LocalConfigs f → ∃ c, findConfig env.validURL env.config (Path.dir q) = .ok c) ∧ env.parsePanics (parserOf want q) q = true := by
  unfold readBad calledParser
  rw [splitParseAs_colon _ _ hw]
  dsimp only
  rw [findParser_eq, Bool.and_eq_true, Bool.or_eq_true, Bool.not_eq_true', ← looksLocal_iff]
  generalize findConfig env.validURL env.config (Path.dir q) = o
  by_cases h1 : want = csvRowName ∨ want = csvFileName
  · rw [if_pos h1]
    simp only [Option.any_none, Bool.false_eq_true, and_false, false_iff]
    rintro ⟨a, b, -⟩
    exact h1.elim a b
  · rw [if_neg h1, not_or] at *
    by_cases h2 : parserOf want q ∈ parserNames
    · simp only [h2, true_and, ne_eq, h1, not_false_eq_true]
      refine and_congr ?_ Iff.rfl
      cases looksLocal f <;> cases o <;> simp
    · simp [h2]

theorem cause_iff (S : Sorter) (env : Env) (f : Flags) (p : LoopState × List DB × List FileEntry) (hp : runPrep S env f = .inr p) :
    Cause S env f p ↔ Panics S env f := by
  obtain ⟨h1, h2, h3⟩ := prep_read S env f p hp
  have hb := (readOf_files S env f p hp).1
  have hpa := badParseAs_false f hb
  unfold Cause
  constructor
  · rintro (⟨path, hm, hbad⟩ | ⟨hl, c, hc, hbad⟩ | ⟨i, x, hx, hbad⟩)
    · by_cases hg : f.parseAs = csvRowName
      · rw [findAll_paths, if_pos hg, List.mem_singleton] at hm
        subst hm
        have := (readBad_iff env f csvRowName g!"-" (by decide)).1 hbad
        exact absurd rfl this.1
      · obtain ⟨want, q, rfl, hd⟩ := (mem_found env _ f.args _ hg path).1 hm
        obtain ⟨a, b, c, d, e⟩ := (readBad_iff env f want q (discovers_colon hpa hd)).1 hbad
        exact .parser want q ⟨hg, hd, a, b, c, d⟩ e
    · exact .load c hl hc hbad
    · unfold fileBad at hbad
      simp only [Bool.and_eq_true, Bool.not_eq_true', List.any_eq_true] at hbad
      obtain ⟨⟨he, hl⟩, db, hdb, hdbad⟩ := hbad
      obtain ⟨hdb1, hdb2⟩ := (mem_forConfigs _ _ _).1 hdb
      rw [h3 hl] at hdb1
      obtain ⟨c, hc, hload⟩ := List.mem_filterMap.1 hdb1
      rw [h1] at hx
      rw [h2] at hdb2
      unfold dbBad at hdbad
      rw [Bool.or_eq_true] at hdbad
      rcases hdbad with hdbad | hdbad
      · exact .check i x c db hl hx he ⟨hc, hload, hdb2⟩ hdbad
      · split at hdbad
        · rename_i a ha
          exact .merge i x c db hl hx he ⟨hc, hload, hdb2⟩ a ha (by simpa using hdbad)
        · cases hdbad
  · have hfile : ∀ (i : Nat) x c db, f.listPackages = false → (readOf S env f).files[i]? = some x → x.err = false →
        UsedFor S env f x c db → dbBad i x.lockf.packages db = true →
        ∃ (i : Nat) (x : FileEntry), p.2.2[i]? = some x ∧ fileBad f p.2.1 i (p.1.cells.getD x.config {}) x = true := by
      intro i x c db hl hx he hu hbad
      refine ⟨i, x, by rw [h1]; exact hx, ?_⟩
      unfold fileBad
      simp only [Bool.and_eq_true, Bool.not_eq_true', List.any_eq_true]
      refine ⟨⟨he, hl⟩, db, (mem_forConfigs _ _ _).2 ⟨?_, ?_⟩, hbad⟩
      · rw [h3 hl]; exact List.mem_filterMap.2 ⟨c, hu.1, hu.2.1⟩
      · rw [h2]; exact hu.2.2
    intro h
    cases h with
    | parser want q parsed panics =>
      obtain ⟨hg, hd, a, b, c, d⟩ := parsed
      exact .inl ⟨_, (mem_found env _ f.args _ hg _).2 ⟨want, q, rfl, hd⟩,
        (readBad_iff env f want q (discovers_colon hpa hd)).2 ⟨a, b, c, d, panics⟩⟩
    | load c list needed panics => exact .inr (.inl ⟨list, c, needed, panics⟩)
    | check i x c db list file ok used panics =>
      exact .inr (.inr (hfile i x c db list file ok used (by unfold dbBad; rw [panics]; rfl)))
    | merge i x c db list file ok used answer answers short =>
      refine .inr (.inr (hfile i x c db list file ok used ?_))
      unfold dbBad
      rw [answers]
      simp [short]

/-- What was printed stays printed. -/
theorem prints_prefix {a b : RState} (h : Prints a b) : b.outputAsJSON = a.outputAsJSON ∧ a.events <+: b.events ∧ a.results <+: b.results := by
  induction h with
  | refl => exact ⟨rfl, List.prefix_refl _, List.prefix_refl _⟩
  | text m _ ih => exact ⟨ih.1, ih.2.1.trans (List.prefix_append _ _), ih.2.2⟩
  | error m _ ih => exact ⟨ih.1, ih.2.1.trans (List.prefix_append _ _), ih.2.2⟩
  | result x _ ih =>
    unfold RState.printResult
    split
    · exact ⟨ih.1, ih.2.1, ih.2.2.trans (List.prefix_append _ _)⟩
    · exact ⟨ih.1, ih.2.1.trans (List.prefix_append _ _), ih.2.2⟩
  | warn n b _ ih =>
    unfold RState.warn
    split
    · exact ⟨ih.1, ih.2.1.trans (List.prefix_append _ _), ih.2.2⟩
    · exact ih

end Crash
open Crash

/-- The command crashes exactly if it gets past its arguments and some step panics. -/
theorem C83_crash_iff (S : Sorter) (env : Env) (f : Flags) :
    (runP S env f).crashed = true ↔ Started f (run S env f).events ∧ Panics S env f := by
  unfold runP
  rcases body S env f with ⟨e, he, -, -, p, hp, hc⟩ | ⟨he, hn⟩
  · rw [he]
    exact ⟨fun _ => ⟨prep_started S env f p hp, (cause_iff S env f p hp).1 hc⟩, fun _ => rfl⟩
  · rw [he]
    constructor
    · intro h; cases h
    · rintro ⟨hs, hpan⟩
      obtain ⟨p, hp⟩ := started_go S env f hs
      exact absurd ((cause_iff S env f p hp).2 hpan) (hn p hp)

/-- If it does not crash, it ends as `run` says. -/
theorem C83_refines (S : Sorter) (env : Env) (f : Flags) (h : (runP S env f).crashed = false) :
    (runP S env f).result = run S env f := by
  unfold runP at h ⊢
  rcases body S env f with ⟨e, he, -⟩ | ⟨he, -⟩
  · rw [he] at h; cases h
  · rw [he]; rfl

/-- A crash leaves the config files alone. What was printed is what a run without panics prints first; with `--json` the document is
printed nevertheless, with the results so far. -/
theorem C83_after_crash (S : Sorter) (env : Env) (f : Flags) (h : (runP S env f).crashed = true) :
    (runP S env f).result.config = env.config ∧
    (f.json = false → (runP S env f).result.events <+: (run S env f).events) ∧
    (f.json = true → ∃ pre xs pre' ys, (runP S env f).result.events = pre ++ [.json xs] ∧ (run S env f).events = pre' ++ [.json ys] ∧
      pre <+: pre' ∧ xs <+: ys) := by
  unfold runP at h ⊢
  unfold run
  rcases body S env f with ⟨e, he, hp, hp', -⟩ | ⟨he, -⟩
  · rw [he]
    obtain ⟨-, h1, h2⟩ := prints_prefix hp'
    refine ⟨rfl, ?_, ?_⟩
    · intro hj
      simp only [hj, Bool.false_eq_true, if_false]
      exact h1
    · intro hj
      simp only [hj, if_true]
      exact ⟨_, _, _, _, rfl, rfl, h1, h2⟩
  · rw [he] at h; cases h

/-- The exit codes of the process. Code 2 means a crash, and any other code is that of `run`. -/
theorem C83_codes (S : Sorter) (env : Env) (f : Flags) :
    (runP S env f).result.exit ∈ [0, 1, 2, 127, 128] ∧ ((runP S env f).result.exit = 2 ↔ (runP S env f).crashed = true) ∧
    ((runP S env f).result.exit ≠ 2 → (runP S env f).result = run S env f) := by
  have hcodes := (C23_codes S env f).1
  unfold runP
  rcases body S env f with ⟨e, he, -⟩ | ⟨he, -⟩
  · rw [he]; exact ⟨by simp, by simp, fun h => absurd rfl h⟩
  · rw [he]
    rw [show (run S env f).exit = (runBody S env f).exit from rfl] at hcodes
    dsimp only
    refine ⟨?_, ?_, fun _ => rfl⟩
    · simp only [List.mem_cons, List.not_mem_nil, or_false] at hcodes ⊢
      rcases hcodes with h | h | h | h <;> simp [h]
    · simp only [List.mem_cons, List.not_mem_nil, or_false] at hcodes
      simp only [Bool.false_eq_true, iff_false]
      rcases hcodes with h | h | h | h <;> simp [h]

/-- The process only ends with code 0 if `run` does, so all that is proved of it then holds of the process. -/
theorem C83_exit_zero (S : Sorter) (env : Env) (f : Flags) (h : (runP S env f).result.exit = 0) :
    (runP S env f).crashed = false ∧ (runP S env f).result = run S env f ∧ (run S env f).exit = 0 := by
  obtain ⟨-, h2, h3⟩ := C83_codes S env f
  have he := h3 (by rw [h]; decide)
  refine ⟨?_, he, by rw [← he]; exact h⟩
  cases hc : (runP S env f).crashed with
  | false => rfl
  | true => rw [h2.2 hc] at h; cases h

/-! ### Samples -/

/-- The check of the second lockfile panics. -/
def C83_env : Env := { sampleEnv with
  load := fun c _ _ _ => (some { sampleDB c [sampleA] with panics := fun n _ => decide (n = 1) }, false) }

/-- With `--json` the document of a crashed run has the first lockfile only. -/
theorem C83_sample_truncated :
    let run := runP Sorter.insertion C83_env { sampleFlags [g!"go.mod", g!"yarn.lock"] with json := true }
    run.crashed = true ∧ run.result.exit = 2 ∧ (shown run.result.events).map (fun r => (lockfileOf r).filePath) = [g!"go.mod"] := by
  decide +kernel

/-- Neither a crash nor its absence is vacuous. -/
example : (runP Sorter.insertion C83_env (sampleFlags [g!"go.mod"])).crashed = false ∧
    (runP Sorter.insertion C83_env (sampleFlags [g!"go.mod"])).result.exit = 1 ∧
    (runP Sorter.insertion { sampleEnv with parsePanics := fun p _ => p = g!"go.mod" } (sampleFlags [g!"d"])).crashed = true := by
  decide +kernel

end Osv
