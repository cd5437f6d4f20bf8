import Verif.Lemmas.Output
import Verif.Lemmas.Update
import Verif.Lemmas.Prints
import Verif.Lemmas.EndToEnd
import Verif.Props.C20
import Verif.Props.C21
import Verif.Props.C24
import Verif.Props.C69
import Verif.Spec.RunSamples
/-! # C80 The text of the output -/
namespace Osv
open Spec Str

theorem written_stdout (W : Words) (e : Event) : (e.written W).1 = .stdout ↔ OnStdout e := by
  cases e <;> simp [Event.written, OnStdout]

/-- With `--json` the text on stdout is one document and nothing else, and reading that document gives back the results. -/
theorem C80_json (W : Words) (S : Sorter) (env : Env) (f : Flags) (h : f.json = true) :
    ∃ rs, shown (run S env f).events = rs ∧ streamText W .stdout (run S env f).events = W.document rs ∧
      (PrintedJSON rs (W.document rs) → StdoutJSON S env f (streamText W .stdout (run S env f).events)) := by
  obtain ⟨rs, h1, h2⟩ := C24_json S env f h
  have hsh : shown (run S env f).events = rs := by
    rw [shown_stdout, h1]; simp [shown, resultsOf]
  have key : ∀ es : List Event, writtenTo W .stdout es = (es.filter fun e => decide (OnStdout e)).map fun e => (e.written W).2 := by
    intro es
    induction es with
    | nil => rfl
    | cons e es ih =>
      rw [writtenTo] at ih
      rw [writtenTo, List.filterMap_cons, ih, List.filter_cons]
      by_cases hs : OnStdout e
      · rw [if_pos ((written_stdout W e).2 hs), if_pos (decide_eq_true hs)]; rfl
      · rw [if_neg fun h => hs ((written_stdout W e).1 h), if_neg (by simp [hs])]
  have hst : streamText W .stdout (run S env f).events = W.document rs := by
    unfold streamText
    rw [key, key, List.filter_filter, List.filter_filter]
    have a1 : (run S env f).events.filter (fun e => decide (OnStdout e) && !e.isUpdate) = [.json rs] := by
      have := congrArg (List.filter fun e : Event => !e.isUpdate) h1
      rw [List.filter_filter] at this
      rw [List.filter_congr (q := fun e => !e.isUpdate && decide (OnStdout e)) (fun _ _ => Bool.and_comm _ _), this]
      rfl
    have a2 : (run S env f).events.filter (fun e => decide (OnStdout e) && e.isUpdate) = [] := by
      have := congrArg (List.filter fun e : Event => e.isUpdate) h1
      rw [List.filter_filter] at this
      rw [List.filter_congr (q := fun e => e.isUpdate && decide (OnStdout e)) (fun _ _ => Bool.and_comm _ _), this]
      rfl
    rw [a1, a2]
    simp [Event.written, sortStr, insertionSort]
  exact ⟨rs, hsh, hst, fun hp => ⟨rs, h1, hst ▸ hp⟩⟩

theorem updateLines_eq (W : Words) (es : List Event) :
    writtenTo W .stdout (es.filter Event.isUpdate) = updateLines W.paint es := by
  unfold writtenTo updateLines
  rw [List.filterMap_filter]
  congr 1
  funext e
  cases e with
  | text s m =>
    cases m with
    | updated p n =>
      cases s with
      | stdout =>
        simp only [Event.isUpdate, Event.written, TextMsg.text, updateLine, updatedLine, form, noun, if_true]
        split <;> simp
      | stderr => rfl
    | _ => cases s <;> rfl
  | error m => cases m <;> rfl
  | _ => rfl

theorem loopPer_nil (f : Flags) (dbs : List DB) (cells : List Config) (i : Nat) (per : SMap (List Str)) (files : List FileEntry) :
    loopPer f dbs cells i per files = [] ↔ per = [] ∧
      ¬ (f.listPackages = false ∧ f.updateConfigIgnores = true ∧ ∃ q ∈ usedPaths cells files, q ≠ []) := by
  induction files generalizing i per with
  | nil => simp [loopPer, usedPaths]
  | cons x xs ih =>
    rw [loopPer, ih, usedPaths_cons]
    unfold perStep
    dsimp only
    have hset : ∀ k v, per.set k v ≠ [] := by
      intro k v h
      have := congrArg (List.map Prod.fst) h
      rw [SMap.keys_set] at this
      split at this
      · rename_i hk
        rw [this] at hk
        cases hk
      · simp at this
    generalize reportIds _ = ids
    generalize (cells.getD x.config {}).filePath = q
    by_cases hc : x.err = false ∧ f.listPackages = false ∧ f.updateConfigIgnores = true ∧ q ≠ []
    · rw [if_pos hc, hc.1]
      simp only [Bool.false_eq_true, if_false]
      constructor
      · rintro ⟨h, -⟩; exact absurd h (hset _ _)
      · rintro ⟨-, h⟩; exact absurd ⟨hc.2.1, hc.2.2.1, q, List.mem_cons_self, hc.2.2.2⟩ h
    · rw [if_neg hc]
      refine and_congr_right fun _ => not_congr ⟨?_, ?_⟩
      · rintro ⟨h1, h2, k, hk, hne⟩
        refine ⟨h1, h2, k, ?_, hne⟩
        split
        · exact hk
        · exact List.mem_cons_of_mem _ hk
      · rintro ⟨h1, h2, k, hk, hne⟩
        refine ⟨h1, h2, k, ?_, hne⟩
        split at hk
        · exact hk
        · rename_i he
          rcases List.mem_cons.1 hk with rfl | hk
          · exact absurd ⟨by simpa using he, h1, h2, hne⟩ hc
          · exact hk

/-- Without `--json` the text on stdout is, in order: which databases were loaded (unless packages are listed), one part
for each file found, separated by line ends, and one line for each updated config, in order. -/
theorem C80_text (W : Words) (S : Sorter) (env : Env) (f : Flags) (hj : f.json = false) (hs : Started f (run S env f).events) :
    ∃ (p : LoopState × List DB × List FileEntry) (parts : List Str) (gap : Str), runPrep S env f = .inr p ∧
      streamText W .stdout (run S env f).events =
        (if f.listPackages then [] else g!"Loaded the following OSV databases:\n" ++
          ((neededConfigs env f (readOf S env f)).map fun c => databaseText W.paint c.name
            (env.load c f.offline f.batchSize (allPackageNames env (readOf S env f).files)).1).flatten ++ g!"\n") ++
        join g!"\n" parts ++ gap ++ (sortStr (updateLines W.paint (run S env f).events)).flatten ∧
      Sections W f (fun x => p.1.cells.getD x.config {}) (fun c => forConfigs p.2.1 c.databases) (readOf S env f).files
        (shown (run S env f).events) parts ∧
      ((f.listPackages = false ∧ f.updateConfigIgnores = true ∧ ∃ q ∈ configsUsed S env f, q ≠ []) → gap = g!"\n") ∧
      (¬ (f.listPackages = false ∧ f.updateConfigIgnores = true ∧ ∃ q ∈ configsUsed S env f, q ≠ []) → gap = []) := by
  obtain ⟨p, hp⟩ := started_go S env f hs
  obtain ⟨hinv, hi, hper, hsh⟩ := prep_inv S env f p hp
  obtain ⟨o1, o2, o3⟩ := Output.out_prep W S env f hj p hp
  obtain ⟨r1, r2, r3⟩ := prep_read S env f p hp
  obtain ⟨g1, -, -, g4, g5, -⟩ := runBody_go S env f p hp
  obtain ⟨l1, l2⟩ := Output.out_loop W f p.2.1 p.1.cells p.2.2 p.1 (fun _ => CfgSame.refl _ _) o2
  rw [hi, if_neg (by omega)] at l1
  have hused : configsUsed S env f = usedPaths p.1.cells p.2.2 := by unfold configsUsed; rw [hp]
  have hev : (run S env f).events = (runBody S env f).r.events := by
    unfold run; dsimp only; rw [hj]; rfl
  have hn := loopPer_nil f p.2.1 p.1.cells 0 [] p.2.2
  rw [← hused] at hn
  refine ⟨p, Output.sections W f p.2.1 p.1.cells 0 p.2.2, if loopPer f p.2.1 p.1.cells 0 [] p.2.2 = [] ∨ f.updateConfigIgnores = false
    then [] else g!"\n", hp, ?_, ?_, ?_, ?_⟩
  · unfold streamText
    rw [updateLines_eq]
    congr 1
    have : (writtenTo W .stdout ((run S env f).events.filter fun e => !e.isUpdate)).flatten = Output.out W (run S env f).events := rfl
    rw [this, hev, g4]
    unfold finish
    dsimp only
    cases hu : f.updateConfigIgnores with
    | false =>
      simp only [Bool.false_eq_true, if_false, or_true, if_true, List.append_nil]
      rw [l1, o1]
      rfl
    | true =>
      simp only [if_true, Bool.true_eq_false, or_false]
      rw [(Output.out_write W env _ l2 _).1, l1, o1, g5]
      rfl
  · rw [run_shown, g1, ← r1]
    exact Output.sections_spec W f p.2.1 p.1.cells p.2.2 0
  · intro h
    rw [if_neg]
    rintro (h' | h')
    · exact (hn.1 h').2 h
    · rw [h.2.1] at h'; cases h'
  · intro h
    rw [if_pos (.inl (hn.2 ⟨rfl, h⟩))]

theorem stream_nil (W : Words) (s : Stream) (es : List Event) :
    streamText W s es = [] ↔ ∀ e ∈ es, (e.written W).1 = s → (e.written W).2 = [] := by
  have hw : ∀ l : List Event, (∀ t ∈ writtenTo W s l, t = []) ↔ ∀ e ∈ l, (e.written W).1 = s → (e.written W).2 = [] := by
    intro l
    unfold writtenTo
    constructor
    · intro h e he hs
      exact h _ (List.mem_filterMap.2 ⟨e, he, by rw [if_pos hs]⟩)
    · intro h t ht
      obtain ⟨e, he, h2⟩ := List.mem_filterMap.1 ht
      split at h2
      · rename_i hs
        cases h2
        exact h e he hs
      · cases h2
  unfold streamText
  rw [List.append_eq_nil_iff, List.flatten_eq_nil_iff, List.flatten_eq_nil_iff, hw]
  have hp : (∀ t ∈ sortStr (writtenTo W s (es.filter Event.isUpdate)), t = []) ↔
      ∀ t ∈ writtenTo W s (es.filter Event.isUpdate), t = [] :=
    ⟨fun h t ht => h t ((sortStr_perm _).mem_iff.2 ht), fun h t ht => h t ((sortStr_perm _).mem_iff.1 ht)⟩
  rw [hp, hw]
  constructor
  · rintro ⟨h1, h2⟩ e he hs
    cases hu : e.isUpdate with
    | true => exact h2 e (List.mem_filter.2 ⟨he, hu⟩) hs
    | false => exact h1 e (List.mem_filter.2 ⟨he, by rw [hu]; rfl⟩) hs
  · intro h
    exact ⟨fun e he => h e (List.mem_filter.1 he).1, fun e he => h e (List.mem_filter.1 he).1⟩

/-- An error always has a text. -/
theorem errText_ne (W : Words) (hp : ∀ c s, s ≠ [] → W.paint c s ≠ []) (m : ErrMsg) : m.text W ≠ [] := by
  cases m with
  | dbCheck p d =>
    simp only [ErrMsg.text]
    exact hp _ _ (by simp)
  | _ => simp [ErrMsg.text]

/-- Without `--json`, stderr stays empty exactly if there is no error and no database has anything to say. -/
theorem C80_silent (W : Words) (hp : ∀ c s, s ≠ [] → W.paint c s ≠ []) (S : Sorter) (env : Env) (f : Flags) (hj : f.json = false) :
    streamText W .stderr (run S env f).events = [] ↔
      (∀ m, .error m ∉ (run S env f).events) ∧ ∀ n, .warning n ∈ (run S env f).events → W.diagnostics n = [] := by
  have hev : (run S env f).events = (runBody S env f).r.events := by
    unfold run; dsimp only; rw [hj]; rfl
  have hstr := (Prints.streams (Prints.body S env f) .stdout (by rw [hj]; rfl) (fun _ _ h => by cases h)).2
  rw [stream_nil, hev]
  constructor
  · intro h
    exact ⟨fun m hm => errText_ne W hp m (h _ hm rfl), fun n hn => h _ hn rfl⟩
  · rintro ⟨h1, h2⟩ e he hs
    cases e with
    | text s m =>
      have := hstr _ _ he
      subst this
      cases hs
    | error m => exact absurd he (h1 m)
    | result r => cases hs
    | json rs => cases hs
    | warning n => exact h2 n he

/-- With `--json`, everything but the document is on stderr: all messages, all errors, all diagnostics. -/
theorem C80_json_stderr (S : Sorter) (env : Env) (f : Flags) (hj : f.json = true) (s : Stream) (m : TextMsg)
    (h : .text s m ∈ (run S env f).events) : s = .stderr := by
  unfold run at h
  dsimp only at h
  rw [if_pos hj] at h
  rcases List.mem_append.1 h with h | h
  · exact (Prints.streams (Prints.body S env f) .stderr (by rw [hj]; rfl) (fun _ _ h => by cases h)).2 _ _ h
  · cases List.mem_singleton.1 h

/-- `--version` and `--list-ecosystems` print what they are asked for, on stdout or, with `--json`, on stderr. -/
theorem C80_version (W : Words) (S : Sorter) (env : Env) (f : Flags) (h : f.printVersion = true) :
    streamText W (if f.json then .stderr else .stdout) (run S env f).events =
      g!"osv-detector " ++ W.version ++ g!" (" ++ W.date ++ g!", commit " ++ W.commit ++ g!")\n" := by
  have hb : (runBody S env f).r.events = [.text (if f.json then .stderr else .stdout) .version] := by
    unfold runBody; dsimp only; rw [if_pos h]; rfl
  have ht : TextMsg.text W .version =
      g!"osv-detector " ++ W.version ++ g!" (" ++ W.date ++ g!", commit " ++ W.commit ++ g!")\n" := by
    simp only [TextMsg.text]
  rw [← ht]
  unfold run
  dsimp only
  cases hj : f.json with
  | false =>
    rw [hj] at hb
    simp only [Bool.false_eq_true, if_false] at hb ⊢
    rw [hb]
    show TextMsg.text W .version ++ [] ++ [] = _
    rw [List.append_nil, List.append_nil]
  | true =>
    rw [hj] at hb
    simp only [if_true] at hb ⊢
    rw [RState.printJSON, hb]
    show TextMsg.text W .version ++ [] ++ [] = _
    rw [List.append_nil, List.append_nil]

theorem C80_ecosystems (W : Words) (S : Sorter) (env : Env) (f : Flags) (hv : f.printVersion = false) (h : f.listEcosystems = true) :
    streamText W (if f.json then .stderr else .stdout) (run S env f).events =
      g!"The detector supports parsing for the following ecosystems:
  CRAN
  npm
  NuGet
  crates.io
  RubyGems
  Packagist
  Go
  Hex
  Maven
  PyPI
  Pub
" := by
  unfold run
  dsimp only
  have hb : (runBody S env f).r = printKnownEcosystems { outputAsJSON := f.json } := by
    unfold runBody; dsimp only; rw [hv, h]; rfl
  rw [hb]
  cases f.json <;> rfl

/-- If the command stops early without being asked for a version or for ecosystems, stdout is empty. -/
theorem C80_nothing (W : Words) (S : Sorter) (env : Env) (f : Flags) (hj : f.json = false) (hv : f.printVersion = false)
    (hl : f.listEcosystems = false) (hs : ¬ Started f (run S env f).events) : streamText W .stdout (run S env f).events = [] := by
  have hev : (run S env f).events = (runBody S env f).r.events := by
    unfold run; dsimp only; rw [hj]; rfl
  have h0 : Output.Quiet W { outputAsJSON := f.json } := ⟨hj, rfl, rfl⟩
  have hq : Output.Quiet W (runBody S env f).r := by
    cases hc : runPrep S env f with
    | inl x =>
      rw [runBody_prep, hc]
      have h1 := h0.find env f.args f.parseAs
      unfold runPrep at hc
      dsimp only at hc
      rw [hv, hl] at hc
      simp only [Bool.false_eq_true, if_false] at hc
      generalize findAllLockfiles env { outputAsJSON := f.json } f.args f.parseAs = found at *
      split at hc
      · cases hc
        dsimp only
        unfold printParsers
        have : ∀ (l : List Str) (r : RState), Output.Quiet W r → Output.Quiet W (l.foldl (fun r p => r.printError (.parserName p)) r) := by
          intro l
          induction l with
          | nil => exact fun _ h => h
          | cons a l ih => exact fun r h => ih _ (h.error _ (by intros; simp))
        exact this _ _ (h0.error _ (by intros; simp))
      split at hc
      · cases hc
        exact h1.error _ (by intros; simp)
      · have h2 := h1.config env f
        generalize startConfig env f found.1 = sc at hc h2
        obtain ⟨r, o⟩ := sc
        cases o with
        | none => cases hc; exact h2
        | some cc => cases hc
    | inr p =>
      exfalso
      apply hs
      refine ⟨hv, hl, fun m hm => ?_⟩
      rw [run_error_iff] at hm
      have hst : (runBody S env f).r.sum.stop = false := by
        rw [runBody_prep, hc]
        exact (finalInv env f _ _ _ _ _ (loopInv_foldl f p.2.1 _ _ _ [] p.2.2 [] p.1 (prep_inv S env f p hc).1)).stop
      have := List.any_eq_false.1 hst _ hm
      cases m <;> simp [Event.isErr, ErrMsg.isStop] at this ⊢
  rw [hev]
  unfold streamText
  rw [hq.upd]
  exact (congrArg (· ++ []) hq.out)

theorem addVuln_count (db : MemDB) (o : OSV) (names : List Str) : (db.addVulnerability o names).count = db.count + 1 := by
  unfold MemDB.addVulnerability
  dsimp only
  split <;> rfl

theorem loadAll_count (os : List OSV) (names : List Str) : (MemDB.loadAll os names).count = os.length := by
  have : ∀ (db : MemDB), (os.foldl (fun db o => db.addVulnerability o names) db).count = db.count + os.length := by
    induction os with
    | nil => intro db; simp
    | cons o os ih => intro db; rw [List.foldl_cons, ih, addVuln_count, List.length_cons]; omega
  unfold MemDB.loadAll
  rw [this]
  exact Nat.zero_add _

/-- The number that a database is described with is the number of advisories that it was loaded from. -/
theorem C80_counts (S : Sorter) (W : World) (c : DBConfig) (offline : Bool) (batchSize : Int) (names : List Str) (db : DB)
    (h : (worldLoad S W c offline batchSize names).1 = some db) :
    (∃ date, db.info = .zip (advisoriesOf W.load c offline).length date) ∨ db.info = .dir (advisoriesOf W.load c offline).length ∨
      (c.type = g!"api" ∧ db.info = .api batchSize) := by
  unfold worldLoad at h
  split at h
  · rename_i ld hld
    have hi : db.info = ld.kind.info := by
      split at h <;> (cases h; rfl)
    rcases World.loadDB_advisories W.load c offline batchSize names ld hld with ⟨u, hk⟩ | hk | ⟨ht, hk⟩
    · exact .inl ⟨u, by rw [hi, hk, DBKind.info, loadAll_count]⟩
    · exact .inr (.inl (by rw [hi, hk, DBKind.info, loadAll_count]))
    · exact .inr (.inr ⟨ht, by rw [hi, hk, DBKind.info]⟩)
  · cases h

/-- A database that was never fetched and may not be fetched is explained with the flag that forbids it; any other error
is printed as it is. -/
theorem C80_offline (paint : Color → Str → Str) (cause : LoadErr → Str) (e : LoadErr) :
    loadErrText paint cause e = match e with
      | .fetch .offlineNotFound => paint .red g!"no local version of the database was found, and --offline flag was set"
      | _ => cause e := by
  unfold loadErrText
  cases e with
  | fetch e => cases e <;> simp
  | _ => simp

/-! The hypotheses can be met. -/

/-- Output without colours. -/
def plainWords : Words :=
  ⟨fun _ s => s, fun o => o.id, g!"0.1", g!"today", g!"abc", fun _ => g!"oh no", fun _ => g!"hmm\n", fun _ => g!"{}\n"⟩

example : ∀ (c : Color) (s : Str), s ≠ [] → plainWords.paint c s ≠ [] := fun _ _ h => h

example : Started { sampleFlags [g!"d", g!"go.mod"] with updateConfigIgnores := true }
    (run Sorter.insertion sampleEnv { sampleFlags [g!"d", g!"go.mod"] with updateConfigIgnores := true }).events := by
  have : (run Sorter.insertion sampleEnv { sampleFlags [g!"d", g!"go.mod"] with updateConfigIgnores := true }).events.any
    (Event.isErr fun _ => true) = false := by decide +kernel
  refine ⟨rfl, rfl, fun m hm => ?_⟩
  exact absurd (List.any_eq_false.1 this _ hm) (by simp [Event.isErr])

example : streamText plainWords .stdout
    (run Sorter.insertion sampleEnv { sampleFlags [g!"d", g!"go.mod"] with updateConfigIgnores := true }).events =
  g!"Loaded the following OSV databases:
  Go (1 vulnerability, including withdrawn)
  npm (1 vulnerability, including withdrawn)

d/go.mod: found 1 package
  Using config at d/.osv-detector.yml (1 ignore)
  Using db Go (1 vulnerability, including withdrawn)

  no new vulnerabilities found (1 was ignored)

d/yarn.lock: found 1 package
  Using config at d/.osv-detector.yml (1 ignore)
  Using db npm (1 vulnerability, including withdrawn)

  n@1 is affected by the following vulnerabilities:
    C: C

  1 known vulnerability found in d/yarn.lock

go.mod: found 1 package
  Using db Go (1 vulnerability, including withdrawn)

  m@1 is affected by the following vulnerabilities:
    A: A

  1 known vulnerability found in go.mod

Updated d/.osv-detector.yml with 2 vulnerabilities
" := by decide +kernel

example : ¬ Started (sampleFlags [g!"x"]) (run Sorter.insertion sampleEnv (sampleFlags [g!"x"])).events := by
  intro h
  refine (h.2.2 .noPaths ?_).1 rfl
  have : (run Sorter.insertion sampleEnv (sampleFlags [g!"x"])).events.any (Event.isErr (· == .noPaths)) = true := by decide +kernel
  obtain ⟨m, hm, hs⟩ := (any_isErr _ _).1 this
  rw [← eq_of_beq hs]
  exact hm

example : streamText plainWords .stderr (run Sorter.insertion sampleEnv (sampleFlags [g!"x"])).events =
    g!"Error reading x: oh no\nYou must provide at least one path to either a lockfile or a directory containing at least one lockfile (see --help for usage and flags)\n" := by
  decide +kernel

end Osv
