import Verif.Lemmas.Discovery
import Verif.Lemmas.Databases
import Verif.Lemmas.Merge
import Verif.Lemmas.Prints
import Verif.Model.Crash
/-! # Runs with panics: lemmas -/
namespace Osv.Crash
open Spec

/-- A fold that stops at the first bad element, or else is the fold that never stops. -/
theorem fold {σ α : Type} (stepP : σ → α → Except RState σ) (step : σ → α → σ) (bad : σ → α → Bool) (r : σ → RState)
    (hok : ∀ s a, bad s a = false → stepP s a = .ok (step s a))
    (hbad : ∀ s a, bad s a = true → ∃ e, stepP s a = .error e ∧ Prints (r s) e ∧ Prints e (r (step s a)))
    (hpr : ∀ s a, Prints (r s) (r (step s a))) (l : List α) (s : σ) :
    ((∃ e, l.foldlM stepP s = .error e ∧ Prints (r s) e ∧ Prints e (r (l.foldl step s))) ∧
      ∃ pre a post, l = pre ++ a :: post ∧ bad (pre.foldl step s) a = true) ∨
    (l.foldlM stepP s = .ok (l.foldl step s) ∧ ∀ pre a post, l = pre ++ a :: post → bad (pre.foldl step s) a = false) := by
  induction l generalizing s with
  | nil => exact .inr ⟨rfl, fun pre a post h => by simp at h⟩
  | cons b l ih =>
    rw [List.foldlM_cons, List.foldl_cons]
    cases hb : bad s b with
    | true =>
      obtain ⟨e, he, hp, hp'⟩ := hbad s b hb
      rw [he]
      exact .inl ⟨⟨e, rfl, hp, hp'.trans (Prints.foldl step r hpr l _)⟩, [], b, l, rfl, hb⟩
    | false =>
      rw [hok s b hb]
      rcases ih (step s b) with ⟨⟨e, he, hp, hp'⟩, pre, a, post, hl, ha⟩ | ⟨hf, hall⟩
      · exact .inl ⟨⟨e, he, (hpr s b).trans hp, hp'⟩, b :: pre, a, post, by rw [hl]; rfl, ha⟩
      · refine .inr ⟨hf, ?_⟩
        intro pre a post hl
        cases pre with
        | nil => simp only [List.nil_append, List.cons.injEq] at hl; rw [← hl.1]; exact hb
        | cons c pre =>
          simp only [List.cons_append, List.cons.injEq] at hl
          rw [← hl.1]
          exact hall pre a post hl.2

/-! ### Reading -/

/-- The step of reading a path panics. -/
def readBad (env : Env) (checkLocal : Bool) (p : Str) : Bool :=
  (!checkLocal || (match findConfig env.validURL env.config (Path.dir (splitParseAs p).2) with | .ok _ => true | .error _ => false)) &&
    (calledParser p).any fun c => env.parsePanics c.1 c.2

theorem readStep_prints (S : Sorter) (env : Env) (args : List Str) (cl : Bool) (s : ReadState) (p : Str) :
    Prints s.r (readStep S env args cl s p).r := by
  unfold readStep
  dsimp only
  split
  · split
    · exact .refl _
    · exact Prints.dropped _ _ _
  · split <;> exact .refl _

theorem read (S : Sorter) (env : Env) (args : List Str) (cl : Bool) (paths : List Str) (s : ReadState) :
    ((∃ e, paths.foldlM (readStepP S env args cl) s = .error e ∧ Prints s.r e ∧
        Prints e (paths.foldl (readStep S env args cl) s).r) ∧ ∃ p ∈ paths, readBad env cl p = true) ∨
    (paths.foldlM (readStepP S env args cl) s = .ok (paths.foldl (readStep S env args cl) s) ∧ ∀ p ∈ paths, readBad env cl p = false) := by
  have hok : ∀ s p, readBad env cl p = false → readStepP S env args cl s p = .ok (readStep S env args cl s p) := by
    intro s p hb
    unfold readBad at hb
    unfold readStepP readStep parseLockfileP
    dsimp only
    cases cl with
    | false =>
      simp only [Bool.not_false, Bool.true_or, Bool.true_and] at hb
      simp only [Bool.false_eq_true, if_false, hb]
      split <;> rfl
    | true =>
      simp only [Bool.not_true, Bool.false_or] at hb
      simp only [if_true]
      generalize hc : findConfig env.validURL env.config (Path.dir (splitParseAs p).2) = fc at *
      cases fc with
      | error _ => rfl
      | ok v =>
        simp only [Bool.true_and] at hb
        simp only [hb, Bool.false_eq_true, if_false]
        rfl
  have hbad : ∀ s p, readBad env cl p = true → ∃ e, readStepP S env args cl s p = .error e ∧ Prints s.r e ∧
      Prints e (readStep S env args cl s p).r := by
    intro s p hb
    unfold readBad at hb
    rw [Bool.and_eq_true] at hb
    unfold readStepP readStep parseLockfileP
    dsimp only
    cases cl with
    | false =>
      simp only [Bool.false_eq_true, if_false, hb.2, if_true]
      split <;> exact ⟨_, rfl, .refl _, .refl _⟩
    | true =>
      have h1 := hb.1
      simp only [Bool.not_true, Bool.false_or] at h1
      simp only [if_true]
      have h2 := hb.2
      clear hb
      generalize hc : findConfig env.validURL env.config (Path.dir (splitParseAs p).2) = fc at *
      cases fc with
      | error _ => cases h1
      | ok v =>
        simp only [h2, if_true]
        exact ⟨_, rfl, Prints.dropped _ _ _, .refl _⟩
  rcases fold (readStepP S env args cl) (readStep S env args cl) (fun _ p => readBad env cl p) (·.r) hok hbad
    (readStep_prints S env args cl) paths s with ⟨he, pre, a, post, hl, ha⟩ | ⟨he, hall⟩
  · exact .inl ⟨he, a, by rw [hl]; simp, ha⟩
  · refine .inr ⟨he, fun p hp => ?_⟩
    obtain ⟨pre, post, hl⟩ := List.append_of_mem hp
    exact hall pre p post hl

/-! ### Loading -/

theorem loadStep_prints (env : Env) (f : Flags) (names : List Str) (acc : RState × List DB × Bool) (c : DBConfig) :
    Prints (acc.1.printText (.dbName c.name)) (loadStep env f names acc c).1 := by
  unfold loadStep
  dsimp only
  split
  · exact .error _ (.warn _ _ (.refl _))
  · exact .text _ (.warn _ _ (.refl _))

theorem load (env : Env) (f : Flags) (r : RState) (cs : List DBConfig) (names : List Str) :
    ((∃ e, loadDatabasesP env f r cs names = .error e ∧ Prints r e ∧ Prints e (loadDatabases env f r cs names).1) ∧
      f.listPackages = false ∧ ∃ c ∈ cs, env.loadPanics c f.offline f.batchSize names = true) ∨
    (loadDatabasesP env f r cs names = .ok (loadDatabases env f r cs names) ∧
      (f.listPackages = false → ∀ c ∈ cs, env.loadPanics c f.offline f.batchSize names = false)) := by
  unfold loadDatabasesP loadDatabases
  cases hl : f.listPackages with
  | true => exact .inr ⟨rfl, fun h => by cases h⟩
  | false =>
    simp only [Bool.false_eq_true, if_false]
    have hok : ∀ s c, env.loadPanics c f.offline f.batchSize names = false → loadStepP env f names s c = .ok (loadStep env f names s c) := by
      intro s c hb
      unfold loadStepP
      rw [if_neg (by rw [hb]; simp)]
    have hbad : ∀ s c, env.loadPanics c f.offline f.batchSize names = true → ∃ e, loadStepP env f names s c = .error e ∧
        Prints s.1 e ∧ Prints e (loadStep env f names s c).1 := by
      intro s c hb
      unfold loadStepP
      rw [if_pos hb]
      exact ⟨_, rfl, .text _ (.refl _), loadStep_prints env f names s c⟩
    rcases fold (loadStepP env f names) (loadStep env f names) (fun _ c => env.loadPanics c f.offline f.batchSize names) (·.1) hok hbad
      (fun s c => Prints.trans (.text _ (.refl _)) (loadStep_prints env f names s c)) cs (r.printText .loadedHeader, [], false) with
      ⟨⟨e, he, hp, hp'⟩, pre, a, post, hcs, ha⟩ | ⟨he, hall⟩
    · rw [he]
      exact .inl ⟨⟨e, rfl, .trans (.text _ (.refl _)) hp, .text _ hp'⟩, trivial, a, by rw [hcs]; simp, ha⟩
    · rw [he]
      refine .inr ⟨rfl, fun _ c hc => ?_⟩
      obtain ⟨pre, post, hcs⟩ := List.append_of_mem hc
      exact hall pre c post hcs

/-! ### Checking -/

theorem checkStep_prints (n : Nat) (lockf : Lockfile) (acc : RState × List (List (List OSV))) (db : DB) :
    Prints acc.1 (checkStep n lockf acc db).1 := by
  unfold checkStep
  dsimp only
  split
  · exact .error _ (.warn _ _ (.refl _))
  · exact .warn _ _ (.refl _)

/-- Checking with the database panics, or using its answer does. -/
def dbBad (n : Nat) (pkgs : List PackageDetails) (db : DB) : Bool :=
  db.panics n pkgs || (match (db.check n pkgs).1 with | .ok a => decide (a.length < pkgs.length) | .error _ => false)

theorem check (n : Nat) (dbs : List DB) (r : RState) (lockf : Lockfile) (ignores : List Str) :
    ((∃ e, checkLockfileP n dbs r lockf ignores = .error e ∧ Prints r e ∧ Prints e (checkLockfile n dbs r lockf ignores).1) ∧
      ∃ db ∈ dbs, dbBad n lockf.packages db = true) ∨
    (checkLockfileP n dbs r lockf ignores = .ok (checkLockfile n dbs r lockf ignores) ∧
      ∀ db ∈ dbs, dbBad n lockf.packages db = false) := by
  unfold checkLockfileP checkLockfile checkAll
  have hok : ∀ s (db : DB), db.panics n lockf.packages = false → checkStepP n lockf s db = .ok (checkStep n lockf s db) := by
    intro s c hb
    unfold checkStepP
    rw [if_neg (by rw [hb]; simp)]
  have hbad : ∀ s (db : DB), db.panics n lockf.packages = true → ∃ e, checkStepP n lockf s db = .error e ∧
      Prints s.1 e ∧ Prints e (checkStep n lockf s db).1 := by
    intro s c hb
    unfold checkStepP
    rw [if_pos hb]
    exact ⟨_, rfl, .refl _, checkStep_prints n lockf s c⟩
  have hprints : Prints r (dbs.foldl (checkStep n lockf) (r, [])).1 :=
    Prints.foldl (checkStep n lockf) (·.1) (checkStep_prints n lockf) dbs (r, [])
  rcases fold (checkStepP n lockf) (checkStep n lockf) (fun _ db => db.panics n lockf.packages) (·.1) hok hbad
    (checkStep_prints n lockf) dbs (r, []) with ⟨⟨e, he, hp, hp'⟩, pre, a, post, hcs, ha⟩ | ⟨he, hall⟩
  · rw [he]
    exact .inl ⟨⟨e, rfl, hp, hp'⟩, a, by rw [hcs]; simp, by unfold dbBad; rw [ha]; rfl⟩
  · rw [he]
    have hres := checkAll_results n lockf dbs (r, [])
    rw [List.nil_append] at hres
    generalize dbs.foldl (checkStep n lockf) (r, []) = res at *
    simp only [Except.bind]
    split
    · rename_i hany
      obtain ⟨a, ha, hlt⟩ := List.any_eq_true.1 hany
      rw [hres, List.mem_filterMap] at ha
      obtain ⟨db, hdb, hans⟩ := ha
      refine .inl ⟨⟨_, rfl, hprints, .refl _⟩, db, hdb, ?_⟩
      unfold DB.answer at hans
      unfold dbBad
      split at hans
      · rename_i h; cases hans; rw [h]; dsimp only; rw [hlt, Bool.or_true]
      · cases hans
    · rename_i hany
      refine .inr ⟨rfl, fun db hdb => ?_⟩
      obtain ⟨pre, post, hcs⟩ := List.append_of_mem hdb
      have h1 := hall pre db post hcs
      unfold dbBad
      rw [h1, Bool.false_or]
      split
      · rename_i a h
        simp only [Bool.not_eq_true, List.any_eq_false] at hany
        have := hany a (by rw [hres, List.mem_filterMap]; exact ⟨db, hdb, by unfold DB.answer; rw [h]⟩)
        simpa using this
      · rfl

/-- The step for a lockfile panics. -/
def fileBad (f : Flags) (dbs : List DB) (i : Nat) (config : Config) (x : FileEntry) : Bool :=
  !x.err && !f.listPackages && (forConfigs dbs config.databases).any (dbBad i x.lockf.packages)

theorem loopStepP_spec (f : Flags) (dbs : List DB) (s : LoopState) (x : FileEntry) :
    (fileBad f dbs s.i (s.cells.getD x.config {}) x = false → loopStepP f dbs s x = .ok (loopStep f dbs s x)) ∧
    (fileBad f dbs s.i (s.cells.getD x.config {}) x = true →
      ∃ e, loopStepP f dbs s x = .error e ∧ Prints s.r e ∧ Prints e (loopStep f dbs s x).r) := by
  unfold fileBad loopStepP loopStep
  dsimp only
  cases he : x.err with
  | true => simp
  | false =>
    simp only [Bool.false_eq_true, if_false]
    cases hl : f.listPackages with
    | true => simp
    | false =>
      simp only [Bool.false_eq_true, if_false, Bool.not_false, Bool.true_and]
      have hdbs : (if f.noConfigIgnores = true then { s.cells.getD x.config {} with ignore := [] } else s.cells.getD x.config {}).databases =
          (s.cells.getD x.config {}).databases := by split <;> rfl
      generalize (if f.noConfigIgnores = true then { s.cells.getD x.config {} with ignore := [] } else s.cells.getD x.config {}) = c at *
      have hb : Prints s.r (if s.i ≥ 1 then s.r.printText .blank else s.r) := by
        split
        · exact .text _ (.refl _)
        · exact .refl _
      generalize (if s.i ≥ 1 then s.r.printText .blank else s.r) = r0 at *
      have hb' : Prints s.r (((forConfigs dbs c.databases).foldl (fun r db => r.printText (.usingDb db.name db.info))
          (printUsingConfig f c (r0.printText (.found x.lockf.filePath x.lockf.packages.length)))).printText .blank) := by
        refine .text _ (Prints.trans (b := printUsingConfig f c (r0.printText (.found x.lockf.filePath x.lockf.packages.length))) ?_ ?_)
        · unfold printUsingConfig
          split
          · exact .text _ (.text _ hb)
          · exact .text _ hb
        · exact Prints.foldl (fun (r : RState) (db : DB) => r.printText (.usingDb db.name db.info)) id (fun _ _ => .text _ (.refl _)) _ _
      generalize (((forConfigs dbs c.databases).foldl (fun r db => r.printText (.usingDb db.name db.info))
          (printUsingConfig f c (r0.printText (.found x.lockf.filePath x.lockf.packages.length)))).printText .blank) = r1 at *
      rw [← hdbs]
      rcases check s.i (forConfigs dbs c.databases) r1 x.lockf (ignoresFor f c) with ⟨⟨e, h1, h2, h3⟩, db, hdb, hbad⟩ | ⟨h1, hall⟩
      · rw [h1]
        constructor
        · intro h
          rw [List.any_eq_false] at h
          exact absurd hbad (h db hdb)
        · intro _
          exact ⟨e, rfl, hb'.trans h2, .result _ h3⟩
      · rw [h1]
        constructor
        · intro _; rfl
        · intro h
          obtain ⟨db, hdb, hbad⟩ := List.any_eq_true.1 h
          rw [hall db hdb] at hbad
          cases hbad

/-- The position and the databases of the configs during the loop. -/
theorem loop_state (f : Flags) (dbs : List DB) (xs : List FileEntry) (s : LoopState) :
    (xs.foldl (loopStep f dbs) s).i = s.i + xs.length ∧
    ∀ k, ((xs.foldl (loopStep f dbs) s).cells.getD k {}).databases = (s.cells.getD k {}).databases := by
  induction xs generalizing s with
  | nil => exact ⟨rfl, fun _ => rfl⟩
  | cons x xs ih =>
    obtain ⟨h1, h2⟩ := ih (loopStep f dbs s x)
    rw [List.foldl_cons]
    have hset : ∀ k, ((s.cells.set x.config (if f.noConfigIgnores = true then { s.cells.getD x.config {} with ignore := [] }
        else s.cells.getD x.config {})).getD k {}).databases = (s.cells.getD k {}).databases := by
      intro k
      simp only [List.getD_eq_getElem?_getD, List.getElem?_set]
      by_cases hk : x.config = k
      · subst hk
        by_cases hlt : x.config < s.cells.length
        · simp only [hlt, if_true]
          split <;> rfl
        · simp [hlt]
      · simp [hk]
    have hone : (loopStep f dbs s x).i = s.i + 1 ∧ ∀ k, ((loopStep f dbs s x).cells.getD k {}).databases = (s.cells.getD k {}).databases := by
      unfold loopStep
      dsimp only
      split
      · exact ⟨rfl, fun _ => rfl⟩
      · split
        · exact ⟨rfl, hset⟩
        · exact ⟨rfl, hset⟩
    refine ⟨by rw [h1, hone.1, List.length_cons]; omega, fun k => by rw [h2, hone.2]⟩

theorem loop (f : Flags) (dbs : List DB) (xs : List FileEntry) (s : LoopState) :
    ((∃ e, xs.foldlM (loopStepP f dbs) s = .error e ∧ Prints s.r e ∧ Prints e (xs.foldl (loopStep f dbs) s).r) ∧
      ∃ (i : Nat) (x : FileEntry), xs[i]? = some x ∧ fileBad f dbs (s.i + i) (s.cells.getD x.config {}) x = true) ∨
    (xs.foldlM (loopStepP f dbs) s = .ok (xs.foldl (loopStep f dbs) s) ∧
      ∀ (i : Nat) (x : FileEntry), xs[i]? = some x → fileBad f dbs (s.i + i) (s.cells.getD x.config {}) x = false) := by
  have hsame : ∀ (pre : List FileEntry) (x : FileEntry), fileBad f dbs (pre.foldl (loopStep f dbs) s).i ((pre.foldl (loopStep f dbs) s).cells.getD x.config {}) x =
      fileBad f dbs (s.i + pre.length) (s.cells.getD x.config {}) x := by
    intro pre x
    obtain ⟨h1, h2⟩ := loop_state f dbs pre s
    unfold fileBad
    rw [h1, h2]
  rcases fold (loopStepP f dbs) (loopStep f dbs) (fun s x => fileBad f dbs s.i (s.cells.getD x.config {}) x) (·.r)
    (fun s x => (loopStepP_spec f dbs s x).1) (fun s x => (loopStepP_spec f dbs s x).2) (Prints.loopStep f dbs) xs s with
    ⟨he, pre, a, post, hl, ha⟩ | ⟨he, hall⟩
  · refine .inl ⟨he, pre.length, a, by rw [hl]; simp, ?_⟩
    rw [← hsame]
    exact ha
  · refine .inr ⟨he, ?_⟩
    intro i x hx
    obtain ⟨hlt, hget⟩ := List.getElem?_eq_some_iff.1 hx
    have := hall (xs.take i) x (xs.drop (i + 1)) (by rw [← hget, ← List.drop_eq_getElem_cons hlt, List.take_append_drop])
    rw [hsame, List.length_take, Nat.min_eq_left (by omega)] at this
    exact this

/-! ### The run -/

theorem startConfig_local (env : Env) (f : Flags) (r r' : RState) (c : Config) (cl : Bool)
    (h : startConfig env f r = (r', some (c, cl))) : cl = looksLocal f := by
  unfold startConfig at h
  unfold looksLocal
  split at h
  · rename_i hl; cases h; simp [hl]
  · rename_i hl
    split at h
    · rename_i hc
      simp only [Bool.and_eq_true, decide_eq_true_eq] at hc
      split at h
      · cases h
      · cases h; simp [hc.2]
    · rename_i hc
      cases h
      simp only [Bool.not_eq_true] at hl
      rw [hl]
      cases hn : f.noConfig with
      | true => rfl
      | false =>
        rw [hn] at hc
        simp only [Bool.not_false, Bool.true_and, decide_eq_true_eq, Classical.not_not] at hc
        simp [hc]

/-- Something panics in a run that gets as far as reading lockfiles. -/
def Cause (S : Sorter) (env : Env) (f : Flags) (p : LoopState × List DB × List FileEntry) : Prop :=
  (∃ path ∈ (findAllLockfiles env { outputAsJSON := f.json } f.args f.parseAs).2.1, readBad env (looksLocal f) path = true) ∨
  (f.listPackages = false ∧ ∃ c ∈ neededConfigs env f (readOf S env f),
    env.loadPanics c f.offline f.batchSize (allPackageNames env (readOf S env f).files) = true) ∨
  (∃ (i : Nat) (x : FileEntry), p.2.2[i]? = some x ∧ fileBad f p.2.1 i (p.1.cells.getD x.config {}) x = true)

theorem finish_prints (env : Env) (f : Flags) (s : LoopState) : Prints s.r (finish env f s).r := by
  unfold finish
  dsimp only
  split
  · exact Prints.write env _ _
  · exact .refl _

theorem after (env : Env) (f : Flags) (p : LoopState × List DB × List FileEntry) :
    Prints p.1.r (finish env f (p.2.2.foldl (loopStep f p.2.1) p.1)).r :=
  (Prints.foldl (loopStep f p.2.1) (·.r) (Prints.loopStep f p.2.1) p.2.2 p.1).trans (finish_prints env f _)

theorem body (S : Sorter) (env : Env) (f : Flags) :
    (∃ e, runBodyP S env f = .error e ∧ Prints { outputAsJSON := f.json } e ∧ Prints e (runBody S env f).r ∧
      ∃ p, runPrep S env f = .inr p ∧ Cause S env f p) ∨
    (runBodyP S env f = .ok (runBody S env f) ∧ ∀ p, runPrep S env f = .inr p → ¬ Cause S env f p) := by
  unfold runBodyP runBody runPrep
  dsimp only
  split
  · exact .inr ⟨rfl, fun p h => by cases h⟩
  split
  · exact .inr ⟨rfl, fun p h => by cases h⟩
  split
  · exact .inr ⟨rfl, fun p h => by cases h⟩
  split
  · exact .inr ⟨rfl, fun p h => by cases h⟩
  have hfind := Prints.find env { outputAsJSON := f.json } f.args f.parseAs
  have hstart := Prints.config env f (findAllLockfiles env { outputAsJSON := f.json } f.args f.parseAs).1
  cases hsc : startConfig env f (findAllLockfiles env { outputAsJSON := f.json } f.args f.parseAs).1 with
  | mk r o =>
    rw [hsc] at hstart
    cases o with
    | none => exact .inr ⟨rfl, fun p h => by cases h⟩
    | some cc =>
      obtain ⟨config, cl⟩ := cc
      have hcl := startConfig_local env f _ _ _ _ hsc
      subst hcl
      dsimp only
      have hread : readOf S env f = readAllLockfiles S env r
          (findAllLockfiles env { outputAsJSON := f.json } f.args f.parseAs).2.1 f.args (looksLocal f) config := by
        unfold readOf
        dsimp only
        rw [hsc]
      have hpre := hfind.trans hstart
      dsimp only at hpre
      unfold Cause
      generalize (findAllLockfiles env { outputAsJSON := f.json } f.args f.parseAs).2.1 = paths at *
      unfold prepareP
      rcases read S env f.args (looksLocal f) paths ⟨r, [config], 0, []⟩ with ⟨⟨e, he, hp, hp'⟩, hbad⟩ | ⟨he, hgood⟩
      · left
        unfold readAllLockfilesP
        rw [he]
        refine ⟨e, rfl, hpre.trans hp, ?_, _, rfl, .inl hbad⟩
        refine Prints.trans (b := (Osv.prepare S env f r paths config (looksLocal f)).1.r) (hp'.trans ?_) (after env f _)
        exact Prints.load env f _ _ _
      · unfold readAllLockfilesP
        rw [he]
        have hrd : paths.foldl (readStep S env f.args (looksLocal f)) ⟨r, [config], 0, []⟩ = readOf S env f := hread.symm
        rw [hrd] at *
        have hprep : Osv.prepare S env f r paths config (looksLocal f) =
            ({ r := (loadDatabases env f (readOf S env f).r (neededConfigs env f (readOf S env f)) (allPackageNames env (readOf S env f).files)).1
               cells := adjustExtraDatabases env f (readOf S env f).files (readOf S env f).cells
               exit := if (loadDatabases env f (readOf S env f).r (neededConfigs env f (readOf S env f))
                  (allPackageNames env (readOf S env f).files)).2.2 then 127 else 0 },
              (loadDatabases env f (readOf S env f).r (neededConfigs env f (readOf S env f)) (allPackageNames env (readOf S env f).files)).2.1,
              (readOf S env f).files) := by
          unfold Osv.prepare neededConfigs
          rw [← hread]
        have hr0 : Prints r (readOf S env f).r := by rw [hread]; exact Prints.read S env r paths f.args _ config
        rw [hprep]
        show (∃ e, ((loadDatabasesP env f (readOf S env f).r (neededConfigs env f (readOf S env f))
            (allPackageNames env (readOf S env f).files)).map _).bind _ = _ ∧ _) ∨ (((loadDatabasesP env f (readOf S env f).r
            (neededConfigs env f (readOf S env f)) (allPackageNames env (readOf S env f).files)).map _).bind _ = _ ∧ _)
        rcases load env f (readOf S env f).r (neededConfigs env f (readOf S env f)) (allPackageNames env (readOf S env f).files) with
          ⟨⟨e, hle, hlp, hlp'⟩, hl, hlbad⟩ | ⟨hle, hlgood⟩
        · left
          rw [hle]
          refine ⟨e, rfl, hpre.trans (hr0.trans hlp), ?_, _, rfl, .inr (.inl ⟨hl, hlbad⟩)⟩
          have haf := after env f (Osv.prepare S env f r paths config (looksLocal f))
          rw [hprep] at haf
          exact hlp'.trans haf
        · rw [hle]
          have hr1 := Prints.load env f (readOf S env f).r (neededConfigs env f (readOf S env f)) (allPackageNames env (readOf S env f).files)
          generalize loadDatabases env f (readOf S env f).r (neededConfigs env f (readOf S env f)) (allPackageNames env (readOf S env f).files) = ld at *
          show (∃ e, ((readOf S env f).files.foldlM (loopStepP f ld.2.1) _).map _ = _ ∧ _) ∨
            (((readOf S env f).files.foldlM (loopStepP f ld.2.1) _).map _ = _ ∧ _)
          rcases loop f ld.2.1 (readOf S env f).files
            { r := ld.1, cells := adjustExtraDatabases env f (readOf S env f).files (readOf S env f).cells, exit := if ld.2.2 then 127 else 0 } with
            ⟨⟨e, hxe, hxp, hxp'⟩, i, x, hix, hxbad⟩ | ⟨hxe, hxgood⟩
          · left
            rw [hxe]
            refine ⟨e, rfl, hpre.trans (hr0.trans (hr1.trans hxp)), hxp'.trans (finish_prints env f _), _, rfl, .inr (.inr ⟨i, x, hix, ?_⟩)⟩
            rw [Nat.zero_add] at hxbad
            exact hxbad
          · right
            rw [hxe]
            refine ⟨rfl, ?_⟩
            intro p hp
            cases hp
            rintro (⟨path, hm, hb⟩ | ⟨hl, c, hc, hb⟩ | ⟨i, x, hix, hb⟩)
            · rw [hgood path hm] at hb; cases hb
            · rw [hlgood hl c hc] at hb; cases hb
            · have := hxgood i x hix
              rw [Nat.zero_add] at this
              dsimp only at hb
              rw [this] at hb
              cases hb

end Osv.Crash
