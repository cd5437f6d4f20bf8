import Verif.Lemmas.Run
import Verif.Lemmas.Merge
/-!
# The loop over the lockfiles as a function

The results, the errors and the collected IDs do not depend on the state of the loop.
-/
namespace Osv
open Spec

/-- The report for the `i`-th file with config `c`. -/
def reportOf (f : Flags) (dbs : List DB) (c : Config) (i : Nat) (l : Lockfile) : Report :=
  ⟨l, l.packages.mapIdx fun k pkg => transposePkgResults pkg (ignoresFor f c) k
    ((forConfigs dbs c.databases).filterMap fun db => db.answer i l.packages)⟩

theorem checkLockfile_report (n : Nat) (dbs : List DB) (r : RState) (l : Lockfile) (f : Flags) (c : Config) :
    (checkLockfile n (forConfigs dbs c.databases) r l (ignoresFor f c)).2 = reportOf f dbs c n l := by
  have h := checkAll_results n l (forConfigs dbs c.databases) (r, [])
  unfold checkLockfile reportOf checkAll
  dsimp only
  rw [h]
  rfl

/-- Configs that are treated alike. -/
def CfgSame (f : Flags) (c c' : Config) : Prop :=
  c.filePath = c'.filePath ∧ c.databases = c'.databases ∧ (f.noConfigIgnores = false → c.ignore = c'.ignore)

theorem CfgSame.refl (f : Flags) (c : Config) : CfgSame f c c := ⟨rfl, rfl, fun _ => rfl⟩

theorem CfgSame.ignores {f : Flags} {c c' : Config} (h : CfgSame f c c') : ignoresFor f c = ignoresFor f c' := by
  unfold ignoresFor
  rw [h.1]
  cases hn : f.noConfigIgnores with
  | true => simp
  | false => rw [h.2.2 hn]

theorem CfgSame.report {f : Flags} {c c' : Config} (h : CfgSame f c c') (dbs : List DB) (i : Nat) (l : Lockfile) :
    reportOf f dbs c i l = reportOf f dbs c' i l := by
  unfold reportOf
  rw [h.ignores, h.2.1]

def CellsSame (f : Flags) (a b : List Config) : Prop := ∀ k, CfgSame f (a.getD k {}) (b.getD k {})

theorem getD_set (l : List Config) (k m : Nat) (c : Config) :
    (l.set k c).getD m {} = if k = m ∧ k < l.length then c else l.getD m {} := by
  rw [List.getD_eq_getElem?_getD, List.getD_eq_getElem?_getD, List.getElem?_set]
  by_cases h : k = m
  · subst h
    by_cases h' : k < l.length
    · simp [h']
    · simp [h']
  · simp [h]

theorem cellsSame_clear (f : Flags) (a b : List Config) (k : Nat) (h : CellsSame f a b) :
    CellsSame f (a.set k (if f.noConfigIgnores then { a.getD k {} with ignore := [] } else a.getD k {})) b := by
  intro m
  rw [getD_set]
  split
  · rename_i hk
    obtain ⟨rfl, _⟩ := hk
    obtain ⟨h1, h2, h3⟩ := h k
    cases hn : f.noConfigIgnores with
    | true => exact ⟨h1, h2, by simp [hn]⟩
    | false => exact ⟨h1, h2, h3⟩
  · exact h m

/-- The result for a file. -/
def resultOf (f : Flags) (dbs : List DB) (cells : List Config) (i : Nat) (x : FileEntry) : Option Result :=
  if x.err then none
  else some (if f.listPackages then .lockfile x.lockf else .report (reportOf f dbs (cells.getD x.config {}) i x.lockf))

/-- All results, the first file being number `i`. -/
def loopResults (f : Flags) (dbs : List DB) (cells : List Config) : Nat → List FileEntry → List Result
  | _, [] => []
  | i, x :: xs => (resultOf f dbs cells i x).toList ++ loopResults f dbs cells (i + 1) xs

/-- Whether an error is printed for a file. -/
def fileErr (f : Flags) (dbs : List DB) (cells : List Config) (i : Nat) (x : FileEntry) : Bool :=
  x.err || (!f.listPackages &&
    (forConfigs dbs (cells.getD x.config {}).databases).any fun db => (db.answer i x.lockf.packages).isNone)

/-- Whether an error is printed in the loop. -/
def loopErr (f : Flags) (dbs : List DB) (cells : List Config) : Nat → List FileEntry → Bool
  | _, [] => false
  | i, x :: xs => fileErr f dbs cells i x || loopErr f dbs cells (i + 1) xs

/-- The IDs collected for a file. -/
def perStep (f : Flags) (dbs : List DB) (cells : List Config) (i : Nat) (per : SMap (List Str)) (x : FileEntry) :
    SMap (List Str) :=
  let c := cells.getD x.config {}
  if x.err = false ∧ f.listPackages = false ∧ f.updateConfigIgnores = true ∧ c.filePath ≠ [] then
    per.set c.filePath ((per.get? c.filePath).getD [] ++ reportIds (reportOf f dbs c i x.lockf))
  else per

/-- The IDs collected in the loop. -/
def loopPer (f : Flags) (dbs : List DB) (cells : List Config) : Nat → SMap (List Str) → List FileEntry → SMap (List Str)
  | _, per, [] => per
  | i, per, x :: xs => loopPer f dbs cells (i + 1) (perStep f dbs cells i per x) xs

theorem checkAll_any (n : Nat) (l : Lockfile) (dbs : List DB) (acc : RState × List (List (List OSV))) :
    (dbs.foldl (checkStep n l) acc).1.sum.any =
      (acc.1.sum.any || dbs.any fun db => (db.answer n l.packages).isNone) := by
  induction dbs generalizing acc with
  | nil => simp
  | cons db dbs ih =>
    rw [List.foldl_cons, ih]
    cases h : (db.check n l.packages).1 <;> simp [checkStep, DB.answer, h, Sum.err]

theorem loopStep_fun (f : Flags) (dbs : List DB) (cells : List Config) (s : LoopState) (x : FileEntry)
    (h : CellsSame f s.cells cells) :
    let s' := loopStep f dbs s x
    CellsSame f s'.cells cells ∧ s'.i = s.i + 1 ∧
      s'.r.sum.shown = s.r.sum.shown ++ (resultOf f dbs cells s.i x).toList ∧
      s'.r.sum.any = (s.r.sum.any || fileErr f dbs cells s.i x) ∧
      s'.perConfig = perStep f dbs cells s.i s.perConfig x := by
  have hb : (if s.i ≥ 1 then s.r.printText .blank else s.r).sum = s.r.sum := by split <;> simp
  unfold loopStep
  generalize (if s.i ≥ 1 then s.r.printText .blank else s.r) = r0 at hb
  dsimp only
  cases he : x.err with
  | true =>
    simp only [if_true]
    exact ⟨h, trivial, by simp [hb, Sum.err, resultOf, he], by simp [Sum.err, fileErr, he], by simp [perStep, he]⟩
  | false =>
    simp only [Bool.false_eq_true, if_false]
    have hc := cellsSame_clear f s.cells cells x.config h
    cases hl : f.listPackages with
    | true =>
      simp only [if_true]
      exact ⟨hc, trivial, by simp [hb, Sum.res, resultOf, he, hl], by simp [hb, Sum.res, fileErr, he, hl],
        by simp [perStep, hl]⟩
    | false =>
      simp only [Bool.false_eq_true, if_false]
      have hsame : CfgSame f (if f.noConfigIgnores then { s.cells.getD x.config {} with ignore := [] }
          else s.cells.getD x.config {}) (cells.getD x.config {}) := by
        obtain ⟨h1, h2, h3⟩ := h x.config
        cases hn : f.noConfigIgnores with
        | true => exact ⟨h1, h2, by simp [hn]⟩
        | false => exact ⟨h1, h2, h3⟩
      generalize (if f.noConfigIgnores then { s.cells.getD x.config {} with ignore := [] }
          else s.cells.getD x.config {} : Config) = c at hc hsame
      have hr : ((forConfigs dbs c.databases).foldl (fun r db => r.printText (.usingDb db.name db.info))
          (printUsingConfig f c (r0.printText (.found x.lockf.filePath x.lockf.packages.length)))).sum = s.r.sum := by
        rw [sum_foldl_printText (fun db : DB => .usingDb db.name db.info), sum_printUsingConfig]; simp [hb]
      generalize hr1 : ((forConfigs dbs c.databases).foldl (fun r db => r.printText (.usingDb db.name db.info))
          (printUsingConfig f c (r0.printText (.found x.lockf.filePath x.lockf.packages.length)))) = r1 at hr
      have hs := soft_checkAll s.i x.lockf (forConfigs dbs c.databases) (r1.printText .blank)
      have hany := checkAll_any s.i x.lockf (forConfigs dbs c.databases) (r1.printText .blank, [])
      have hrep := checkLockfile_report s.i dbs (r1.printText .blank) x.lockf f c
      have hfst : (checkLockfile s.i (forConfigs dbs c.databases) (r1.printText .blank) x.lockf (ignoresFor f c)).1 =
        (checkAll s.i x.lockf (forConfigs dbs c.databases) (r1.printText .blank)).1 := rfl
      generalize checkLockfile s.i (forConfigs dbs c.databases) (r1.printText .blank) x.lockf (ignoresFor f c) = res at hrep hfst
      rw [hsame.report] at hrep
      have hfst' : res.1.sum.any = _ := (congrArg (fun r : RState => r.sum.any) hfst).trans hany
      rw [← hfst, sum_printText, hr] at hs
      rw [sum_printText, hr] at hfst'
      obtain ⟨s1, s2, s3, s4, s5, s6, s7⟩ := hs
      refine ⟨hc, trivial, ?_, ?_, ?_⟩
      · simp [Sum.res, s4, resultOf, he, hl, hrep]
      · simp [Sum.res, hfst', fileErr, he, hl, hsame.2.1]
      · simp [perStep, he, hl, hsame.1, hrep]

theorem loop_fun (f : Flags) (dbs : List DB) (cells : List Config) (files : List FileEntry) (s : LoopState)
    (h : CellsSame f s.cells cells) :
    let s' := files.foldl (loopStep f dbs) s
    s'.r.sum.shown = s.r.sum.shown ++ loopResults f dbs cells s.i files ∧
      s'.r.sum.any = (s.r.sum.any || loopErr f dbs cells s.i files) ∧
      s'.perConfig = loopPer f dbs cells s.i s.perConfig files := by
  induction files generalizing s with
  | nil => simp [loopResults, loopErr, loopPer]
  | cons x xs ih =>
    obtain ⟨h1, h2, h3, h4, h5⟩ := loopStep_fun f dbs cells s x h
    obtain ⟨i1, i2, i3⟩ := ih (loopStep f dbs s x) h1
    rw [List.foldl_cons]
    dsimp only at *
    rw [h2, h3] at i1
    rw [h2, h4] at i2
    rw [h2, h5] at i3
    refine ⟨?_, ?_, ?_⟩
    · rw [i1]; simp [loopResults]
    · rw [i2]; simp [loopErr, Bool.or_assoc]
    · rw [i3]; rfl

/-- Everything before the loop: the program stops, or the loop starts. -/
def runPrep (S : Sorter) (env : Env) (f : Flags) : Final ⊕ (LoopState × List DB × List FileEntry) :=
  let r : RState := { outputAsJSON := f.json }
  if f.printVersion then .inl ⟨0, r.printText .version, env.config⟩
  else if f.listEcosystems then .inl ⟨0, printKnownEcosystems r, env.config⟩
  else if badParseAs f then .inl ⟨127, printParsers (r.printError (.badParseAs f.parseAs)), env.config⟩
  else
    let found := findAllLockfiles env r f.args f.parseAs
    if found.2.1.length = 0 then
      .inl ⟨if decide (f.args.length > 0) && !found.2.2 then 128 else 127, found.1.printError .noPaths, env.config⟩
    else match startConfig env f found.1 with
      | (r, none) => .inl ⟨127, r, env.config⟩
      | (r, some (config, checkLocal)) => .inr (prepare S env f r found.2.1 config checkLocal)

theorem runBody_prep (S : Sorter) (env : Env) (f : Flags) :
    runBody S env f = match runPrep S env f with
      | .inl x => x
      | .inr p => finish env f (p.2.2.foldl (loopStep f p.2.1) p.1) := by
  unfold runBody runPrep
  cases f.printVersion
  · cases f.listEcosystems
    · cases badParseAs f
      · simp only [Bool.false_eq_true, if_false]
        split
        · rfl
        · cases startConfig env f (findAllLockfiles env { outputAsJSON := f.json } f.args f.parseAs).1 with
          | mk r o => cases o <;> rfl
      · rfl
    · rfl
  · rfl

/-! ### Two runs that only differ in ignores -/

def Config.strip (c : Config) : Config := { c with ignore := [] }

/-- Config files that agree except for their ignores. -/
inductive FileSame : ConfigFile → ConfigFile → Prop where
  | missing : FileSame .missing .missing
  | unreadable : FileSame .unreadable .unreadable
  | malformed : FileSame .malformed .malformed
  | ok (r r' : RawConfig) (h : r.databases = r'.databases) : FileSame (.ok r) (.ok r')

theorem FileSame.refl (c : ConfigFile) : FileSame c c := by
  cases c
  · exact .missing
  · exact .unreadable
  · exact .malformed
  · exact .ok _ _ rfl

def FilesSame (a b : Str → ConfigFile) : Prop := ∀ p, FileSame (a p) (b p)

/-- Results of loading configs that agree except for the ignores. -/
inductive LoadSame : Except ConfigErr (Config × List RawDBErr) → Except ConfigErr (Config × List RawDBErr) → Prop where
  | error (e : ConfigErr) : LoadSame (.error e) (.error e)
  | ok (c c' : Config) (d : List RawDBErr) (h : c.strip = c'.strip) : LoadSame (.ok (c, d)) (.ok (c', d))

theorem newConfig_strip (v : Str → Bool) (ds : List RawDB) (a b : Config × List RawDBErr)
    (h : a.1.strip = b.1.strip ∧ a.2 = b.2) :
    (ds.foldl (newConfigStep v) a).1.strip = (ds.foldl (newConfigStep v) b).1.strip ∧
      (ds.foldl (newConfigStep v) a).2 = (ds.foldl (newConfigStep v) b).2 := by
  induction ds generalizing a b with
  | nil => exact h
  | cons d ds ih =>
    simp only [List.foldl_cons]
    apply ih
    obtain ⟨h1, h2⟩ := h
    unfold newConfigStep
    cases d.toConfig v with
    | error e => exact ⟨h1, by simp [h2]⟩
    | ok dbc =>
      refine ⟨?_, h2⟩
      simp only [Config.strip, Config.mk.injEq] at h1 ⊢
      simp [h1.1, h1.2.2]

theorem newConfig_same (v : Str → Bool) (p : Str) (r r' : RawConfig) (h : r.databases = r'.databases) :
    (newConfig v p r).1.strip = (newConfig v p r').1.strip ∧ (newConfig v p r).2 = (newConfig v p r').2 := by
  unfold newConfig
  rw [h]
  exact newConfig_strip v r'.databases _ _ ⟨rfl, rfl⟩

theorem loadConfig_same (v : Str → Bool) (a b : Str → ConfigFile) (h : FilesSame a b) (p : Str) :
    LoadSame (loadConfig v a p) (loadConfig v b p) := by
  unfold loadConfig loadRaw
  dsimp only
  have := h (Path.clean p)
  generalize a (Path.clean p) = x at this
  generalize b (Path.clean p) = y at this
  cases this
  · exact .error _
  · exact .error _
  · exact .error _
  · rename_i r r' hd
    dsimp only
    obtain ⟨h1, h2⟩ := newConfig_same v (Path.clean p) r r' hd
    have e1 : newConfig v (Path.clean p) r = ((newConfig v (Path.clean p) r).1, (newConfig v (Path.clean p) r).2) := rfl
    have e2 : newConfig v (Path.clean p) r' = ((newConfig v (Path.clean p) r').1, (newConfig v (Path.clean p) r).2) := by
      rw [h2]
    rw [e1, e2]
    exact .ok _ _ _ h1

theorem findConfig_same (v : Str → Bool) (a b : Str → ConfigFile) (h : FilesSame a b) (d : Str) :
    LoadSame (findConfig v a d) (findConfig v b d) := by
  unfold findConfig
  have h1 := loadConfig_same v a b h (d ++ g!"/" ++ g!".osv-detector" ++ g!".yml")
  have h2 := loadConfig_same v a b h (d ++ g!"/" ++ g!".osv-detector" ++ g!".yaml")
  generalize loadConfig v a (d ++ g!"/" ++ g!".osv-detector" ++ g!".yml") = x at h1
  generalize loadConfig v b (d ++ g!"/" ++ g!".osv-detector" ++ g!".yml") = y at h1
  generalize loadConfig v a (d ++ g!"/" ++ g!".osv-detector" ++ g!".yaml") = x' at h2
  generalize loadConfig v b (d ++ g!"/" ++ g!".osv-detector" ++ g!".yaml") = y' at h2
  cases h1 with
  | ok c c' ds hc => exact .ok c c' ds hc
  | error e =>
    cases e with
    | notExist p =>
      cases h2 with
      | ok c c' ds hc => exact .ok c c' ds hc
      | error e' =>
        cases e' with
        | notExist p => exact .ok _ _ _ rfl
        | _ => exact .error _
    | _ => exact .error _

theorem getD_strip (l : List Config) (k : Nat) : (l.map Config.strip).getD k {} = (l.getD k {}).strip := by
  rw [List.getD_eq_getElem?_getD, List.getD_eq_getElem?_getD, List.getElem?_map]
  cases l[k]? <;> rfl

theorem strip_getD_of_map {a b : List Config} (h : a.map Config.strip = b.map Config.strip) (k : Nat) :
    (a.getD k {}).strip = (b.getD k {}).strip := by rw [← getD_strip, ← getD_strip, h]

theorem strip_filePath {c c' : Config} (h : c.strip = c'.strip) : c.filePath = c'.filePath := by
  simp only [Config.strip, Config.mk.injEq] at h; exact h.1
theorem strip_databases {c c' : Config} (h : c.strip = c'.strip) : c.databases = c'.databases := by
  simp only [Config.strip, Config.mk.injEq] at h; exact h.2.2

/-- States of `readAllLockfiles` that agree except for ignores. -/
def ReadSame (s s' : ReadState) : Prop :=
  s.r = s'.r ∧ s.cells.map Config.strip = s'.cells.map Config.strip ∧ s.cur = s'.cur ∧ s.files = s'.files

theorem length_of_strip {a b : List Config} (h : a.map Config.strip = b.map Config.strip) : a.length = b.length := by
  have := congrArg List.length h; simpa using this

theorem parseLockfile_config (S : Sorter) (env : Env) (file : Str → ConfigFile) (p : Str) (args : List Str) :
    parseLockfile S { env with config := file } p args = parseLockfile S env p args := rfl

theorem readStep_same (S : Sorter) (env : Env) (file : Str → ConfigFile) (h : FilesSame env.config file)
    (args : List Str) (cl : Bool) (s s' : ReadState) (hs : ReadSame s s') (p : Str) :
    ReadSame (readStep S env args cl s p) (readStep S { env with config := file } args cl s' p) := by
  obtain ⟨h1, h2, h3, h4⟩ := hs
  have hlen := length_of_strip h2
  have hp : parseLockfile S { env with config := file } p args = parseLockfile S env p args := rfl
  unfold readStep
  rw [hp]
  generalize parseLockfile S env p args = lf
  dsimp only
  cases cl with
  | true =>
    simp only [if_true]
    have hf := findConfig_same env.validURL env.config file h (Path.dir (splitParseAs p).2)
    generalize findConfig env.validURL env.config (Path.dir (splitParseAs p).2) = x at hf
    generalize findConfig env.validURL file (Path.dir (splitParseAs p).2) = y at hf
    cases hf with
    | error e => exact ⟨h1, h2, h3, by simp [h3, h4]⟩
    | ok c c' d hc => exact ⟨by simp [h1, strip_filePath hc], by simp [h2, hc], by simp [hlen], by simp [hlen, h4]⟩
  | false =>
    simp only [Bool.false_eq_true, if_false]
    have hg := strip_getD_of_map h2 s.cur
    rw [← h3, strip_filePath hg]
    split
    · exact ⟨h1, by simp only [List.map_append, h2, List.map_cons, hg, List.map_nil], hlen, by simp [h4, hlen]⟩
    · exact ⟨h1, h2, rfl, by simp [h4]⟩

theorem readAll_same (S : Sorter) (env : Env) (file : Str → ConfigFile) (h : FilesSame env.config file)
    (r : RState) (paths args : List Str) (cl : Bool) (c c' : Config) (hc : c.strip = c'.strip) :
    ReadSame (readAllLockfiles S env r paths args cl c)
      (readAllLockfiles S { env with config := file } r paths args cl c') := by
  unfold readAllLockfiles
  have h0 : ReadSame ⟨r, [c], 0, []⟩ ⟨r, [c'], 0, []⟩ := ⟨rfl, by simp [hc], rfl, rfl⟩
  generalize (⟨r, [c], 0, []⟩ : ReadState) = s at h0
  generalize (⟨r, [c'], 0, []⟩ : ReadState) = s' at h0
  induction paths generalizing s s' with
  | nil => exact h0
  | cons p ps ih => exact ih _ _ (readStep_same S env file h args cl s s' h0 p)

theorem map_strip_set (l : List Config) (k : Nat) (c : Config) :
    (l.set k c).map Config.strip = (l.map Config.strip).set k c.strip := by simp [List.map_set]

theorem adjust_same (env env' : Env) (f f' : Flags) (files : List FileEntry) (a b : List Config)
    (hi : env'.iter = env.iter) (h1 : f'.noConfigDatabases = f.noConfigDatabases) (h2 : f'.useAPI = f.useAPI)
    (h3 : f'.useDatabases = f.useDatabases) (h : a.map Config.strip = b.map Config.strip) :
    (adjustExtraDatabases env f files a).map Config.strip = (adjustExtraDatabases env' f' files b).map Config.strip := by
  unfold adjustExtraDatabases
  induction files generalizing a b with
  | nil => exact h
  | cons x xs ih =>
    simp only [List.foldl_cons]
    apply ih
    unfold adjustStep collectEcosystems
    rw [hi, h1, h2, h3]
    split
    · exact h
    · have hg := strip_getD_of_map h x.config
      dsimp only
      rw [map_strip_set, map_strip_set, h]
      congr 1
      simp only [Config.strip, Config.mk.injEq] at hg ⊢
      rw [hg.1, hg.2.2]
      exact ⟨rfl, trivial, rfl⟩

theorem getConfigs_same (files : List FileEntry) (a b : List Config) (h : a.map Config.strip = b.map Config.strip) :
    (getConfigs files a).map (·.databases) = (getConfigs files b).map (·.databases) := by
  unfold getConfigs
  simp only [List.map_map]
  apply List.map_congr_left
  intro x _
  exact strip_databases (strip_getD_of_map h x.config)

theorem loadDatabases_same (env : Env) (file : Str → ConfigFile) (f : Flags) (g : List Str) (r : RState)
    (cs : List DBConfig) (names : List Str) :
    loadDatabases { env with config := file } { f with globalIgnores := g } r cs names = loadDatabases env f r cs names := rfl

/-- Starts of the loop that agree except for ignores. -/
def LoopStartSame (p p' : LoopState × List DB × List FileEntry) : Prop :=
  p.1.r = p'.1.r ∧ p.1.exit = p'.1.exit ∧ p.1.cells.map Config.strip = p'.1.cells.map Config.strip ∧
    p.2 = p'.2 ∧ p.1.perConfig = p'.1.perConfig ∧ p.1.i = p'.1.i

theorem prepare_same (S : Sorter) (env : Env) (file : Str → ConfigFile) (h : FilesSame env.config file)
    (f : Flags) (g : List Str) (r : RState) (paths : List Str) (cl : Bool) (c c' : Config) (hc : c.strip = c'.strip) :
    LoopStartSame (prepare S env f r paths c cl)
      (prepare S { env with config := file } { f with globalIgnores := g } r paths c' cl) := by
  unfold prepare
  have hr := readAll_same S env file h r paths f.args cl c c' hc
  dsimp only
  generalize readAllLockfiles S env r paths f.args cl c = rs at *
  generalize readAllLockfiles S { env with config := file } r paths f.args cl c' = rs' at *
  obtain ⟨r1, r2, r3, r4⟩ := hr
  have ha := adjust_same env { env with config := file } f { f with globalIgnores := g } rs.files rs.cells rs'.cells
    rfl rfl rfl rfl r2
  have hg := getConfigs_same rs.files _ _ ha
  rw [loadDatabases_same, ← r1, ← r4, ← hg]
  exact ⟨rfl, rfl, ha, rfl, rfl, rfl⟩

/-- Outcomes before the loop that agree except for ignores. -/
inductive PrepSame : Final ⊕ (LoopState × List DB × List FileEntry) → Final ⊕ (LoopState × List DB × List FileEntry) → Prop where
  | stop (x x' : Final) (h : x.exit = x'.exit) (hr : x.r = x'.r) : PrepSame (.inl x) (.inl x')
  | go (p p' : LoopState × List DB × List FileEntry) (h : LoopStartSame p p') : PrepSame (.inr p) (.inr p')

theorem prep_same (S : Sorter) (env : Env) (file : Str → ConfigFile) (h : FilesSame env.config file)
    (f : Flags) (g : List Str) :
    PrepSame (runPrep S env f) (runPrep S { env with config := file } { f with globalIgnores := g }) := by
  generalize he : ({ env with config := file } : Env) = env'
  generalize hf : ({ f with globalIgnores := g } : Flags) = f'
  have e1 : f'.json = f.json := by subst hf; rfl
  have e2 : f'.printVersion = f.printVersion := by subst hf; rfl
  have e3 : f'.listEcosystems = f.listEcosystems := by subst hf; rfl
  have e4 : badParseAs f' = badParseAs f := by subst hf; rfl
  have e5 : ∀ r, findAllLockfiles env' r f'.args f'.parseAs = findAllLockfiles env r f.args f.parseAs := by
    subst hf; subst he; intro r; rfl
  have e6 : f'.parseAs = f.parseAs := by subst hf; rfl
  have e7 : f'.args = f.args := by subst hf; rfl
  unfold runPrep
  simp only [e1, e2, e3, e4, e5]
  rw [e6, e7]
  cases f.printVersion with
  | true => exact .stop _ _ rfl rfl
  | false =>
  cases f.listEcosystems with
  | true => exact .stop _ _ rfl rfl
  | false =>
  cases badParseAs f with
  | true => exact .stop _ _ rfl rfl
  | false =>
  simp only [Bool.false_eq_true, if_false]
  generalize findAllLockfiles env { outputAsJSON := f.json } f.args f.parseAs = found
  by_cases h0 : found.2.1.length = 0
  · rw [if_pos h0, if_pos h0]; exact .stop _ _ rfl rfl
  · rw [if_neg h0, if_neg h0]
    have hsc : (startConfig env f found.1).1 = (startConfig env' f' found.1).1 ∧
        ((startConfig env f found.1).2 = none ∧ (startConfig env' f' found.1).2 = none ∨
        ∃ c c' b, c.strip = c'.strip ∧ (startConfig env f found.1).2 = some (c, b) ∧
          (startConfig env' f' found.1).2 = some (c', b)) := by
      subst hf; subst he
      unfold startConfig
      dsimp only
      split
      · exact ⟨rfl, .inr ⟨_, _, _, rfl, rfl, rfl⟩⟩
      · split
        · have hlc := loadConfig_same env.validURL env.config file h f.configPath
          generalize loadConfig env.validURL env.config f.configPath = x at hlc
          generalize loadConfig env.validURL file f.configPath = y at hlc
          cases hlc with
          | error e => exact ⟨rfl, .inl ⟨rfl, rfl⟩⟩
          | ok c c' d hc => exact ⟨by simp [strip_filePath hc], .inr ⟨_, _, _, hc, rfl, rfl⟩⟩
        · exact ⟨rfl, .inr ⟨_, _, _, rfl, rfl, rfl⟩⟩
    rcases h1 : startConfig env f found.1 with ⟨r, o⟩
    rcases h2 : startConfig env' f' found.1 with ⟨r', o'⟩
    rw [h1, h2] at hsc
    obtain ⟨hr, hsc⟩ := hsc
    dsimp only at hr hsc
    subst hr
    rcases hsc with ⟨rfl, rfl⟩ | ⟨c, c', b, hc, rfl, rfl⟩
    · exact .stop _ _ rfl rfl
    · subst hf; subst he
      exact .go _ _ (prepare_same S env file h f g r found.2.1 b c c' hc)

/-- The state in which the loop starts. -/
theorem prep_inv (S : Sorter) (env : Env) (f : Flags) (p : LoopState × List DB × List FileEntry)
    (hp : runPrep S env f = .inr p) :
    LoopInv f.json p.1.r.sum.hard p.1.r.sum.any [] [] p.1 ∧ p.1.i = 0 ∧ p.1.perConfig = [] ∧ p.1.r.sum.shown = [] := by
  have h0 := sum_start f.json
  have hf := soft_findAll env { outputAsJSON := f.json } f.args f.parseAs
  unfold runPrep at hp
  dsimp only at hp
  generalize findAllLockfiles env { outputAsJSON := f.json } f.args f.parseAs = found at *
  rw [h0] at hf
  obtain ⟨s1, s2, s3, s4, s5, s6, s7⟩ := hf
  split at hp
  · cases hp
  split at hp
  · cases hp
  split at hp
  · cases hp
  split at hp
  · cases hp
  have hsc : (startConfig env f found.1).2 = none ∨ found.1.sum.Soft (startConfig env f found.1).1.sum := by
    unfold startConfig
    split
    · exact .inr (.refl _)
    · split
      · split
        · exact .inl rfl
        · exact .inr (soft_printDropped _ _ _)
      · exact .inr (.refl _)
  rcases hst : startConfig env f found.1 with ⟨r, o⟩
  rw [hst] at hsc hp
  cases o with
  | none => cases hp
  | some cc =>
    obtain ⟨c, cl⟩ := cc
    dsimp only at hp
    cases hp
    rcases hsc with hn | hs
    · cases hn
    · obtain ⟨t1, t2, t3, t4, t5, t6, t7⟩ := hs
      dsimp only at *
      have hinv := loopInv_prepare S env f r found.2.1 c cl (t3.trans s3) (t5.trans s5) (t6 (s6 rfl)) (t2.trans s2) (t4.trans s4)
      obtain ⟨a1, a2, a3, a4, a5, a6, a7, a8⟩ := hinv
      have hsh : (prepare S env f r found.2.1 c cl).1.r.sum.shown = [] := by
        have := a6
        simp only [List.map_nil, List.filter_nil, List.append_nil] at this
        exact List.map_eq_nil_iff.1 this
      exact ⟨⟨a1.trans (t1.trans s1), a2, a3, a4, a5, a6, by simp, id⟩, rfl, rfl, hsh⟩

/-- Exit code and results of a run, as functions of the state in which the loop starts. -/
theorem runBody_go (S : Sorter) (env : Env) (f : Flags) (p : LoopState × List DB × List FileEntry)
    (hp : runPrep S env f = .inr p) :
    let x := runBody S env f
    x.r.sum.shown = loopResults f p.2.1 p.1.cells 0 p.2.2 ∧
    x.r.sum.hard = (p.1.r.sum.hard || p.2.2.any (·.err)) ∧
    (x.exit = if exitOf x.r.sum.hard x.r.sum.shown = 0 ∧ x.r.sum.any = true then 127
      else exitOf x.r.sum.hard x.r.sum.shown) ∧
    x = finish env f (p.2.2.foldl (loopStep f p.2.1) p.1) ∧
    (p.2.2.foldl (loopStep f p.2.1) p.1).perConfig = loopPer f p.2.1 p.1.cells 0 [] p.2.2 ∧
    (p.2.2.foldl (loopStep f p.2.1) p.1).r.sum.any = (p.1.r.sum.any || loopErr f p.2.1 p.1.cells 0 p.2.2) := by
  obtain ⟨hinv, hi, hper, hsh⟩ := prep_inv S env f p hp
  have hx : runBody S env f = finish env f (p.2.2.foldl (loopStep f p.2.1) p.1) := by rw [runBody_prep, hp]
  have hl := loopInv_foldl f p.2.1 _ _ _ [] p.2.2 [] p.1 hinv
  have hfin := finalInv env f _ _ _ _ _ hl
  rw [List.nil_append] at hfin
  obtain ⟨h1, h2, h3⟩ := loop_fun f p.2.1 p.1.cells p.2.2 p.1 (fun _ => CfgSame.refl _ _)
  rw [hi, hsh, List.nil_append] at h1
  rw [hi] at h2
  rw [hi, hper] at h3
  dsimp only
  rw [hx]
  refine ⟨?_, hfin.hard, hfin.exit, rfl, h3, h2⟩
  have hs : (p.2.2.foldl (loopStep f p.2.1) p.1).r.sum.Soft
      (finish env f (p.2.2.foldl (loopStep f p.2.1) p.1)).r.sum := by
    unfold finish
    dsimp only
    split
    · exact soft_writeUpdated env _ _
    · exact .refl _
  rw [hs.2.2.2.1]
  exact h1

/-! ### Comparing the loops -/

theorem loopErr_same (f f' : Flags) (hl : f'.listPackages = f.listPackages) (dbs : List DB) (a b : List Config)
    (h : a.map Config.strip = b.map Config.strip) (i : Nat) (files : List FileEntry) :
    loopErr f dbs a i files = loopErr f' dbs b i files := by
  induction files generalizing i with
  | nil => rfl
  | cons x xs ih =>
    unfold loopErr
    rw [ih]
    congr 1
    unfold fileErr
    rw [hl, strip_databases (strip_getD_of_map h x.config)]

/-- The IDs a report mentions. -/
theorem mem_reportIds (f : Flags) (dbs : List DB) (c : Config) (i : Nat) (l : Lockfile) (id : Str) :
    id ∈ reportIds (reportOf f dbs c i l) ↔ ∃ k, k < l.packages.length ∧ ∃ v ∈ uniqueVulns (returned k
      ((forConfigs dbs c.databases).filterMap fun db => db.answer i l.packages)), v.id = id := by
  have hself : ∀ (vs : List OSV), vs.Pairwise (fun a b => ¬ Related a b) → uniqueVulns vs = vs := by
    intro vs hvs
    have : ∀ (acc vs : List OSV), (acc ++ vs).Pairwise (fun a b => ¬ Related a b) →
        vs.foldl (fun acc v => if includesVuln acc v then acc else acc ++ [v]) acc = acc ++ vs := by
      intro acc vs
      induction vs generalizing acc with
      | nil => intro _; simp
      | cons v vs ih =>
        intro h
        have hn : includesVuln acc v = false := by
          cases hc : includesVuln acc v with
          | false => rfl
          | true =>
            obtain ⟨o, ho, hr⟩ := (includesVuln_iff _ _).1 hc
            exact absurd hr ((List.pairwise_append.1 h).2.2 o ho v (by simp))
        rw [List.foldl_cons, hn]
        simp only [Bool.false_eq_true, if_false]
        rw [ih (acc ++ [v]) (by simpa using h)]
        simp
    simpa [uniqueVulns] using this [] vs (by simpa using hvs)
  unfold reportIds reportOf
  simp only [List.mem_flatMap, List.mem_append, List.mem_map]
  constructor
  · rintro ⟨p, hp, h⟩
    obtain ⟨k, hk, rfl⟩ := List.mem_mapIdx.1 hp
    refine ⟨k, hk, ?_⟩
    rw [transpose_eq] at h
    have hu := (uniqueVulns_spec (returned k ((forConfigs dbs c.databases).filterMap fun db => db.answer i l.packages))).2.1
    rw [hself _ (hu.sublist List.filter_sublist), hself _ (hu.sublist List.filter_sublist)] at h
    rcases h with ⟨v, hv, rfl⟩ | ⟨v, hv, rfl⟩ <;> exact ⟨v, (List.mem_filter.1 hv).1, rfl⟩
  · rintro ⟨k, hk, v, hv, rfl⟩
    refine ⟨_, List.mem_mapIdx.2 ⟨k, hk, rfl⟩, ?_⟩
    rw [transpose_eq]
    have hu := (uniqueVulns_spec (returned k ((forConfigs dbs c.databases).filterMap fun db => db.answer i l.packages))).2.1
    rw [hself _ (hu.sublist List.filter_sublist), hself _ (hu.sublist List.filter_sublist)]
    cases hc : (ignoresFor f c).contains v.id with
    | true => exact .inr ⟨v, List.mem_filter.2 ⟨hv, hc⟩, rfl⟩
    | false => exact .inl ⟨v, List.mem_filter.2 ⟨hv, by simp only [hc, Bool.not_false]⟩, rfl⟩

/-- Collected IDs that agree as sets. -/
inductive PerSame : SMap (List Str) → SMap (List Str) → Prop where
  | nil : PerSame [] []
  | cons (k : Str) (l l' : List Str) (a b : SMap (List Str)) (h : ∀ id, id ∈ l ↔ id ∈ l') (hab : PerSame a b) :
      PerSame ((k, l) :: a) ((k, l') :: b)

theorem PerSame.get {a b : SMap (List Str)} (h : PerSame a b) (k id : Str) :
    id ∈ (a.get? k).getD [] ↔ id ∈ (b.get? k).getD [] := by
  induction h with
  | nil => rfl
  | cons k' l l' a b hl _ ih =>
    unfold SMap.get? at *
    rw [List.lookup_cons, List.lookup_cons]
    cases k == k'
    · exact ih
    · exact hl id

theorem PerSame.set {a b : SMap (List Str)} (h : PerSame a b) (k : Str) (l l' : List Str)
    (hl : ∀ id, id ∈ l ↔ id ∈ l') : PerSame (a.set k l) (b.set k l') := by
  induction h with
  | nil => exact .cons _ _ _ _ _ hl .nil
  | cons k' m m' a b hm hab ih =>
    unfold SMap.set
    split
    · exact .cons _ _ _ _ _ hl hab
    · exact .cons _ _ _ _ _ hm ih

theorem loopPer_same (f f' : Flags) (hl : f'.listPackages = f.listPackages)
    (hu : f'.updateConfigIgnores = f.updateConfigIgnores) (dbs : List DB) (a b : List Config)
    (h : a.map Config.strip = b.map Config.strip) (i : Nat) (files : List FileEntry) (per per' : SMap (List Str))
    (hper : PerSame per per') : PerSame (loopPer f dbs a i per files) (loopPer f' dbs b i per' files) := by
  induction files generalizing i per per' with
  | nil => exact hper
  | cons x xs ih =>
    unfold loopPer
    apply ih
    unfold perStep
    dsimp only
    have hg := strip_getD_of_map h x.config
    rw [hl, hu, strip_filePath hg]
    split
    · apply hper.set
      intro id
      rw [List.mem_append, List.mem_append, hper.get, mem_reportIds, mem_reportIds, strip_databases hg]
    · exact hper

/-- Writing the configs prints the same errors. -/
theorem writeUpdated_any_same (env env' : Env) (hupd : env'.update = env.update)
    (hfile : FilesSame env.config env'.config) (r r' : RState) (hr : r.sum.any = r'.sum.any)
    (per per' : SMap (List Str)) (hper : PerSame per per') :
    (writeUpdatedConfigs env r per).1.sum.any = (writeUpdatedConfigs env' r' per').1.sum.any ∧
      FilesSame (writeUpdatedConfigs env r per).2 (writeUpdatedConfigs env' r' per').2 := by
  unfold writeUpdatedConfigs
  dsimp only
  have hlen : per.length = per'.length := by
    induction hper with
    | nil => rfl
    | cons _ _ _ _ _ _ _ ih => simp [ih]
  have hr0 : (if per.length ≠ 0 then r.printText .blank else r).sum.any =
      (if per'.length ≠ 0 then r'.printText .blank else r').sum.any := by
    rw [hlen]; split <;> simp [hr]
  generalize (if per.length ≠ 0 then r.printText .blank else r) = a at *
  generalize (if per'.length ≠ 0 then r'.printText .blank else r') = b at *
  generalize env.config = fa at *
  generalize env'.config = fb at *
  clear hlen hr r r'
  induction hper generalizing a b fa fb with
  | nil => exact ⟨hr0, hfile⟩
  | cons k l l' pa pb hl hab ih =>
    simp only [List.foldl_cons]
    have hstep : (updateWithIgnores fa k (newIgnores l) (env.update k)).2 =
        (updateWithIgnores fb k (newIgnores l') (env'.update k)).2 ∧
        FilesSame (updateWithIgnores fa k (newIgnores l) (env.update k)).1
          (updateWithIgnores fb k (newIgnores l') (env'.update k)).1 := by
      rw [hupd]
      unfold updateWithIgnores loadRaw
      dsimp only
      have hk := hfile (Path.clean k)
      generalize fa (Path.clean k) = x at hk
      generalize fb (Path.clean k) = y at hk
      cases hk with
      | missing => exact ⟨rfl, hfile⟩
      | unreadable => exact ⟨rfl, hfile⟩
      | malformed => exact ⟨rfl, hfile⟩
      | ok r r' hd =>
        dsimp only
        cases env.update k with
        | notOpened => exact ⟨rfl, hfile⟩
        | complete =>
          refine ⟨rfl, fun q => ?_⟩
          dsimp only
          split
          · exact .ok _ _ hd
          · exact hfile q
        | torn left =>
          refine ⟨rfl, fun q => ?_⟩
          dsimp only
          split
          · exact .refl _
          · exact hfile q
    refine ih _ _ ?_ _ _ hstep.2
    · rw [hstep.1]
      split <;> simp [hr0, Sum.err]
    
end Osv
