import Verif.Model.Main
/-!
# The command with panics

`Model/Main` treats a panic of a parser or while loading as an error, and assumes that checks do not panic. Here the same functions
stop at the first panic. Nothing in the program recovers from one: the runtime ends the process with code 2, after the deferred
calls, of which `main.go:526` (printing the JSON document) is the only one that is visible.

`Except.error r` is a panic that happens when the reporter is in state `r`.
-/
namespace Osv
open Str

/-- The name of the parser that `parseLockfile` (`main.go:308-337`) calls, with the path, unless it reads CSV or there is none. -/
def calledParser (pathWithParseAs : Str) : Option (Str × Str) :=
  let sp := splitParseAs pathWithParseAs
  if sp.1 = csvRowName ∨ sp.1 = csvFileName then none
  else (findParser sp.2 sp.1).map fun p => (p, sp.2)

/-- `parseLockfile`, with the reporter as it is at the call. -/
def parseLockfileP (S : Sorter) (env : Env) (r : RState) (p : Str) (args : List Str) : Except RState (Lockfile × Bool) :=
  if (calledParser p).any fun c => env.parsePanics c.1 c.2 then .error r else .ok (parseLockfile S env p args)

/-- `main.go:431-462`: loop body of `readAllLockfiles`, as `readStep`. -/
def readStepP (S : Sorter) (env : Env) (args : List Str) (checkLocal : Bool) (s : ReadState) (p : Str) : Except RState ReadState :=
  let path := (splitParseAs p).2
  if checkLocal then
    match findConfig env.validURL env.config (Path.dir path) with
    | .error _ => .ok { s with files := s.files ++ [⟨{}, s.cur, true⟩] }
    | .ok (con, dropped) =>
      let r := printDropped s.r con.filePath dropped
      (parseLockfileP S env r p args).map fun lf =>
        ⟨r, s.cells ++ [con], s.cells.length, s.files ++ [⟨lf.1, s.cells.length, lf.2⟩]⟩
  else if (s.cells.getD s.cur {}).filePath ≠ [] then
    (parseLockfileP S env s.r p args).map fun lf =>
      ⟨s.r, s.cells ++ [s.cells.getD s.cur {}], s.cells.length, s.files ++ [⟨lf.1, s.cells.length, lf.2⟩]⟩
  else
    (parseLockfileP S env s.r p args).map fun lf => { s with files := s.files ++ [⟨lf.1, s.cur, lf.2⟩] }

/-- `main.go:422-465` `readAllLockfiles`. -/
def readAllLockfilesP (S : Sorter) (env : Env) (r : RState) (paths args : List Str) (checkLocal : Bool)
    (config : Config) : Except RState ReadState :=
  paths.foldlM (readStepP S env args checkLocal) ⟨r, [config], 0, []⟩

/-- `main.go:206-227`: loop body of `loadDatabases`, as `loadStep`. -/
def loadStepP (env : Env) (f : Flags) (names : List Str) (acc : RState × List DB × Bool) (c : DBConfig) :
    Except RState (RState × List DB × Bool) :=
  if env.loadPanics c f.offline f.batchSize names then .error (acc.1.printText (.dbName c.name)) else .ok (loadStep env f names acc c)

/-- `main.go:186-232` `loadDatabases`. -/
def loadDatabasesP (env : Env) (f : Flags) (r : RState) (cs : List DBConfig) (names : List Str) :
    Except RState (RState × List DB × Bool) :=
  if f.listPackages then .ok (r, [], false)
  else (cs.foldlM (loadStepP env f names) (r.printText .loadedHeader, [], false)).map fun res => (res.1.printText .blank, res.2)

/-- `main.go:90-104`: the check of one database, as `checkStep`. -/
def checkStepP (n : Nat) (lockf : Lockfile) (acc : RState × List (List (List OSV))) (db : DB) :
    Except RState (RState × List (List (List OSV))) :=
  if db.panics n lockf.packages then .error acc.1 else .ok (checkStep n lockf acc db)

/-- `main.go:82-114` `check`. `transposePkgResults` indexes each answer with the position of every package (`main.go:59`), which panics
when there is an answer with fewer results than packages. -/
def checkLockfileP (n : Nat) (dbs : List DB) (r : RState) (lockf : Lockfile) (ignores : List Str) :
    Except RState (RState × Report) :=
  (dbs.foldlM (checkStepP n lockf) (r, [])).bind fun res =>
    if res.2.any fun a => decide (a.length < lockf.packages.length) then .error res.1
    else .ok (res.1, ⟨lockf, lockf.packages.mapIdx fun i pkg => transposePkgResults pkg ignores i res.2⟩)

/-- `main.go:626-730`: loop body over the lockfiles, as `loopStep`. -/
def loopStepP (f : Flags) (dbs : List DB) (s : LoopState) (file : FileEntry) : Except RState LoopState :=
  let r := if s.i ≥ 1 then s.r.printText .blank else s.r
  if file.err then .ok { s with r := r.printError (.lockfile file.lockf.filePath), exit := 127, i := s.i + 1 }
  else
    let c := s.cells.getD file.config {}
    let c := if f.noConfigIgnores then { c with ignore := [] } else c
    let cells := s.cells.set file.config c
    let r := r.printText (.found file.lockf.filePath file.lockf.packages.length)
    if f.listPackages then
      .ok { s with r := r.printResult (.lockfile file.lockf), cells := cells, i := s.i + 1 }
    else
      let r := printUsingConfig f c r
      let ignores := ignoresFor f c
      let mine := forConfigs dbs c.databases
      let r := mine.foldl (fun r db => r.printText (.usingDb db.name db.info)) r
      let r := r.printText .blank
      (checkLockfileP s.i mine r file.lockf ignores).map fun res =>
        let r := res.1.printResult (.report res.2)
        let per := if f.updateConfigIgnores ∧ c.filePath ≠ [] then
            s.perConfig.set c.filePath ((s.perConfig.get? c.filePath).getD [] ++ reportIds res.2)
          else s.perConfig
        ⟨r, cells, per, if res.2.hasKnown && decide (s.exit = 0) then 1 else s.exit, s.i + 1⟩

/-- `main.go:611-622`: everything up to the loop over the lockfiles, as `prepare`. -/
def prepareP (S : Sorter) (env : Env) (f : Flags) (r : RState) (paths : List Str) (config : Config)
    (checkLocal : Bool) : Except RState (LoopState × List DB × List FileEntry) :=
  (readAllLockfilesP S env r paths f.args checkLocal config).bind fun rs =>
    let cells := adjustExtraDatabases env f rs.files rs.cells
    let cs := uniqueDBConfigs ((getConfigs rs.files cells).map (·.databases))
    (loadDatabasesP env f rs.r cs (allPackageNames env rs.files)).map fun res =>
      ({ r := res.1, cells := cells, exit := if res.2.2 then 127 else 0 }, res.2.1, rs.files)

/-- `main.go:524-741` without the deferred printing of the JSON document, as `runBody`. -/
def runBodyP (S : Sorter) (env : Env) (f : Flags) : Except RState Final :=
  let r : RState := { outputAsJSON := f.json }
  if f.printVersion then .ok ⟨0, r.printText .version, env.config⟩
  else if f.listEcosystems then .ok ⟨0, printKnownEcosystems r, env.config⟩
  else if badParseAs f then .ok ⟨127, printParsers (r.printError (.badParseAs f.parseAs)), env.config⟩
  else
    let found := findAllLockfiles env r f.args f.parseAs
    if found.2.1.length = 0 then
      .ok ⟨if decide (f.args.length > 0) && !found.2.2 then 128 else 127, found.1.printError .noPaths, env.config⟩
    else match startConfig env f found.1 with
      | (r, none) => .ok ⟨127, r, env.config⟩
      | (r, some (config, checkLocal)) =>
        (prepareP S env f r found.2.1 config checkLocal).bind fun p =>
          (p.2.2.foldlM (loopStepP f p.2.1) p.1).map (finish env f)

/-- How the process ends: as `run` says, or with a panic. -/
structure Ended where
  crashed : Bool
  result : RunResult

/-- `main.go:499-741` `run` and `main.go:783-785` `main`. After a panic the exit code is 2; the config files are as before, because they
are only written at the end. -/
def runP (S : Sorter) (env : Env) (f : Flags) : Ended :=
  match runBodyP S env f with
  | .ok res => ⟨false, ⟨res.exit, (if f.json then res.r.printJSON else res.r).events, res.config⟩⟩
  | .error r => ⟨true, ⟨2, (if f.json then r.printJSON else r).events, env.config⟩⟩

end Osv
