import Verif.Model.Config
import Verif.Model.Csv
import Verif.Model.MemDB
/-!
# The command (`main.go`, `internal/reporter/reporter.go`)

The file system, parsers, database loading and database checks are parameters (`Env`); command-line flags are
already parsed.  What the program prints is a trace of structured messages.  Config pointers are indices into
a list of cells, because sharing of configs between lockfiles matters.
-/
namespace Osv
open Str

/-- Errors printed with `PrintErrorf`. -/
inductive ErrMsg where
  | badParseAs (name : Str)
  | parserName (name : Str)
  | badPath (path : Str)
  | noPaths
  | badConfig (e : ConfigErr)
  | invalidDatabase (configPath : Str) (e : RawDBErr)
  | lockfile (path : Str)
  | dbLoad (name : Str)
  | dbCheck (lockfilePath dbName : Str)
  | updateConfig (path : Str)
deriving DecidableEq, Repr

/-- What `describeDB` (`main.go:160-184`) looks at: the type of a database and the values it prints. -/
inductive DBInfo where
  | api (batchSize : Int)
  | zip (count : Nat) (updatedAt : Str)
  | dir (count : Nat)
  | other
deriving DecidableEq, Repr

/-- Messages printed with `PrintTextf`. -/
inductive TextMsg where
  | version
  | ecosystem (name : Option Str)
  | blank
  | loadedHeader
  | dbName (name : Str)
  | dbDesc (info : DBInfo)
  | found (path : Str) (n : Nat)
  | usingConfig (path : Str) (ignores : Option Nat)
  | usingDb (name : Str) (info : DBInfo)
  | updated (path : Str) (n : Nat)
deriving DecidableEq, Repr

/-- `internal/reporter/reporter.go:59-61` `Result`. -/
inductive Result where
  | lockfile (l : Lockfile)
  | report (r : Report)
deriving DecidableEq, Repr

inductive Stream where
  | stdout | stderr
deriving DecidableEq, Repr

/-- Everything that reaches stdout or stderr. -/
inductive Event where
  /-- `PrintTextf` -/
  | text (s : Stream) (m : TextMsg)
  /-- `PrintErrorf`, always stderr -/
  | error (m : ErrMsg)
  /-- a result as text, on stdout -/
  | result (r : Result)
  /-- the JSON document `{"results": [...]}`, on stdout -/
  | json (rs : List Result)
  /-- diagnostics that `pkg/database` writes to `os.Stderr` directly -/
  | warning (dbName : Str)
deriving DecidableEq, Repr

/-- `internal/reporter/reporter.go:14-21` `Reporter` together with what was printed. -/
structure RState where
  outputAsJSON : Bool
  results : List Result := []
  hasErrored : Bool := false
  events : List Event := []
deriving DecidableEq, Repr

/-- `internal/reporter/reporter.go:38-42` `PrintErrorf`. -/
def RState.printError (r : RState) (m : ErrMsg) : RState :=
  { r with hasErrored := true, events := r.events ++ [.error m] }

/-- `internal/reporter/reporter.go:49-57` `PrintTextf`. -/
def RState.printText (r : RState) (m : TextMsg) : RState :=
  { r with events := r.events ++ [.text (if r.outputAsJSON then .stderr else .stdout) m] }

/-- `internal/reporter/reporter.go:63-71` `PrintResult`. -/
def RState.printResult (r : RState) (x : Result) : RState :=
  if r.outputAsJSON then { r with results := r.results ++ [x] }
  else { r with events := r.events ++ [.result x] }

/-- `internal/reporter/reporter.go:75-87` `PrintJSONResults`. Simplification: `json.Marshal` of the results
cannot fail (strings, slices and times that came from JSON). -/
def RState.printJSON (r : RState) : RState := { r with events := r.events ++ [.json r.results] }

/-- A diagnostic written directly to stderr. -/
def RState.warn (r : RState) (n : Str) (b : Bool) : RState :=
  if b then { r with events := r.events ++ [.warning n] } else r

/-- The command line (`main.go:499-522`). `args` are the positional arguments. -/
structure Flags where
  offline : Bool := false
  parseAs : Str := []
  configPath : Str := []
  noConfig : Bool := false
  updateConfigIgnores : Bool := false
  noConfigIgnores : Bool := false
  noConfigDatabases : Bool := false
  printVersion : Bool := false
  listEcosystems : Bool := false
  listPackages : Bool := false
  json : Bool := false
  useDatabases : Bool := true
  useAPI : Bool := false
  batchSize : Int := 1000
  globalIgnores : List Str := []
  args : List Str := []
deriving DecidableEq, Repr

/-- What `os.Open`, `Stat` and `ReadDir` say about a path given on the command line. -/
inductive PathInfo where
  | cannotOpen
  | cannotStat
  /-- a directory that cannot be listed -/
  | cannotList
  /-- entries with their name and whether they are directories -/
  | dir (entries : List (Str × Bool))
  | file
deriving DecidableEq, Repr

/-- A loaded database as `main.go` sees it. `check n pkgs` is the result of the `n`-th check of the run (local
databases reorder their data, so the result might depend on earlier checks), and whether diagnostics were
written to stderr. `panics n pkgs`: the `n`-th check panics; only `Model/Crash` looks at that. -/
structure DB where
  name : Str
  identifier : Str
  info : DBInfo
  check : Nat → List PackageDetails → Except Unit (List (List OSV)) × Bool
  panics : Nat → List PackageDetails → Bool := fun _ _ => false

/-- The outside world. -/
structure Env where
  path : Str → PathInfo
  config : Str → ConfigFile
  validURL : Str → Bool
  /-- parser name and path to packages and whether an error is returned -/
  parse : Str → Str → List PackageDetails × Bool
  /-- records of a CSV file and whether the reader reached the end; `none`: the file cannot be opened -/
  csvFile : Str → Option (List (List Str) × Bool)
  /-- records of the rows given as arguments -/
  csvRows : List Str → List (List Str) × Bool
  /-- `database.Load`, and whether diagnostics were written to stderr -/
  load : DBConfig → Bool → Int → List Str → Option DB × Bool
  /-- what happens when a config file is rewritten -/
  update : Str → UpdateOutcome
  /-- iteration order of maps with string keys -/
  iter : List Str → List Str
  /-- the parser panics; only `Model/Crash` looks at this and the next field -/
  parsePanics : Str → Str → Bool := fun _ _ => false
  /-- `database.Load` panics -/
  loadPanics : DBConfig → Bool → Int → List Str → Bool := fun _ _ _ _ => false

/-- `main.go:31-37`. -/
def apiDBConfig : DBConfig := { name := g!"osv.dev v1 API", type := g!"api", url := g!"https://api.osv.dev/v1" }

/-- `main.go:39-45`. -/
def ecosystemDBConfig (e : Ecosystem) : DBConfig :=
  { name := e, type := g!"zip",
    url := g!"https://osv-vulnerabilities.storage.googleapis.com/" ++ e ++ g!"/all.zip" }

/-- `main.go:61-72`: loop body of `transposePkgResults`. -/
def mergeStep (ignores : List Str) (acc : List OSV × List OSV) (v : OSV) : List OSV × List OSV :=
  if includesVuln acc.1 v || includesVuln acc.2 v then acc
  else if ignores.contains v.id then (acc.1, acc.2 ++ [v])
  else (acc.1 ++ [v], acc.2)

/-- `main.go:49-80` `transposePkgResults`. Simplification: a database returning too few results would panic at
line 59; no database does (C11, C14). -/
def transposePkgResults (pkg : PackageDetails) (ignores : List Str) (i : Nat) (all : List (List (List OSV))) :
    PkgReport :=
  let acc := all.foldl (fun acc vulns1 => (vulns1.getD i []).foldl (mergeStep ignores) acc) ([], [])
  ⟨pkg, acc.1, acc.2⟩

/-- `main.go:90-104`: the check of one database; `n` numbers the check. -/
def checkStep (n : Nat) (lockf : Lockfile) (acc : RState × List (List (List OSV))) (db : DB) :
    RState × List (List (List OSV)) :=
  let res := db.check n lockf.packages
  let r := acc.1.warn db.name res.2
  match res.1 with
  | .error _ => (r.printError (.dbCheck lockf.filePath db.name), acc.2)
  | .ok results => (r, acc.2 ++ [results])

/-- `main.go:88-104`: the checks of all databases. -/
def checkAll (n : Nat) (lockf : Lockfile) (dbs : List DB) (r : RState) : RState × List (List (List OSV)) :=
  dbs.foldl (checkStep n lockf) (r, [])

/-- `main.go:82-114` `check`. -/
def checkLockfile (n : Nat) (dbs : List DB) (r : RState) (lockf : Lockfile) (ignores : List Str) :
    RState × Report :=
  let res := checkAll n lockf dbs r
  (res.1, ⟨lockf, lockf.packages.mapIdx fun i pkg => transposePkgResults pkg ignores i res.2⟩)

/-- `main.go:118-130` `forConfigs`. -/
def forConfigs (dbs : List DB) (cs : List DBConfig) : List DB :=
  dbs.flatMap fun db => cs.filterMap fun c => if c.identifier = db.identifier then some db else none

/-- `main.go:136-154`: loop body of `uniqueDBConfigs`. -/
def addDBConfig (acc : List DBConfig) (c : DBConfig) : List DBConfig :=
  if acc.any fun d => decide (d.identifier = c.identifier) then acc else acc ++ [c]

/-- `main.go:132-158` `uniqueDBConfigs`, on the database lists of the configs. -/
def uniqueDBConfigs (configs : List (List DBConfig)) : List DBConfig :=
  configs.foldl (fun acc c => c.foldl addDBConfig acc) []

/-- `main.go:206-227`: loop body of `loadDatabases`. -/
def loadStep (env : Env) (f : Flags) (names : List Str) (acc : RState × List DB × Bool) (c : DBConfig) :
    RState × List DB × Bool :=
  let r := acc.1.printText (.dbName c.name)
  let res := env.load c f.offline f.batchSize names
  let r := r.warn c.name res.2
  match res.1 with
  | none => (r.printError (.dbLoad c.name), acc.2.1, true)
  | some db => (r.printText (.dbDesc db.info), acc.2.1 ++ [db], acc.2.2)

/-- `main.go:186-232` `loadDatabases`. -/
def loadDatabases (env : Env) (f : Flags) (r : RState) (cs : List DBConfig) (names : List Str) :
    RState × List DB × Bool :=
  if f.listPackages then (r, [], false)
  else
    let res := cs.foldl (loadStep env f names) (r.printText .loadedHeader, [], false)
    (res.1.printText .blank, res.2)

def csvFileName : Str := g!"csv-file"
def csvRowName : Str := g!"csv-row"

/-- `pkg/lockfile/parse.go:12-18` `FindParser`: the name of the parser, if there is one. -/
def findParser (path parseAs : Str) : Option Str :=
  let p := if parseAs = [] then Path.base path else parseAs
  if parserNames.contains p then some p else none

/-- `main.go:237-276` `findLockfiles`: the paths and whether there was an error. The error of `Open` is
reported; errors of `Stat` and `ReadDir` are assigned to shadowed variables and lost. -/
def findLockfiles (env : Env) (path parseAs : Str) : List Str × Bool :=
  match env.path path with
  | .cannotOpen => ([], true)
  | .cannotStat => ([], false)
  | .cannotList => ([], false)
  | .file => ([path], false)
  | .dir entries =>
    (sortStr (entries.filterMap fun e =>
      if e.2 then none
      else if parseAs ≠ csvFileName ∧ findParser e.1 parseAs = none then none
      else some (Path.join2 path e.1)), false)

/-- `main.go:408-420` `parseLockfilePathWithParseAs` (not on Windows). -/
def splitParseAs (s : Str) : Str × Str :=
  if !contains s g!":" then ([], s) else cut s g!":"

/-- `main.go:287-303`: loop body of `findAllLockfiles`. -/
def findStep (env : Env) (parseAsGlobal : Str) (acc : RState × List Str × Bool) (arg : Str) :
    RState × List Str × Bool :=
  let sp := splitParseAs arg
  let parseAs := if sp.1 = [] then parseAsGlobal else sp.1
  let res := findLockfiles env sp.2 parseAs
  let r := if res.2 then acc.1.printError (.badPath sp.2) else acc.1
  (r, acc.2.1 ++ res.1.map (fun p => parseAs ++ g!":" ++ Path.clean p), acc.2.2 || res.2)

/-- `main.go:278-306` `findAllLockfiles`. -/
def findAllLockfiles (env : Env) (r : RState) (args : List Str) (parseAsGlobal : Str) : RState × List Str × Bool :=
  if parseAsGlobal = csvRowName then (r, [csvRowName ++ g!":-"], false)
  else args.foldl (findStep env parseAsGlobal) (r, [], false)

/-- `pkg/lockfile/parse.go:128-150` `Parse`: the lockfile and whether there is an error. -/
def parseWith (S : Sorter) (env : Env) (path parseAs : Str) : Lockfile × Bool :=
  match findParser path parseAs with
  | none => ({}, true)
  | some p =>
    let res := env.parse p path
    (⟨path, p, S.sort pkgLess res.1⟩, res.2)

/-- `main.go:308-337` `parseLockfile`, with `pkg/lockfile/csv.go:89-117`. -/
def parseLockfile (S : Sorter) (env : Env) (pathWithParseAs : Str) (args : List Str) : Lockfile × Bool :=
  let sp := splitParseAs pathWithParseAs
  if sp.1 = csvRowName then
    let rows := env.csvRows args
    let res := fromCSV S rows.1 rows.2
    (⟨sp.2, sp.1, res.1⟩, res.2.isSome)
  else if sp.1 = csvFileName then
    match env.csvFile sp.2 with
    | none => ({}, true)
    | some rows =>
      let res := fromCSV S rows.1 rows.2
      (⟨sp.2, sp.1, res.1⟩, res.2.isSome)
  else parseWith S env sp.2 sp.1

/-- `main.go:351-355` `lockfileAndConfigOrErr`; the config is the index of its cell. -/
structure FileEntry where
  lockf : Lockfile
  config : Nat
  err : Bool
deriving DecidableEq, Repr

/-- State of `readAllLockfiles`: the reporter, the config cells, the current config, the files. -/
structure ReadState where
  r : RState
  cells : List Config
  cur : Nat
  files : List FileEntry
deriving DecidableEq, Repr

/-- Print the dropped databases of a config (`internal/configer/load.go:88-92`). -/
def printDropped (r : RState) (path : Str) (es : List RawDBErr) : RState :=
  es.foldl (fun r e => r.printError (.invalidDatabase path e)) r

/-- `main.go:431-462`: loop body of `readAllLockfiles`. -/
def readStep (S : Sorter) (env : Env) (args : List Str) (checkLocal : Bool) (s : ReadState) (p : Str) :
    ReadState :=
  let path := (splitParseAs p).2
  if checkLocal then
    match findConfig env.validURL env.config (Path.dir path) with
    | .error _ => { s with files := s.files ++ [⟨{}, s.cur, true⟩] }
    | .ok (con, dropped) =>
      let r := printDropped s.r con.filePath dropped
      let lf := parseLockfile S env p args
      ⟨r, s.cells ++ [con], s.cells.length, s.files ++ [⟨lf.1, s.cells.length, lf.2⟩]⟩
  else if (s.cells.getD s.cur {}).filePath ≠ [] then
    let lf := parseLockfile S env p args
    ⟨s.r, s.cells ++ [s.cells.getD s.cur {}], s.cells.length, s.files ++ [⟨lf.1, s.cells.length, lf.2⟩]⟩
  else
    let lf := parseLockfile S env p args
    { s with files := s.files ++ [⟨lf.1, s.cur, lf.2⟩] }

/-- `main.go:422-465` `readAllLockfiles`. -/
def readAllLockfiles (S : Sorter) (env : Env) (r : RState) (paths args : List Str) (checkLocal : Bool)
    (config : Config) : ReadState :=
  paths.foldl (readStep S env args checkLocal) ⟨r, [config], 0, []⟩

/-- `main.go:475-493`: loop body of `collectEcosystems` over the ecosystems of a file. -/
def addEcosystem (acc : List Ecosystem) (e : Ecosystem) : List Ecosystem := if acc.contains e then acc else acc ++ [e]

/-- `main.go:467-497` `collectEcosystems`. -/
def collectEcosystems (env : Env) (files : List FileEntry) : List Ecosystem :=
  files.foldl (fun acc x => if x.err then acc else (ecosystemsOf env.iter x.lockf.packages).foldl addEcosystem acc) []

/-- `main.go:378-405`: loop body of `adjustExtraDatabases`. -/
def adjustStep (env : Env) (f : Flags) (cells : List Config) (file : FileEntry) : List Config :=
  if file.err then cells
  else
    let c := cells.getD file.config {}
    let own := if f.noConfigDatabases then [] else c.databases
    let extra := (if f.useAPI then [apiDBConfig] else []) ++
      (if f.useDatabases then (collectEcosystems env [file]).map ecosystemDBConfig else [])
    cells.set file.config { c with databases := uniqueDBConfigs [own, extra] }

/-- `main.go:373-406` `adjustExtraDatabases`. -/
def adjustExtraDatabases (env : Env) (f : Flags) (files : List FileEntry) (cells : List Config) : List Config :=
  files.foldl (adjustStep env f) cells

/-- `main.go:359-371` `getConfigs`. -/
def getConfigs (files : List FileEntry) (cells : List Config) : List Config :=
  (files.filter fun x => !x.err).map fun x => cells.getD x.config {}

/-- `main.go:600-609`: all package names. -/
def allPackageNames (env : Env) (files : List FileEntry) : List Str :=
  env.iter (dedupStr (files.flatMap fun x => x.lockf.packages.map (·.name)))

/-- State of the loop over the lockfiles. -/
structure LoopState where
  r : RState
  cells : List Config
  /-- `vulnsPerConfig` (`main.go:624`): IDs per config path -/
  perConfig : SMap (List Str) := []
  exit : Nat
  /-- number of lockfiles handled -/
  i : Nat := 0

/-- `main.go:716-724`: the IDs of a report. -/
def reportIds (rep : Report) : List Str :=
  rep.packages.flatMap fun p => (uniqueVulns p.vulnerabilities).map (·.id) ++ (uniqueVulns p.ignored).map (·.id)

/-- `main.go:641-684`: the ignores for a lockfile and the messages about its config. -/
def ignoresFor (f : Flags) (config : Config) : List Str :=
  (if config.filePath ≠ [] ∧ !f.noConfigIgnores then config.ignore else []) ++ f.globalIgnores

/-- `main.go:679-683`: the message about the config. -/
def printUsingConfig (f : Flags) (config : Config) (r : RState) : RState :=
  if config.filePath ≠ [] then
    r.printText (.usingConfig config.filePath (if f.noConfigIgnores then none else some config.ignore.length))
  else r

/-- `main.go:626-730`: loop body over the lockfiles. -/
def loopStep (f : Flags) (dbs : List DB) (s : LoopState) (file : FileEntry) : LoopState :=
  let r := if s.i ≥ 1 then s.r.printText .blank else s.r
  if file.err then { s with r := r.printError (.lockfile file.lockf.filePath), exit := 127, i := s.i + 1 }
  else
    let c := s.cells.getD file.config {}
    let c := if f.noConfigIgnores then { c with ignore := [] } else c
    let cells := s.cells.set file.config c
    let r := r.printText (.found file.lockf.filePath file.lockf.packages.length)
    if f.listPackages then
      { s with r := r.printResult (.lockfile file.lockf), cells := cells, i := s.i + 1 }
    else
      let r := printUsingConfig f c r
      let ignores := ignoresFor f c
      let mine := forConfigs dbs c.databases
      let r := mine.foldl (fun r db => r.printText (.usingDb db.name db.info)) r
      let r := r.printText .blank
      let res := checkLockfile s.i mine r file.lockf ignores
      let r := res.1.printResult (.report res.2)
      let per := if f.updateConfigIgnores ∧ c.filePath ≠ [] then
          s.perConfig.set c.filePath ((s.perConfig.get? c.filePath).getD [] ++ reportIds res.2)
        else s.perConfig
      ⟨r, cells, per, if res.2.hasKnown && decide (s.exit = 0) then 1 else s.exit, s.i + 1⟩

/-- `main.go:750-770`: the new ignores of each config. The map iterations only matter through the sorted
result. -/
def newIgnores (ids : List Str) : List Str := sortStr (dedupStr ids)

/-- `main.go:743-781` `writeUpdatedConfigs`. Simplification: the lines are sorted by their text before being
printed; the model prints them in the order of the map. -/
def writeUpdatedConfigs (env : Env) (r : RState) (per : SMap (List Str)) : RState × (Str → ConfigFile) :=
  let r := if per.length ≠ 0 then r.printText .blank else r
  per.foldl (fun acc e =>
    let ignores := newIgnores e.2
    let res := updateWithIgnores acc.2 e.1 ignores (env.update e.1)
    (if res.2 then acc.1.printText (.updated e.1 ignores.length) else acc.1.printError (.updateConfig e.1), res.1))
    (r, env.config)

/-- `main.go:541-555`: a parser name that is not known. -/
def badParseAs (f : Flags) : Bool :=
  decide (f.parseAs ≠ []) && decide (f.parseAs ≠ csvFileName) && decide (f.parseAs ≠ csvRowName) &&
    (findParser [] f.parseAs).isNone

/-- `pkg/lockfile/parse.go:45-57` `ListParsers`: the order is that of the names in lower case, which all differ, so that
the order of the map does not matter. -/
def listParsers : List Str := insertionSort (fun a b => Str.lt (Str.toLower a) (Str.toLower b)) parserNames

/-- `main.go:546-551`. -/
def printParsers (r : RState) : RState :=
  (listParsers ++ [csvFileName, csvRowName]).foldl (fun r p => r.printError (.parserName p)) r

/-- `pkg/lockfile/ecosystems.go:3-17` `KnownEcosystems`. -/
def knownEcosystems : List Ecosystem :=
  [g!"CRAN", g!"npm", g!"NuGet", g!"crates.io", g!"RubyGems", g!"Packagist", g!"Go", g!"Hex", g!"Maven", g!"PyPI",
   g!"Pub"]

/-- `internal/reporter/reporter.go:99-107` `PrintKnownEcosystems`. -/
def printKnownEcosystems (r : RState) : RState :=
  knownEcosystems.foldl (fun r e => r.printText (.ecosystem (some e))) (r.printText (.ecosystem none))

/-- `main.go:577-594`: the explicit config. `none`: loading it failed; otherwise the config and whether local
configs are looked for. -/
def startConfig (env : Env) (f : Flags) (r : RState) : RState × Option (Config × Bool) :=
  if f.listPackages then (r, some ({}, false))
  else if !f.noConfig && decide (f.configPath ≠ []) then
    match loadConfig env.validURL env.config f.configPath with
    | .error e => (r.printError (.badConfig e), none)
    | .ok (c, dropped) => (printDropped r c.filePath dropped, some (c, false))
  else (r, some ({}, !f.noConfig))

/-- `main.go:611-622`: everything up to the loop over the lockfiles. -/
def prepare (S : Sorter) (env : Env) (f : Flags) (r : RState) (paths : List Str) (config : Config)
    (checkLocal : Bool) : LoopState × List DB × List FileEntry :=
  let rs := readAllLockfiles S env r paths f.args checkLocal config
  let cells := adjustExtraDatabases env f rs.files rs.cells
  let cs := uniqueDBConfigs ((getConfigs rs.files cells).map (·.databases))
  let res := loadDatabases env f rs.r cs (allPackageNames env rs.files)
  ({ r := res.1, cells := cells, exit := if res.2.2 then 127 else 0 }, res.2.1, rs.files)

/-- Exit code, reporter and config files at the end. -/
structure Final where
  exit : Nat
  r : RState
  config : Str → ConfigFile

/-- `main.go:732-740`: after the loop. -/
def finish (env : Env) (f : Flags) (s : LoopState) : Final :=
  let w := if f.updateConfigIgnores then writeUpdatedConfigs env s.r s.perConfig else (s.r, env.config)
  ⟨if w.1.hasErrored && decide (s.exit = 0) then 127 else s.exit, w.1, w.2⟩

/-- `main.go:524-741` without the deferred printing of the JSON document. -/
def runBody (S : Sorter) (env : Env) (f : Flags) : Final :=
  let r : RState := { outputAsJSON := f.json }
  if f.printVersion then ⟨0, r.printText .version, env.config⟩
  else if f.listEcosystems then ⟨0, printKnownEcosystems r, env.config⟩
  else if badParseAs f then ⟨127, printParsers (r.printError (.badParseAs f.parseAs)), env.config⟩
  else
    let found := findAllLockfiles env r f.args f.parseAs
    if found.2.1.length = 0 then
      ⟨if decide (f.args.length > 0) && !found.2.2 then 128 else 127, found.1.printError .noPaths, env.config⟩
    else match startConfig env f found.1 with
      | (r, none) => ⟨127, r, env.config⟩
      | (r, some (config, checkLocal)) =>
        let p := prepare S env f r found.2.1 config checkLocal
        finish env f (p.2.2.foldl (loopStep f p.2.1) p.1)

/-- What is left of a run: the exit code, everything printed, and the config files. -/
structure RunResult where
  exit : Nat
  events : List Event
  config : Str → ConfigFile

/-- `main.go:499-741` `run`. -/
def run (S : Sorter) (env : Env) (f : Flags) : RunResult :=
  let res := runBody S env f
  ⟨res.exit, (if f.json then res.r.printJSON else res.r).events, res.config⟩

end Osv
