import Verif.Model.Load
import Verif.Model.Main
import Verif.Model.MemHeap
import Verif.Model.Parsers
/-!
# The command together with its parsers and databases

`Env` leaves parsing and loading open. Here they are filled in with the models of the lockfile parsers and of the local databases.
-/
namespace Osv
open Str

/-- `pkg/database/mem-check.go:71-79` `Check`: the advisories found for each package, as they are after the check. -/
def HeapDB.answer (S : Sorter) (sem : Sem) (db : HeapDB) (pkgs : List PackageDetails) : List (List OSV) :=
  let t := db.check S sem pkgs
  t.1.map fun is => is.map t.2.heap

/-- The advisories that `loadZipEntries` adds, in order (`pkg/database/zip.go:190-200` and `142-167`). -/
def zipAdvisories (decode : Str → Option OSV) (wd : Str) (es : List ZipEntry) : List OSV :=
  (es.filter fun e => hasPrefix e.name wd && hasSuffix e.name g!".json").filterMap fun e => e.content.bind decode

mutual
/-- The advisories that `walkNode` adds, in order (`pkg/database/dir.go:49-84`). -/
def walkAdvisories (decode : Str → Option OSV) (name : Str) : FNode → List OSV
  | .gone => []
  | .file content => if hasSuffix name g!".json" then (content.bind decode).toList else []
  | .locked => []
  | .dir entries => walkAllAdvisories decode entries
def walkAllAdvisories (decode : Str → Option OSV) : FList → List OSV
  | .nil => []
  | .cons name node rest => walkAdvisories decode name node ++ walkAllAdvisories decode rest
end

/-- The advisories of the database of a config, in the order of loading. -/
def advisoriesOf (L : LoadEnv) (c : DBConfig) (offline : Bool) : List OSV :=
  if c.type = g!"zip" then
    match L.fetch c.url c.workingDirectory offline with
    | .ok body _ => zipAdvisories L.decode c.workingDirectory ((L.unzip body).getD [])
    | _ => []
  else match L.parseURI c.url with
    | none => []
    | some path =>
      let p := Path.join2 (trimPrefix path g!"/") c.workingDirectory
      walkAdvisories L.decode (Path.base p) (L.tree p)

/-- What the models of parsers and databases need. -/
structure World where
  load : LoadEnv
  parsers : ParserEnv
  sem : Sem
  /-- the packages that were checked with the database of a config before its `n`-th check -/
  history : DBConfig → Nat → List PackageDetails
  /-- checks of an API database, modelled separately (`Model/Api`) -/
  api : DBConfig → Int → Nat → List PackageDetails → Except Unit (List (List OSV)) × Bool
  /-- whether loading or parsing writes diagnostics to stderr -/
  warns : DBConfig → Bool
  /-- whether the `n`-th check with a local database panics, given the offline flag and the package names (`Model/WorldCrash`) -/
  panics : DBConfig → Bool → List Str → Nat → List PackageDetails → Bool := fun _ _ _ _ _ => false

/-- What `describeDB` (`main.go:160-184`) looks at. -/
def DBKind.info : DBKind → DBInfo
  | .api n => .api n
  | .zip db updatedAt => .zip db.count updatedAt
  | .dir db => .dir db.count

/-- `pkg/database/config.go:30-41` `Load`, giving a database that can be used. Local databases are `HeapDB`s: the `n`-th check sees
what earlier checks have left. A panic while loading counts as an error here, see
`Model/Crash`. -/
def worldLoad (S : Sorter) (W : World) (c : DBConfig) (offline : Bool) (batchSize : Int) (names : List Str) : Option DB × Bool :=
  match loadDB W.load c offline batchSize names with
  | .ok ld => match ld.kind with
    | .api n => (some { name := ld.name, identifier := ld.identifier, info := ld.kind.info, check := W.api c n }, W.warns c)
    | _ => (some
        { name := ld.name, identifier := ld.identifier, info := ld.kind.info
          check := fun n pkgs =>
            let hdb := ((HeapDB.load (advisoriesOf W.load c offline) names).check S W.sem (W.history c n)).2
            (.ok (hdb.answer S W.sem pkgs), !(hdb.checkDiags S W.sem pkgs).isEmpty)
          panics := W.panics c offline names },
      W.warns c)
  | _ => (none, W.warns c)

/-- The environment with these parsers and databases. A parser that panics counts as an error here, see `Model/Crash`. -/
def Env.inWorld (env : Env) (S : Sorter) (W : World) : Env :=
  { env with
    parse := fun parser path => (parseFile W.parsers parser path).getD ([], true)
    load := worldLoad S W
    parsePanics := fun parser path => (parseFile W.parsers parser path).isNone
    loadPanics := fun c offline batchSize names => decide (loadDB W.load c offline batchSize names = .panic) }

end Osv
