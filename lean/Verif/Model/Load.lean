import Verif.Model.MemDB
import Verif.Model.ZipCache
import Verif.Go.Path
/-!
# Loading databases (`pkg/database/{config,api,zip,dir}.go`)

Unzipping, JSON decoding of advisories, URL parsing and the file system are parameters.
-/
namespace Osv
open Str

/-- `pkg/database/config.go:8-13` `Config`. -/
structure DBConfig where
  name : Str := []
  type : Str := []
  url : Str := []
  workingDirectory : Str := []
deriving DecidableEq, Repr

/-- `pkg/database/config.go:17-25` `Identifier`. -/
def DBConfig.identifier (c : DBConfig) : Str :=
  let id := c.type ++ g!"#" ++ c.url
  if c.workingDirectory ≠ [] then id ++ g!"#" ++ c.workingDirectory else id

/-- An entry of an archive. `content = none`: it cannot be opened or read. -/
structure ZipEntry where
  name : Str
  content : Option Str
deriving DecidableEq, Repr

/-- `pkg/database/zip.go:142-167` `loadZipFile`. `decode` is `json.Unmarshal` into an `OSV` (`none` if it
reports an error). The messages on stderr are not modelled. -/
def loadZipFile (decode : Str → Option OSV) (names : List Str) (db : MemDB) (e : ZipEntry) : MemDB :=
  match e.content with
  | none => db
  | some content => match decode content with
    | none => db
    | some osv => db.addVulnerability osv names

/-- `pkg/database/zip.go:190-200`: the loop over the files of the archive. -/
def loadZipEntries (decode : Str → Option OSV) (wd : Str) (names : List Str) (es : List ZipEntry) : MemDB :=
  es.foldl (fun db e =>
    if !hasPrefix e.name wd then db
    else if !hasSuffix e.name g!".json" then db
    else loadZipFile decode names db e) {}

mutual
/-- What the walk finds at a path. -/
inductive FNode where
  /-- `Lstat` fails -/
  | gone
  /-- not a directory; `content = none`: it cannot be read -/
  | file (content : Option Str)
  /-- a directory whose entries (in sorted order) can be listed -/
  | dir (entries : FList)
  /-- a directory whose entries cannot be listed -/
  | locked
/-- Named entries of a directory. -/
inductive FList where
  | nil
  | cons (name : Str) (node : FNode) (rest : FList)
end

/-- State of the walk: the database and the `errored` flag. -/
structure WalkState where
  db : MemDB := {}
  errored : Bool := false
deriving DecidableEq, Repr

/-- `pkg/database/dir.go:49-84`: the callback for an entry with `info != nil` and `err == nil`; the content is
what `os.ReadFile` returns (always an error for a directory). -/
def walkVisit (decode : Str → Option OSV) (names : List Str) (name : Str) (content : Option Str)
    (s : WalkState) : WalkState :=
  if !hasSuffix name g!".json" then s
  else match content with
    | none => { s with errored := true }
    | some c => match decode c with
      | none => { s with errored := true }
      | some osv => { s with db := s.db.addVulnerability osv names }

mutual
/-- `path/filepath` `walk` with the callback of `pkg/database/dir.go:49-84`; `none` is an error returned by
the callback, which ends the walk. -/
def walkNode (decode : Str → Option OSV) (names : List Str) (name : Str) : FNode → WalkState → Option WalkState
  | .gone, _ => none
  | .file content, s => some (walkVisit decode names name content s)
  | .locked, s => some { s with errored := true }
  | .dir entries, s => walkList decode names entries (walkVisit decode names name none s)
/-- The loop over the entries. -/
def walkList (decode : Str → Option OSV) (names : List Str) : FList → WalkState → Option WalkState
  | .nil, s => some s
  | .cons name node rest, s => (walkNode decode names name node s).bind (walkList decode names rest)
end

/-- Errors of `Load`. -/
inductive LoadErr where
  | unsupportedType
  | offlineNotSupported
  | invalidBatchSize
  | badURL
  | fetch (e : FetchErr)
  | badArchive
  | wrongProtocol
  | walk
deriving DecidableEq, Repr

/-- The databases. -/
inductive DBKind where
  | zip (db : MemDB) (updatedAt : Str)
  | api (batchSize : Int)
  | dir (db : MemDB)
deriving DecidableEq, Repr

/-- A loaded database. -/
structure LoadedDB where
  name : Str
  identifier : Str
  kind : DBKind
deriving DecidableEq, Repr

/-- The outside world while loading. -/
structure LoadEnv where
  /-- outcome of `fetchZip` for a URL and the offline flag; the working directory tells apart several loads of one URL -/
  fetch : Str → Str → Bool → FetchResult
  unzip : Bytes → Option (List ZipEntry)
  decode : Str → Option OSV
  /-- `url.ParseRequestURI`, giving the path part -/
  parseURI : Str → Option Str
  /-- the file system -/
  tree : Str → FNode

/-- Result that may also be a crash. -/
inductive Outcome (ε α : Type) where
  | ok (a : α)
  | error (e : ε)
  | panic
deriving DecidableEq, Repr

/-- `pkg/database/zip.go:175-203` `load` and `pkg/database/zip.go:205-218` `NewZippedDB`. -/
def newZippedDB (env : LoadEnv) (c : DBConfig) (offline : Bool) (names : List Str) : Outcome LoadErr LoadedDB :=
  match env.fetch c.url c.workingDirectory offline with
  | .panic => .panic
  | .error e => .error (.fetch e)
  | .ok body updatedAt => match env.unzip body with
    | none => .error .badArchive
    | some es =>
      .ok ⟨c.name, c.identifier, .zip (loadZipEntries env.decode c.workingDirectory names es) updatedAt⟩

/-- `pkg/database/api.go:33-54` `NewAPIDB`. -/
def newAPIDB (env : LoadEnv) (c : DBConfig) (offline : Bool) (batchSize : Int) : Outcome LoadErr LoadedDB :=
  if offline then .error .offlineNotSupported
  else if batchSize < 1 then .error .invalidBatchSize
  else match env.parseURI c.url with
    | none => .error .badURL
    | some _ => .ok ⟨c.name, c.identifier, .api batchSize⟩

/-- `pkg/database/dir.go:31-95` `load` and `pkg/database/dir.go:97-110` `NewDirDB`. -/
def newDirDB (env : LoadEnv) (c : DBConfig) (names : List Str) : Outcome LoadErr LoadedDB :=
  if !hasPrefix c.url g!"file:" then .error .wrongProtocol
  else match env.parseURI c.url with
    | none => .error .badURL
    | some path =>
      let p := Path.join2 (trimPrefix path g!"/") c.workingDirectory
      match walkNode env.decode names (Path.base p) (env.tree p) {} with
      | none => .error .walk
      | some s => .ok ⟨c.name, c.identifier, .dir s.db⟩

/-- `pkg/database/config.go:30-41` `Load`. -/
def loadDB (env : LoadEnv) (c : DBConfig) (offline : Bool) (batchSize : Int) (names : List Str) :
    Outcome LoadErr LoadedDB :=
  if c.type = g!"zip" then newZippedDB env c offline names
  else if c.type = g!"api" then newAPIDB env c offline batchSize
  else if c.type = g!"dir" then newDirDB env c names
  else .error .unsupportedType

end Osv
