import Verif.Model.WorldCache
/-!
# Diagnostics of databases

`pkg/database` writes some messages directly to `os.Stderr`: they are not errors of the reporter and do not change the exit code. Here
are the messages of a load, in order. Simplifications: the text of the error in a message is left out, and files of a directory are
named by their last element.
-/
namespace Osv
open Str

inductive Diag where
  /-- `Failed to parse cache from` -/
  | cacheParse (path : Str)
  /-- `Failed to write cache to` -/
  | cacheWrite (path : Str)
  /-- `Could not read` -/
  | entryUnread (name : Str)
  /-- `is not a valid JSON file`, for an archive -/
  | entryBad (name : Str)
  /-- the error of the walk, for a directory that cannot be listed -/
  | unlisted (name : Str)
  /-- the error of `os.ReadFile` -/
  | fileUnread (name : Str)
  /-- `is not a valid JSON file`, for a directory -/
  | fileBad (name : Str)
deriving DecidableEq, Repr

/-- `pkg/database/zip.go:142-164` `loadZipFile`. -/
def zipFileDiags (decode : Str → Option OSV) (e : ZipEntry) : List Diag :=
  match e.content with
  | none => [.entryUnread e.name]
  | some content => match decode content with
    | none => [.entryBad e.name]
    | some _ => []

/-- `pkg/database/zip.go:190-200`: the loop over the files of the archive. -/
def zipDiags (decode : Str → Option OSV) (wd : Str) (es : List ZipEntry) : List Diag :=
  es.flatMap fun e =>
    if !hasPrefix e.name wd then []
    else if !hasSuffix e.name g!".json" then []
    else zipFileDiags decode e

/-- `pkg/database/dir.go:61-78`: the callback for an entry without error. -/
def visitDiags (decode : Str → Option OSV) (name : Str) (content : Option Str) : List Diag :=
  if !hasSuffix name g!".json" then []
  else match content with
    | none => [.fileUnread name]
    | some c => match decode c with
      | none => [.fileBad name]
      | some _ => []

mutual
/-- `pkg/database/dir.go:49-84`: the messages of the walk, and whether it goes on. -/
def walkDiags (decode : Str → Option OSV) (name : Str) : FNode → List Diag × Bool
  | .gone => ([], false)
  | .file content => (visitDiags decode name content, true)
  | .locked => ([.unlisted name], true)
  | .dir entries =>
    let rest := walkAllDiags decode entries
    (visitDiags decode name none ++ rest.1, rest.2)
def walkAllDiags (decode : Str → Option OSV) : FList → List Diag × Bool
  | .nil => ([], true)
  | .cons name node rest =>
    let first := walkDiags decode name node
    if first.2 then
      let others := walkAllDiags decode rest
      (first.1 ++ others.1, others.2)
    else first
end

/-- An element of an array that is stored into a `byte`: whether `json.Unmarshal` reports an error. -/
def byteErr : JVal → Bool
  | .null => false
  | .num lit => !(decide (lit ≠ []) && lit.all isDigit && decide (lit.foldl (fun n c => n * 10 + (c.toNat - 48)) 0 < 256))
  | _ => true

/-- A member of an object that is stored into a `Cache` (`pkg/database/zip.go:34-39`): whether `json.Unmarshal` reports an error. -/
def cacheFieldErr (m : Str × JVal) : Bool :=
  let k := (Json.fieldOf cacheFields m.1).getD []
  if k = g!"url" ∨ k = g!"etag" ∨ k = g!"date" then (match m.2 with | .str _ => false | .null => false | _ => true)
  else if k = g!"body" then (match m.2 with
    | .str s => (Base64.decode s).isNone
    | .null => false
    | .arr l => l.toList.any byteErr
    | _ => true)
  else false

/-- `pkg/database/zip.go:56`: whether `json.Unmarshal(content, &cache)` reports an error. -/
def cacheErr (s : Str) : Bool :=
  match Json.parse s with
  | none => true
  | some .null => false
  | some (.obj m) => m.toList.any cacheFieldErr
  | some _ => true

/-- `pkg/database/zip.go:55-61`: the message about the cache that was read. -/
def readDiags (fs : CacheFS) (r : ZipRun) (p : Str) : List Diag :=
  match if r.readable then fs p else none with
  | none => []
  | some s => if cacheErr s then [.cacheParse p] else []

/-- `pkg/database/zip.go:51-128` `fetchZip`: its messages. A write that is not complete fails; if the process ends instead, there is no
load to speak of. -/
def fetchDiags (path : Str → Str) (fs : CacheFS) (r : ZipRun) : List Diag :=
  let p := path r.url
  let read := readDiags fs r p
  if r.offline then read
  else if !r.urlOk then read
  else match r.reply with
    | .resp status _ _ (some _) => if status = 200 ∧ r.write ≠ .complete then read ++ [.cacheWrite p] else read
    | _ => read

/-- `pkg/database/config.go:30-41` `Load`: the messages of a load; `fetched` are those of `fetchZip`. An API database writes none
(`pkg/database/api.go:33-54`). -/
def loadDiags (fetched : List Diag) (L : LoadEnv) (c : DBConfig) (offline : Bool) : List Diag :=
  if c.type = g!"zip" then
    fetched ++ match L.fetch c.url c.workingDirectory offline with
      | .ok body _ => (match L.unzip body with
        | none => []
        | some es => zipDiags L.decode c.workingDirectory es)
      | _ => []
  else if c.type = g!"dir" then
    if !hasPrefix c.url g!"file:" then []
    else match L.parseURI c.url with
      | none => []
      | some path =>
        let p := Path.join2 (trimPrefix path g!"/") c.workingDirectory
        (walkDiags L.decode (Path.base p) (L.tree p)).1
  else []

/-- The messages about the cache in the load for a URL and working directory. -/
def ArchiveLoads.diags (C : ArchiveLoads) (url wd : Str) : List Diag :=
  fetchDiags C.path (runHistory C.path C.fs (C.before url wd)) (C.now url wd)

/-- The world says that there are diagnostics for a load exactly if there are some. -/
def World.FollowsDiagnostics (W : World) (C : ArchiveLoads) (offline : Bool) : Prop :=
  ∀ c, W.warns c = !(loadDiags (C.diags c.url c.workingDirectory) W.load c offline).isEmpty

end Osv
