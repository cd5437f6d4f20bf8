import Verif.Go.JsonDecode
import Verif.Go.Base64
/-!
# Archive cache (`pkg/database/zip.go:33-128`)

Simplifications: the cache file is valid UTF-8 text, one element per rune; header values and the URL are
valid UTF-8 (`json.Marshal` replaces invalid bytes); a nil body and an empty body are identified; two
processes never write the cache at the same time.
-/
namespace Osv

/-- Bytes of an archive. -/
abbrev Bytes := List UInt8

/-- `pkg/database/zip.go:34-39` `Cache`. -/
structure Cache where
  url : Str := []
  etag : Str := []
  date : Str := []
  body : Bytes := []
deriving DecidableEq, Repr

/-- A number literal stored into a byte of a `[]byte` given as an array; out of range values leave zero. -/
def jsonByte : JVal → UInt8
  | .num lit => if lit ≠ [] ∧ lit.all Str.isDigit then
      let n := lit.foldl (fun n c => n * 10 + (c.toNat - 48)) 0
      if n < 256 then UInt8.ofNat n else 0
    else 0
  | _ => 0

/-- The names of the fields of `Cache` (`pkg/database/zip.go:34-39`). -/
def cacheFields : List Str := [g!"url", g!"etag", g!"date", g!"body"]

/-- `json.Unmarshal` of one member into a `Cache`: field names are matched without regard to case, a value of
a wrong type leaves the field as it is (and makes `Unmarshal` report an error, which `fetchZip` only prints).
Simplification: a second `body` array reusing the elements of a first one is not modelled. -/
def Cache.setField (c : Cache) (m : Str × JVal) : Cache :=
  let k := (Json.fieldOf cacheFields m.1).getD []
  if k = g!"url" then (match m.2 with | .str s => { c with url := s } | _ => c)
  else if k = g!"etag" then (match m.2 with | .str s => { c with etag := s } | _ => c)
  else if k = g!"date" then (match m.2 with | .str s => { c with date := s } | _ => c)
  else if k = g!"body" then (match m.2 with
    | .str s => (match Base64.decode s with | some b => { c with body := b } | none => c)
    | .null => { c with body := [] }
    | .arr l => { c with body := l.toList.map jsonByte }
    | _ => c)
  else c

/-- `json.Unmarshal(content, &cache)` with a nil `*Cache` (`zip.go:56`): what `cache` is afterwards. A syntax
error or `null` leaves it nil; any other value that is not an object allocates an empty `Cache`. -/
def decodeCache (s : Str) : Option Cache :=
  match Json.parse s with
  | none => none
  | some .null => none
  | some (.obj m) => some (m.toList.foldl Cache.setField {})
  | some _ => some {}

/-- A `Cache` as a JSON object. -/
def Cache.toJson (c : Cache) : JVal :=
  .obj (.cons g!"url" (.str c.url) (.cons g!"etag" (.str c.etag) (.cons g!"date" (.str c.date)
    (.cons g!"body" (.str (Base64.encode c.body)) .nil))))

/-- `json.Marshal(cache)` (`zip.go:116`). -/
def encodeCache : Option Cache → Str
  | none => g!"null"
  | some c => Json.render c.toJson

/-- Answer of the server. `body = none`: reading the body failed. -/
inductive Reply where
  | failed
  | resp (status : Nat) (etag date : Str) (body : Option Bytes)
deriving DecidableEq, Repr

/-- What becomes of the cache file when it is written: written completely, not touched (it could not be
opened, or the process ended before), or cut to a proper prefix (the process crashed or the disk is full). -/
inductive WriteOutcome where
  | complete
  | untouched
  | torn (k : Nat)
deriving DecidableEq, Repr

/-- One run that loads one archive. -/
structure ZipRun where
  url : Str
  offline : Bool
  /-- whether an existing cache file can be read -/
  readable : Bool
  /-- whether a request can be made from the URL -/
  urlOk : Bool
  reply : Reply
  write : WriteOutcome
deriving DecidableEq, Repr

/-- Errors of `fetchZip`. -/
inductive FetchErr where
  | offlineNotFound
  | request
  | status (n : Nat)
  | body
deriving DecidableEq, Repr

/-- Result of `fetchZip`: the archive and `db.UpdatedAt`, an error, or a nil dereference. -/
inductive FetchResult where
  | ok (body : Bytes) (updatedAt : Str)
  | error (e : FetchErr)
  | panic
deriving DecidableEq, Repr

/-- The file system: content of the files that exist. -/
abbrev CacheFS := Str → Option Str

/-- `os.WriteFile` (`zip.go:120`). -/
def writeFile (fs : CacheFS) (p : Str) (content : Str) : WriteOutcome → CacheFS
  | .complete => fun q => if q = p then some content else fs q
  | .untouched => fs
  | .torn k => fun q => if q = p then some (content.dropLast.take k) else fs q

/-- Everything visible of one run. `sent` is `none` if no request was made, otherwise the values of
`If-None-Match` and `If-Modified-Since`, if they were set. -/
structure FetchTrace where
  result : FetchResult
  sent : Option (Option (Str × Str))
  fs : CacheFS

/-- `pkg/database/zip.go:55-61`: reading the cache. -/
def readCache (fs : CacheFS) (p : Str) (readable : Bool) : Option Cache :=
  if readable then (fs p).bind decodeCache else none

/-- `pkg/database/zip.go:51-128` `fetchZip`. `path` is `cachePath` (`zip.go:44-49`). -/
def fetchZip (path : Str → Str) (fs : CacheFS) (r : ZipRun) : FetchTrace :=
  let cache := readCache fs (path r.url) r.readable
  if r.offline then
    match cache with
    | none => ⟨.error .offlineNotFound, none, fs⟩
    | some c => ⟨.ok c.body c.date, none, fs⟩
  else if !r.urlOk then ⟨.error .request, none, fs⟩
  else
    let sent := cache.map fun c => (c.etag, c.date)
    match r.reply with
    | .failed => ⟨.error .request, some sent, fs⟩
    | .resp status etag date body =>
      if status = 304 then
        match cache with
        | none => ⟨.panic, some sent, fs⟩
        | some c => ⟨.ok c.body c.date, some sent, fs⟩
      else if status ≠ 200 then ⟨.error (.status status), some sent, fs⟩
      else match body with
        | none => ⟨.error .body, some sent, fs⟩
        | some b =>
          let cache' := if etag ≠ [] ∨ date ≠ [] then some ⟨r.url, etag, date, b⟩ else cache
          ⟨.ok b date, some sent, writeFile fs (path r.url) (encodeCache cache') r.write⟩

/-- The file system after a history of runs. -/
def runHistory (path : Str → Str) (fs : CacheFS) (h : List ZipRun) : CacheFS :=
  h.foldl (fun fs r => (fetchZip path fs r).fs) fs

end Osv
