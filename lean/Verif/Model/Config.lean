import Verif.Model.Load
/-!
# Config files (`internal/configer/*.go`)

YAML decoding and encoding is outside the model: a config file is its decoded content.
-/
namespace Osv
open Str

/-- `internal/configer/load.go:16-21` `rawDatabaseConfig`. -/
structure RawDB where
  url : Str := []
  name : Str := []
  type : Str := []
  workingDirectory : Str := []
deriving DecidableEq, Repr

/-- `internal/configer/load.go:23-27` `rawConfig` (without the path). -/
structure RawConfig where
  ignore : List Str := []
  databases : List RawDB := []
deriving DecidableEq, Repr

/-- `internal/configer/load.go:29-33` `Config`. -/
structure Config where
  filePath : Str := []
  ignore : List Str := []
  databases : List DBConfig := []
deriving DecidableEq, Repr

/-- What `load` finds at a (cleaned) path. -/
inductive ConfigFile where
  /-- the error is `os.ErrNotExist` -/
  | missing
  /-- any other error while reading -/
  | unreadable
  /-- not valid YAML for a config -/
  | malformed
  | ok (raw : RawConfig)
deriving DecidableEq, Repr

/-- Errors of `Load`. -/
inductive ConfigErr where
  | notExist (path : Str)
  | unreadable (path : Str)
  | malformed (path : Str)
deriving DecidableEq, Repr

/-- Why a database entry is dropped. -/
inductive RawDBErr where
  | badURL
  | unsupportedType (t : Str)
deriving DecidableEq, Repr

/-- `internal/configer/load.go:35-48` `inferDBType`. -/
def RawDB.inferType (d : RawDB) : Str :=
  if d.type ≠ [] then d.type
  else if hasPrefix d.url g!"file:/" then g!"dir"
  else if hasSuffix d.url g!".zip" then g!"zip"
  else g!"api"

/-- `internal/configer/load.go:50-76` `toConfig`. `validURL` says whether `url.ParseRequestURI` succeeds. -/
def RawDB.toConfig (validURL : Str → Bool) (d : RawDB) : Except RawDBErr DBConfig :=
  if !validURL d.url then .error .badURL
  else
    let t := d.inferType
    if t ≠ g!"zip" ∧ t ≠ g!"api" ∧ t ≠ g!"dir" then .error (.unsupportedType t)
    else
      let c : DBConfig := ⟨d.name, t, d.url, d.workingDirectory⟩
      .ok (if c.name = [] then { c with name := c.identifier } else c)

/-- `internal/configer/load.go:85-95`: loop body of `newConfig`. -/
def newConfigStep (validURL : Str → Bool) (acc : Config × List RawDBErr) (d : RawDB) : Config × List RawDBErr :=
  match d.toConfig validURL with
  | .error e => (acc.1, acc.2 ++ [e])
  | .ok dbc => ({ acc.1 with databases := acc.1.databases ++ [dbc] }, acc.2)

/-- `internal/configer/load.go:78-98` `newConfig`: the config and the reasons for dropped entries (each is
printed as an error). -/
def newConfig (validURL : Str → Bool) (path : Str) (raw : RawConfig) : Config × List RawDBErr :=
  raw.databases.foldl (newConfigStep validURL) (⟨path, raw.ignore, []⟩, [])

/-- `internal/configer/load.go:133-153` `load`. -/
def loadRaw (file : Str → ConfigFile) (path : Str) : Except ConfigErr RawConfig :=
  let p := Path.clean path
  match file p with
  | .missing => .error (.notExist p)
  | .unreadable => .error (.unreadable p)
  | .malformed => .error (.malformed p)
  | .ok raw => .ok raw

/-- `internal/configer/load.go:155-163` `Load`. -/
def loadConfig (validURL : Str → Bool) (file : Str → ConfigFile) (path : Str) :
    Except ConfigErr (Config × List RawDBErr) :=
  match loadRaw file path with
  | .error e => .error e
  | .ok raw => .ok (newConfig validURL (Path.clean path) raw)

/-- `internal/configer/load.go:101-131` `Find`. -/
def findConfig (validURL : Str → Bool) (file : Str → ConfigFile) (dir : Str) :
    Except ConfigErr (Config × List RawDBErr) :=
  match loadConfig validURL file (dir ++ g!"/" ++ g!".osv-detector" ++ g!".yml") with
  | .ok c => .ok c
  | .error (.notExist _) =>
    match loadConfig validURL file (dir ++ g!"/" ++ g!".osv-detector" ++ g!".yaml") with
    | .ok c => .ok c
    | .error (.notExist _) => .ok ({}, [])
    | .error e => .error e
  | .error e => .error e

/-- What becomes of the config file when it is rewritten: it cannot be opened, the new content is written, or
writing stops after the file was truncated and `left` is what remains. -/
inductive UpdateOutcome where
  | notOpened
  | complete
  | torn (left : ConfigFile)
deriving DecidableEq, Repr

/-- `internal/configer/update.go:10-34` `UpdateWithIgnores`: the config files afterwards and whether it
succeeded. The path comes from a loaded config and is clean already. -/
def updateWithIgnores (file : Str → ConfigFile) (path : Str) (ignores : List Str) (o : UpdateOutcome) :
    (Str → ConfigFile) × Bool :=
  match loadRaw file path with
  | .error _ => (file, false)
  | .ok raw => match o with
    | .notOpened => (file, false)
    | .complete => (fun q => if q = path then .ok { raw with ignore := ignores } else file q, true)
    | .torn left => (fun q => if q = path then left else file q, false)

end Osv
