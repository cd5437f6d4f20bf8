import Verif.Model.ConfigText
import Verif.Model.YamlFiles
/-!
# Writing config files (`internal/configer/update.go`)

The struct is turned into a tree of nodes here, following `gopkg.in/yaml.v3` `encode.go` for the tags in `load.go`. Only the text for a
tree and the tree for a text belong to the library.
-/
namespace Osv
open Str

/-- A string as the encoder writes it: quoted if it would otherwise mean something else, so never null. -/
def yamlStr (s : Str) : YNode := .scalar s false

/-- A field with `omitempty`. -/
def yamlOpt (k s : Str) : List (YNode × YNode) := if s = [] then [] else [(yamlStr k, yamlStr s)]

/-- `internal/configer/load.go:16-21`: the tags of `rawDatabaseConfig`. -/
def encodeRawDB (d : RawDB) : YNode :=
  .map ((yamlStr g!"url", yamlStr d.url) :: (yamlOpt g!"name" d.name ++ (yamlOpt g!"type" d.type ++
    yamlOpt g!"working-directory" d.workingDirectory)))

/-- `internal/configer/load.go:23-27`: the tags of `rawConfig`. The path is left out, an empty list of databases too, an empty list of
ignores is `[]`. -/
def encodeConfig (c : RawConfig) : YNode :=
  .map ((yamlStr g!"ignore", .seq (c.ignore.map yamlStr)) ::
    (if c.databases = [] then [] else [(yamlStr g!"extra-databases", .seq (c.databases.map encodeRawDB))]))

/-- The YAML library: the tree for a text, and the text for a tree. A tree of mappings, sequences and strings that was written is read
back, whatever it is; the trees written here are the only ones needed. An empty text has no document. -/
structure YamlText where
  read : YamlReader
  write : YNode → Str
  read_write : ∀ c : RawConfig, read (write (encodeConfig c)) = some (some (encodeConfig c))
  read_nil : read [] = some none

/-- `internal/configer/update.go:10-34` on the text of a file: the text when the write is complete, or nothing if the file is not a
config. -/
def updatedText (Y : YamlText) (text : Str) (ignores : List Str) : Option Str :=
  (configDecode Y.read text).map fun raw => Y.write (encodeConfig { raw with ignore := ignores })

/-- A file gets a new content. -/
def setFile (file : Str → Option (Option Str)) (path content : Str) : Str → Option (Option Str) :=
  fun q => if q = path then some (some content) else file q

/-- How far the update gets: not even opened, or some number of characters of the new text written. -/
inductive WriteProgress where
  | notOpened
  | wrote (n : Nat)
  | all
deriving DecidableEq, Repr

/-- `internal/configer/update.go:10-34` `UpdateWithIgnores` on the files of the disk. `path` is clean. -/
def updateFiles (Y : YamlText) (file : Str → Option (Option Str)) (path : Str) (ignores : List Str) (o : WriteProgress) :
    (Str → Option (Option Str)) × Bool :=
  match file path with
  | some (some text) => match updatedText Y text ignores with
    | none => (file, false)
    | some new => match o with
      | .notOpened => (file, false)
      | .wrote n => (setFile file path (new.take n), false)
      | .all => (setFile file path new, true)
  | _ => (file, false)

end Osv
