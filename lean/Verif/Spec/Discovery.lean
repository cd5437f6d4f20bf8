import Verif.Model.Main
/-!
# Which files are checked

Specifications of path discovery and config lookup.
-/
namespace Osv.Spec

/-- The argument asks for `path` to be parsed as `parser`; an empty `parser` asks for nothing in particular. -/
def Asks (arg parser path : Str) : Prop :=
  (':' ∉ arg ∧ parser = [] ∧ path = arg) ∨ (':' ∉ parser ∧ arg = parser ++ ':' :: path)

/-- The parser of an argument, given the one of the `--parse-as` flag; empty if it depends on the file name. -/
def wantedParser (global parser : Str) : Str := if parser = [] then global else parser

/-- The name of the parser for a file. -/
def parserOf (want path : Str) : Str := if want = [] then Path.base path else want

/-- The file at path `q` is found from the arguments and is to be parsed as `want`. -/
inductive Discovers (env : Env) (global : Str) (args : List Str) : Str → Str → Prop where
  | file (arg parser path : Str) (mem : arg ∈ args) (asks : Asks arg parser path) (isFile : env.path path = .file) :
      Discovers env global args (wantedParser global parser) (Path.clean path)
  | entry (arg parser path name : Str) (entries : List (Str × Bool)) (mem : arg ∈ args) (asks : Asks arg parser path)
      (isDir : env.path path = .dir entries) (isEntry : (name, false) ∈ entries)
      (known : wantedParser global parser = g!"csv-file" ∨ parserOf (wantedParser global parser) name ∈ parserNames) :
      Discovers env global args (wantedParser global parser) (Path.clean (Path.join2 path name))

/-- The paths of the local config of a directory, in the order of preference. -/
def ymlPath (dir : Str) : Str := Path.clean (dir ++ g!"/.osv-detector.yml")
def yamlPath (dir : Str) : Str := Path.clean (dir ++ g!"/.osv-detector.yaml")

/-- The file exists but is no config. -/
def BrokenFile (c : ConfigFile) : Prop := c = .unreadable ∨ c = .malformed

/-- The local config of a directory exists but cannot be used. -/
def BrokenConfig (file : Str → ConfigFile) (dir : Str) : Prop :=
  BrokenFile (file (ymlPath dir)) ∨ (file (ymlPath dir) = .missing ∧ BrokenFile (file (yamlPath dir)))

/-- Local configs are looked for. -/
def LocalConfigs (f : Flags) : Prop := f.listPackages = false ∧ f.noConfig = false ∧ f.configPath = []

end Osv.Spec
