import Verif.Model.Main
/-! # What a command line means -/
namespace Osv.Spec
open Osv Str

/-- An option as it is written: `-name`, `-name=value` or, if `apart`, `-name value`, with one or two dashes. -/
structure Opt where
  dash : Str
  name : Str
  value : Option Str := none
  apart : Bool := false
deriving DecidableEq, Repr

/-- The arguments for an option. -/
def Opt.words (o : Opt) : List Str :=
  match o.value with
  | none => [o.dash ++ o.name]
  | some v => if o.apart then [o.dash ++ o.name, v] else [o.dash ++ o.name ++ g!"=" ++ v]

/-- Options that are on or off. -/
def switches : List Str :=
  [g!"offline", g!"no-config", g!"update-config-ignores", g!"no-config-ignores", g!"no-config-databases", g!"version",
   g!"list-ecosystems", g!"list-packages", g!"json", g!"use-dbs", g!"use-api"]

/-- Options with a value. -/
def settings : List Str := [g!"parse-as", g!"config", g!"batch-size", g!"ignore"]

/-- How on and off are written. -/
def TruthWord (b : Bool) (v : Str) : Prop :=
  v ∈ if b then [g!"1", g!"t", g!"T", g!"TRUE", g!"true", g!"True"] else [g!"0", g!"f", g!"F", g!"FALSE", g!"false", g!"False"]

/-- A switch without a value is on. -/
def Switched (o : Opt) (b : Bool) : Prop := (o.value = none ∧ b = true) ∨ ∃ v, o.value = some v ∧ TruthWord b v

/-- An option that the command accepts; `atoi` reads integers. -/
def Opt.Valid (atoi : Str → Option Int) (o : Opt) : Prop :=
  (o.dash = g!"-" ∨ o.dash = g!"--") ∧
  ((o.name ∈ switches ∧ o.apart = false ∧ ∃ b, Switched o b) ∨
   (o.name ∈ settings ∧ ∃ v, o.value = some v ∧ (o.name = g!"batch-size" → ∃ n, atoi v = some n)))

/-- It could be an option: at least two characters of which the first is a dash. -/
def OptionLike (s : Str) : Prop := ∃ c r, s = '-' :: c :: r

/-- The arguments are these options followed by these paths. The paths start at the first argument that cannot be an option, or after
`--`. -/
def Splits (args : List Str) (opts : List Opt) (paths : List Str) : Prop :=
  (args = opts.flatMap Opt.words ++ paths ∧ ∀ p ps, paths = p :: ps → ¬ OptionLike p) ∨
  args = opts.flatMap Opt.words ++ g!"--" :: paths

/-- The word asks for help. -/
def AsksHelp (s : Str) : Prop :=
  ∃ dash name tail, (dash = g!"-" ∨ dash = g!"--") ∧ (name = g!"help" ∨ name = g!"h") ∧ s = dash ++ name ++ tail ∧
    (tail = [] ∨ ∃ v, tail = '=' :: v)

/-- `a` is given by the last option with this name, or by the default if there is none. -/
def Last {α : Type} (opts : List Opt) (name : Str) (R : Opt → α → Prop) (default a : α) : Prop :=
  (∃ pre o post, opts = pre ++ o :: post ∧ o.name = name ∧ R o a ∧ ∀ x ∈ post, x.name ≠ name) ∨
  ((∀ x ∈ opts, x.name ≠ name) ∧ a = default)

/-- What options and paths mean. -/
structure Means (atoi : Str → Option Int) (preferAPI : Bool) (opts : List Opt) (paths : List Str) (f : Flags) : Prop where
  offline : Last opts g!"offline" Switched false f.offline
  noConfig : Last opts g!"no-config" Switched false f.noConfig
  updateConfigIgnores : Last opts g!"update-config-ignores" Switched false f.updateConfigIgnores
  noConfigIgnores : Last opts g!"no-config-ignores" Switched false f.noConfigIgnores
  noConfigDatabases : Last opts g!"no-config-databases" Switched false f.noConfigDatabases
  printVersion : Last opts g!"version" Switched false f.printVersion
  listEcosystems : Last opts g!"list-ecosystems" Switched false f.listEcosystems
  listPackages : Last opts g!"list-packages" Switched false f.listPackages
  json : Last opts g!"json" Switched false f.json
  useDatabases : Last opts g!"use-dbs" Switched (!preferAPI) f.useDatabases
  useAPI : Last opts g!"use-api" Switched preferAPI f.useAPI
  parseAs : Last opts g!"parse-as" (fun o v => o.value = some v) [] f.parseAs
  configPath : Last opts g!"config" (fun o v => o.value = some v) [] f.configPath
  batchSize : Last opts g!"batch-size" (fun o n => ∃ v, o.value = some v ∧ atoi v = some n) 1000 f.batchSize
  globalIgnores : f.globalIgnores = (opts.filter fun o => o.name = g!"ignore").filterMap (·.value)
  args : f.args = paths

end Osv.Spec
