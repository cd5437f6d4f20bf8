import Verif.Go.YamlScan
import Verif.Model.ConfigWrite
/-!
# The text of YAML files and of written configs

`pkg/lockfile/parse-pnpm-lock.go`, `pkg/lockfile/parse-pubspec-lock.go`, `internal/configer/load.go` and `update.go` with the reader of
`Go/YamlScan.lean`.
-/
namespace Osv
open Str

/-- `yaml.Unmarshal` up to the tree: as modelled where the model says something, and anything elsewhere. -/
def yamlWith (other : YamlReader) : YamlReader := fun s => match YamlScan.scan s with
  | some r => some r
  | none => other s

/-- `internal/configer/load.go:16-21`: a field with `omitempty`. -/
def optLine (style : Str → Str) (key value : Str) : List Str := if value = [] then [] else [g!"    " ++ (key ++ (g!": " ++ style value))]

/-- `internal/configer/load.go:16-21` `rawDatabaseConfig` as an item of a sequence. -/
def dbLines (style : Str → Str) (d : RawDB) : List Str :=
  (g!"  - url: " ++ style d.url) :: (optLine style g!"name" d.name ++ (optLine style g!"type" d.type ++
    optLine style g!"working-directory" d.workingDirectory))

/-- The lines for the ignores. -/
def ignoreLines (style : Str → Str) (ignores : List Str) : List Str :=
  if ignores = [] then [g!"ignore: []"] else g!"ignore:" :: ignores.map fun s => g!"  - " ++ style s

/-- `internal/configer/update.go:25-27`: the lines that the encoder with an indentation of 2 writes for a config. `style` is how it
writes a string: without quotes, or in quotes if it has to. Simplification: it writes strings with line breaks over several lines, which
is not modelled. -/
def configLines (style : Str → Str) (c : RawConfig) : List Str :=
  ignoreLines style c.ignore ++ (if c.databases = [] then [] else g!"extra-databases:" :: c.databases.flatMap (dbLines style))

/-- `internal/configer/update.go:27`: the text. -/
def writeConfig (style : Str → Str) (c : RawConfig) : Str := (configLines style c).flatMap (· ++ ['\n'])

/-- The hexadecimal digit with a value. -/
def yamlDigit (n : Nat) : Char := (g!"0123456789abcdef").getD n '0'

/-- A number in eight hexadecimal digits. -/
def yamlHex (n : Nat) : Str :=
  [yamlDigit (n / 0x10000000 % 16), yamlDigit (n / 0x1000000 % 16), yamlDigit (n / 0x100000 % 16), yamlDigit (n / 0x10000 % 16),
   yamlDigit (n / 0x1000 % 16), yamlDigit (n / 0x100 % 16), yamlDigit (n / 0x10 % 16), yamlDigit (n % 16)]

/-- A character in double quotes. -/
def yamlEscaped (c : Char) : Str :=
  if c = '"' ∨ c = '\\' then ['\\', c] else if YamlScan.okChar c then [c] else '\\' :: 'U' :: yamlHex c.toNat

/-- One way to write strings: all of them in double quotes. -/
def yamlQuoted (s : Str) : Str := '"' :: (s.flatMap yamlEscaped ++ ['"'])

/-- A string can be written without quotes: it is read back. -/
def yamlPlainFits (s : Str) : Bool :=
  match YamlScan.scalar false s with
  | some (.scalar v false, []) => s.all YamlScan.okChar && s.head? != some '\'' && s.head? != some '"' && v = s
  | _ => false

/-- Another: without quotes if that is possible and the encoder wants it, otherwise in double quotes. -/
def yamlStyled (plain : Str → Bool) (s : Str) : Str := if plain s && yamlPlainFits s then s else yamlQuoted s

end Osv
