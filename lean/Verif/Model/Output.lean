import Verif.Model.Main
/-!
# The text of the output

`Model/Main` says which messages are printed; this is how they are written. Colouring, the texts of errors that come from
elsewhere (operating system, network, decoders) and the text of diagnostics are parameters.
-/
namespace Osv
open Str

/-- What the text of the output depends on besides the messages. -/
structure Words where
  /-- `fatih/color` -/
  paint : Color → Str → Str
  /-- `OSV.Describe` -/
  describe : OSV → Str
  /-- `main.go:22-25` -/
  version : Str
  date : Str
  commit : Str
  /-- `err.Error()` of the error that a message is about -/
  cause : ErrMsg → Str
  /-- the diagnostics of a database -/
  diagnostics : Str → Str
  /-- the JSON document (`Model/ReportJson`) -/
  document : List Result → Str

/-- `%d` of a number with a sign. -/
def showInt : Int → Str
  | .ofNat n => showNat n
  | .negSucc n => '-' :: showNat (n + 1)

/-- `main.go:160-184` `describeDB`. -/
def describeDB (paint : Color → Str → Str) : DBInfo → Str
  | .api batchSize => g!"using batches of " ++ paint .yellow (showInt batchSize)
  | .zip count updatedAt =>
    paint .yellow (showNat count) ++ g!" " ++ form count g!"vulnerability" g!"vulnerabilities" ++
      g!", including withdrawn - last updated " ++ updatedAt
  | .dir count =>
    paint .yellow (showNat count) ++ g!" " ++ form count g!"vulnerability" g!"vulnerabilities" ++ g!", including withdrawn"
  | .other => []

/-- `main.go:219-222` and `main.go:690-694`: the description in parentheses. -/
def describeInParens (paint : Color → Str → Str) (i : DBInfo) : Str :=
  if describeDB paint i ≠ [] then g!" (" ++ describeDB paint i ++ g!")" else []

/-- `main.go:754-760`: the line about an updated config. -/
def updatedLine (paint : Color → Str → Str) (path : Str) (n : Nat) : Str :=
  g!"Updated " ++ paint .magenta path ++ g!" with " ++ showNat n ++ g!" " ++ form n g!"vulnerability" g!"vulnerabilities" ++ g!"\n"

/-- The text of a message of `PrintTextf`: `main.go:204-229`, `530`, `628`, `645-702`, `745`, `754-760` and
`internal/reporter/reporter.go:102-106`. -/
def TextMsg.text (W : Words) : TextMsg → Str
  | .version => g!"osv-detector " ++ W.version ++ g!" (" ++ W.date ++ g!", commit " ++ W.commit ++ g!")\n"
  | .ecosystem none => g!"The detector supports parsing for the following ecosystems:\n"
  | .ecosystem (some e) => g!"  " ++ e ++ g!"\n"
  | .blank => g!"\n"
  | .loadedHeader => g!"Loaded the following OSV databases:\n"
  | .dbName name => g!"  " ++ name
  | .dbDesc info => describeInParens W.paint info ++ g!"\n"
  | .found path n =>
    W.paint .magenta path ++ g!": found " ++ W.paint .yellow (showNat n) ++ g!" " ++ form n g!"package" g!"packages" ++ g!"\n"
  | .usingConfig path none => g!"  Using config at " ++ W.paint .magenta path ++ g!" (skipping any ignores)\n"
  | .usingConfig path (some n) =>
    g!"  Using config at " ++ W.paint .magenta path ++ g!" (" ++
      W.paint .yellow (showNat n ++ g!" " ++ form n g!"ignore" g!"ignores") ++ g!")\n"
  | .usingDb name info => g!"  Using db " ++ W.paint .hiCyan name ++ describeInParens W.paint info ++ g!"\n"
  | .updated path n => updatedLine W.paint path n

/-- The text of a message of `PrintErrorf`: `main.go:94-98`, `270`, `544-551`, `560-562`, `587`, `632`, `762`,
`internal/reporter/reporter.go:96` and `internal/configer/load.go:89`. -/
def ErrMsg.text (W : Words) (m : ErrMsg) : Str :=
  match m with
  | .badParseAs name => g!"Don't know how to parse files as \"" ++ name ++ g!"\" - supported values are:\n"
  | .parserName name => g!"  " ++ name ++ g!"\n"
  | .badPath path => g!"Error reading " ++ path ++ g!": " ++ W.cause m ++ g!"\n"
  | .noPaths =>
    g!"You must provide at least one path to either a lockfile or a directory containing at least one lockfile (see --help for usage and flags)\n"
  | .badConfig _ => g!"Error, " ++ W.cause m ++ g!"\n"
  | .invalidDatabase configPath _ => configPath ++ g!" contains an invalid database: " ++ W.cause m ++ g!"\n"
  | .lockfile _ => g!"Error, " ++ W.cause m ++ g!"\n"
  | .dbLoad _ => g!" " ++ W.paint .red (g!"failed: " ++ W.cause m) ++ g!"\n"
  | .dbCheck path _ =>
    W.paint .red (g!"  an api error occurred while trying to check the packages listed in " ++ path ++ g!": " ++ W.cause m ++ g!"\n")
  | .updateConfig _ => g!"Error updating config: " ++ W.cause m

/-- `internal/reporter/reporter.go:89-97` `PrintDatabaseLoadErr`: what is said about an error of `Load`; `cause` is
`err.Error()`. The result is `Words.cause` of `ErrMsg.dbLoad`. -/
def loadErrText (paint : Color → Str → Str) (cause : LoadErr → Str) (e : LoadErr) : Str :=
  if e = .fetch .offlineNotFound then
    paint .red g!"no local version of the database was found, and --offline flag was set"
  else cause e

/-- The text of a result. -/
def Result.text (W : Words) : Result → Str
  | .lockfile l => l.text
  | .report r => r.text W.paint W.describe

/-- Where an event is written and what. -/
def Event.written (W : Words) : Event → Stream × Str
  | .text s m => (s, m.text W)
  | .error m => (.stderr, m.text W)
  | .result r => (.stdout, r.text W)
  | .json rs => (.stdout, W.document rs)
  | .warning n => (.stderr, W.diagnostics n)

/-- `main.go:753-764`: the event is one of the lines that are sorted by their text. -/
def Event.isUpdate : Event → Bool
  | .text _ (.updated _ _) => true
  | .error (.updateConfig _) => true
  | _ => false

/-- The texts of events for a stream, in order. -/
def writtenTo (W : Words) (s : Stream) (es : List Event) : List Str :=
  es.filterMap fun e => if (e.written W).1 = s then some (e.written W).2 else none

/-- Everything that is written to a stream. The lines about updated configs are the last ones of their stream and sorted
(`main.go:767-780`). -/
def streamText (W : Words) (s : Stream) (es : List Event) : Str :=
  (writtenTo W s (es.filter fun e => !e.isUpdate)).flatten ++ (sortStr (writtenTo W s (es.filter Event.isUpdate))).flatten

end Osv
