import Verif.Spec.Output
import Verif.Spec.Run
/-!
# Everything that is written, in order, and where
-/
namespace Osv.Spec
open Osv Str

/-- Pieces of text and the streams they are written to, in order. -/
abbrev Said := List (Stream × Str)

/-- The text on one of the streams. -/
def Said.on (s : Stream) (l : Said) : Str := (l.filterMap fun p => if p.1 = s then some p.2 else none).flatten

/-- Everything that is written, in order, without the lines about updated configs: those come last. -/
def transcript (W : Words) (es : List Event) : Said := (es.filter fun e => !e.isUpdate).map (Event.written W)

/-- With `--json` stdout is for the document only. -/
def textStream (f : Flags) : Stream := if f.json then .stderr else .stdout

/-- The path in an argument: what follows the first colon, or all of it. -/
def pathIn (arg : Str) : Str := if ':' ∈ arg then (arg.dropWhile (· ≠ ':')).drop 1 else arg

/-- Which paths cannot be opened. -/
def saidPaths (W : Words) (env : Env) (f : Flags) : Said :=
  if f.parseAs = g!"csv-row" then []
  else (f.args.filter fun a => decide (env.path (pathIn a) = .cannotOpen)).map fun a =>
    (.stderr, g!"Error reading " ++ pathIn a ++ g!": " ++ W.cause (.badPath (pathIn a)) ++ g!"\n")

/-- Which databases of a config are not valid. -/
def saidDropped (W : Words) (path : Str) (es : List RawDBErr) : Said :=
  es.map fun e => (.stderr, path ++ g!" contains an invalid database: " ++ W.cause (.invalidDatabase path e) ++ g!"\n")

/-- What is said about the config that is given by a flag. -/
def saidConfig (W : Words) (env : Env) (f : Flags) : Said :=
  if f.listPackages = true ∨ f.noConfig = true ∨ f.configPath = [] then []
  else match loadConfig env.validURL env.config f.configPath with
    | .ok (c, dropped) => saidDropped W c.filePath dropped
    | .error e => [(.stderr, g!"Error, " ++ W.cause (.badConfig e) ++ g!"\n")]

/-- What is said about the configs beside the files. -/
def saidLocal (W : Words) (env : Env) (f : Flags) (paths : List Str) : Said :=
  if f.listPackages = true ∨ f.noConfig = true ∨ f.configPath ≠ [] then []
  else paths.flatMap fun p => match findConfig env.validURL env.config (Path.dir (pathIn p)) with
    | .ok (c, dropped) => saidDropped W c.filePath dropped
    | .error _ => []

/-- What is said while a database is loaded. -/
def saidLoad (W : Words) (env : Env) (f : Flags) (names : List Str) (c : DBConfig) : Said :=
  let res := env.load c f.offline f.batchSize names
  [(textStream f, g!"  " ++ c.name)] ++ (if res.2 then [(.stderr, W.diagnostics c.name)] else []) ++
    [match res.1 with
      | some db => (textStream f, aboutDatabase W.paint db.info ++ g!"\n")
      | none => (.stderr, g!" " ++ W.paint .red (g!"failed: " ++ W.cause (.dbLoad c.name)) ++ g!"\n")]

/-- What is said while the databases are loaded. -/
def saidLoads (W : Words) (env : Env) (f : Flags) (names : List Str) (cs : List DBConfig) : Said :=
  if f.listPackages then []
  else [(textStream f, g!"Loaded the following OSV databases:\n")] ++ cs.flatMap (saidLoad W env f names) ++ [(textStream f, g!"\n")]

/-- What is said when a database is asked about the packages of a file, the check being number `i`. -/
def saidCheck (W : Words) (i : Nat) (l : Lockfile) (db : DB) : Said :=
  (if (db.check i l.packages).2 then [(.stderr, W.diagnostics db.name)] else []) ++
    (match (db.check i l.packages).1 with
      | .ok _ => []
      | .error _ => [(.stderr, W.paint .red (g!"  an api error occurred while trying to check the packages listed in " ++ l.filePath ++ g!": " ++
          W.cause (.dbCheck l.filePath db.name) ++ g!"\n"))])

/-- A result is written at once, or kept for the document. -/
def saidResult (f : Flags) (text : Str) : Said := if f.json then [] else [(.stdout, text)]

/-- What is said about a file with config `c` that is number `i`, and its results. -/
inductive SaidFile (W : Words) (f : Flags) (c : Config) (dbs : List DB) (i : Nat) (x : FileEntry) : List Result → Said → Prop
  | failed : x.err = true → SaidFile W f c dbs i x [] [(.stderr, g!"Error, " ++ W.cause (.lockfile x.lockf.filePath) ++ g!"\n")]
  | listed : x.err = false → f.listPackages = true →
      SaidFile W f c dbs i x [.lockfile x.lockf] ([(textStream f, fileLine W.paint x.lockf)] ++ saidResult f (packageLines x.lockf.packages))
  | checked (rep : Report) : x.err = false → f.listPackages = false → rep.lockfile = x.lockf →
      SaidFile W f c dbs i x [.report rep] ([(textStream f, fileLine W.paint x.lockf)] ++
        (if c.filePath = [] then [] else [(textStream f, configLine W.paint f.noConfigIgnores c)]) ++
        dbs.map (fun db => (textStream f, usingLine W.paint db)) ++ [(textStream f, g!"\n")] ++
        dbs.flatMap (saidCheck W i x.lockf) ++ saidResult f (rep.text W.paint W.describe))

/-- What is said about all files, of which the first is number `i`, with empty lines between them. -/
inductive SaidFiles (W : Words) (f : Flags) (config : FileEntry → Config) (dbs : Config → List DB) :
    Nat → List FileEntry → List Result → Said → Prop
  | nil {i : Nat} : SaidFiles W f config dbs i [] [] []
  | cons {i : Nat} {x : FileEntry} {xs : List FileEntry} {rs rs' : List Result} {s s' : Said} :
      SaidFile W f (config x) (dbs (config x)) i x rs s → SaidFiles W f config dbs (i + 1) xs rs' s' →
      SaidFiles W f config dbs i (x :: xs) (rs ++ rs') ((if i = 0 then [] else [(textStream f, g!"\n")]) ++ s ++ s')

/-- The names that may be given with `--parse-as`, in order, whether letters are capital or not. -/
def parserList : List Str :=
  [g!"buildscript-gradle.lockfile", g!"bun.lock", g!"Cargo.lock", g!"composer.lock", g!"Gemfile.lock", g!"go.mod",
   g!"gradle.lockfile", g!"mix.lock", g!"package-lock.json", g!"packages.lock.json", g!"pdm.lock", g!"Pipfile.lock",
   g!"pnpm-lock.yaml", g!"poetry.lock", g!"pom.xml", g!"pubspec.lock", g!"pylock.toml", g!"renv.lock", g!"requirements.txt",
   g!"uv.lock", g!"yarn.lock"]

/-- The document that ends the output with `--json`. -/
def saidDocument (W : Words) (f : Flags) (rs : List Result) : Said := if f.json then [(.stdout, W.document rs)] else []

/-- The line about an updated config, or one that could not be updated, on a stream. -/
def updateText (W : Words) (s : Stream) : Event → Option Str
  | .text t (.updated p n) => if t = s then
      some (g!"Updated " ++ W.paint .magenta p ++ g!" with " ++ showNat n ++ noun n g!" vulnerability\n" g!" vulnerabilities\n") else none
  | .error (.updateConfig p) => if s = .stderr then some (g!"Error updating config: " ++ W.cause (.updateConfig p)) else none
  | _ => none

end Osv.Spec
