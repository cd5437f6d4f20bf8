import Verif.Model.Output
/-!
# What the output should look like

The text on stdout without `--json`, put together from what was read, loaded and found.
-/
namespace Osv.Spec
open Osv Str

/-- Singular or plural. -/
def noun (n : Nat) (one many : Str) : Str := if n = 1 then one else many

/-- What is said about a database after its name. -/
def aboutDatabase (paint : Color → Str → Str) : DBInfo → Str
  | .api n => g!" (using batches of " ++ paint .yellow (showInt n) ++ g!")"
  | .zip n date => g!" (" ++ paint .yellow (showNat n) ++ g!" " ++ noun n g!"vulnerability" g!"vulnerabilities" ++
      g!", including withdrawn - last updated " ++ date ++ g!")"
  | .dir n => g!" (" ++ paint .yellow (showNat n) ++ g!" " ++ noun n g!"vulnerability" g!"vulnerabilities" ++
      g!", including withdrawn)"
  | .other => []

/-- What is said on stdout while a database is loaded. What went wrong, and the end of the line, is on stderr. -/
def databaseText (paint : Color → Str → Str) (name : Str) : Option DB → Str
  | none => g!"  " ++ name
  | some db => g!"  " ++ name ++ aboutDatabase paint db.info ++ g!"\n"

/-- The first line about a file. -/
def fileLine (paint : Color → Str → Str) (l : Lockfile) : Str :=
  paint .magenta l.filePath ++ g!": found " ++ paint .yellow (showNat l.packages.length) ++
    noun l.packages.length g!" package\n" g!" packages\n"

/-- The line about the config of a file, if it has one. -/
def configLine (paint : Color → Str → Str) (noIgnores : Bool) (c : Config) : Str :=
  if c.filePath = [] then []
  else g!"  Using config at " ++ paint .magenta c.filePath ++ g!" (" ++
    (if noIgnores then g!"skipping any ignores"
      else paint .yellow (showNat c.ignore.length ++ noun c.ignore.length g!" ignore" g!" ignores")) ++ g!")\n"

/-- The line about a database that a file is checked with. -/
def usingLine (paint : Color → Str → Str) (db : DB) : Str :=
  g!"  Using db " ++ paint .hiCyan db.name ++ aboutDatabase paint db.info ++ g!"\n"

/-- The line about a package: ecosystem, name, version if there is one, and commit if there is one. -/
def packageLine (p : PackageDetails) : Str :=
  g!"  " ++ (if p.ecosystem = [] then g!"<unknown>" else p.ecosystem) ++ g!": " ++ p.name ++
    (if p.version = [] then [] else g!"@" ++ p.version) ++ (if p.commit = [] then [] else g!" (" ++ p.commit ++ g!")")

/-- The lines about packages, one for each, in order, with line ends between them. -/
def packageLines : List PackageDetails → Str
  | [] => []
  | [p] => packageLine p
  | p :: q :: ps => packageLine p ++ g!"\n" ++ packageLines (q :: ps)

/-- `text` is the part of the output about the file `x` with config `c`, databases `dbs` and result `r`. -/
inductive IsSection (W : Words) (f : Flags) (c : Config) (dbs : List DB) (x : FileEntry) : Result → Str → Prop
  | listed : f.listPackages = true → IsSection W f c dbs x (.lockfile x.lockf) (fileLine W.paint x.lockf ++ packageLines x.lockf.packages)
  | checked (rep : Report) : f.listPackages = false → rep.lockfile = x.lockf →
      IsSection W f c dbs x (.report rep) (fileLine W.paint x.lockf ++ configLine W.paint f.noConfigIgnores c ++
        (dbs.map (usingLine W.paint)).flatten ++ g!"\n" ++ rep.text W.paint W.describe)

/-- `parts` are the parts of the output about the files, of which those that could be read have the results. A file that
could not be read has an empty part; `config` gives the config of a file, and `dbs` the databases for a config. -/
inductive Sections (W : Words) (f : Flags) (config : FileEntry → Config) (dbs : Config → List DB) :
    List FileEntry → List Result → List Str → Prop
  | nil : Sections W f config dbs [] [] []
  | failed {x xs rs ps} : x.err = true → Sections W f config dbs xs rs ps → Sections W f config dbs (x :: xs) rs ([] :: ps)
  | file {x xs r rs p ps} : x.err = false → IsSection W f (config x) (dbs (config x)) x r p →
      Sections W f config dbs xs rs ps → Sections W f config dbs (x :: xs) (r :: rs) (p :: ps)

/-- The line about an updated config. -/
def updateLine (paint : Color → Str → Str) : Event → Option Str
  | .text .stdout (.updated p n) => some (g!"Updated " ++ paint .magenta p ++ g!" with " ++ showNat n ++
      noun n g!" vulnerability\n" g!" vulnerabilities\n")
  | _ => none

/-- The lines about updated configs. -/
def updateLines (paint : Color → Str → Str) (es : List Event) : List Str := es.filterMap (updateLine paint)

end Osv.Spec
