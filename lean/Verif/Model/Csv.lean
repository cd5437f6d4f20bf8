import Verif.Model.Report
import Verif.Go.SortStr
/-!
# CSV input and sorting (`pkg/lockfile/csv.go`, `pkg/lockfile/parse.go`)

Splitting text into CSV records (`encoding/csv`) is outside this file: the reader yields records and then
either ends or fails.
-/
namespace Osv
open Str

/-- `pkg/lockfile/csv.go:13-15`. -/
inductive CsvErr where
  | notEnoughFields
  | missingPackage
  | missingCommit
deriving DecidableEq, Repr

/-- `pkg/lockfile/csv.go:17-52` `fromCSVRecord`. -/
def fromCSVRecord (fields : List Str) : Except CsvErr PackageDetails :=
  match fields with
  | ecosystem :: compareAs :: name :: version :: _ =>
    let compareAs := if compareAs = [] then ecosystem else compareAs
    if ecosystem = [] then
      if version = [] then .error .missingCommit
      else if name = [] then .error .missingPackage
      else .ok { name := name, version := [], commit := version, ecosystem := ecosystem, compareAs := compareAs }
    else if name = [] then .error .missingPackage
    else .ok { name := name, version := version, commit := [], ecosystem := ecosystem, compareAs := compareAs }
  | _ => .error .notEnoughFields

/-- `pkg/lockfile/csv.go:78-84` and `pkg/lockfile/parse.go:137-143`: order of packages. -/
def pkgLess (a b : PackageDetails) : Bool :=
  if a.name = b.name then Str.lt a.version b.version else Str.lt a.name b.name

/-- Errors of `fromCSV`. -/
inductive CsvFail where
  | reader
  | row (i : Nat) (e : CsvErr)
deriving DecidableEq, Repr

/-- `pkg/lockfile/csv.go:60-76`: the loop, starting before row `i + 1` with the packages read so far.
`ok = false`: the reader fails after the given records. -/
def csvLoop (i : Nat) (acc : List PackageDetails) (ok : Bool) : List (List Str) → List PackageDetails × Option CsvFail
  | [] => (acc, if ok then none else some .reader)
  | record :: rest => match fromCSVRecord record with
    | .error e => (acc, some (.row (i + 1) e))
    | .ok d => csvLoop (i + 1) (acc ++ [d]) ok rest

/-- `pkg/lockfile/csv.go:54-87` `fromCSV`: packages and error. -/
def fromCSV (S : Sorter) (records : List (List Str)) (ok : Bool) : List PackageDetails × Option CsvFail :=
  match csvLoop 0 [] ok records with
  | (ps, some e) => (ps, some e)
  | (ps, none) => (S.sort pkgLess ps, none)

/-- Remove later duplicates. -/
def dedupStr : List Str → List Str
  | [] => []
  | x :: xs => x :: (dedupStr xs).filter (fun y => decide (y ≠ x))

/-- `pkg/lockfile/parse.go:77-89` `Ecosystems` with `pkg/lockfile/parse.go:63-75` `toSliceOfEcosystems`: `iter` is the order in which the
map is iterated. -/
def ecosystemsOf (iter : List Str → List Str) (ps : List PackageDetails) : List Ecosystem :=
  sortStr ((iter (dedupStr (ps.map (·.ecosystem)))).filter fun e => decide (e ≠ []))

/-- `pkg/lockfile/parse.go:21-43`: the names of the parsers. -/
def parserNames : List Str :=
  [g!"bun.lock", g!"Cargo.lock", g!"composer.lock", g!"Gemfile.lock", g!"go.mod", g!"mix.lock",
   g!"package-lock.json", g!"packages.lock.json", g!"pdm.lock", g!"pnpm-lock.yaml", g!"poetry.lock",
   g!"pylock.toml", g!"Pipfile.lock", g!"pom.xml", g!"pubspec.lock", g!"renv.lock", g!"requirements.txt",
   g!"yarn.lock", g!"uv.lock", g!"gradle.lockfile", g!"buildscript-gradle.lockfile"]

end Osv
