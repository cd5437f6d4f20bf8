import Verif.Model.MemDB
import Verif.Go.Path
import Verif.Go.Regex
import Verif.Go.Scanner
/-!
# requirements.txt (`pkg/lockfile/parse-requirements-txt.go`)
-/
namespace Osv
open Str

/-- `pkg/lockfile/parse-requirements-txt.go:68-75` `normalizedRequirementName`. -/
def normalizedRequirementName (name : Str) : Str :=
  (cut (toLower (reNameSeparators.replaceAll g!"-" name)) g!"[").1

/-- `pkg/lockfile/parse-requirements-txt.go:24-38`: the constraint operator of a line, empty if there is none. -/
def reqConstraint (line : Str) : Str :=
  let c : Str := []
  let c := if contains line g!"==" then g!"==" else c
  let c := if contains line g!">=" then g!">=" else c
  let c := if contains line g!"~=" then g!"~=" else c
  if contains line g!"!=" then g!"!=" else c

/-- `pkg/lockfile/parse-requirements-txt.go:18-55` `parseLine`. -/
def parseRequirement (line : Str) : PackageDetails :=
  let constraint := reqConstraint line
  let name := if constraint ≠ [] then trimSpace (cut line constraint).1 else line
  let version :=
    if constraint ≠ [] then
      if constraint ≠ g!"!=" then (cut (trimSpace (cut line constraint).2) g!" ").1 else g!"0.0.0"
    else g!"0.0.0"
  { name := normalizedRequirementName name, version := version, ecosystem := pipEcosystem, compareAs := pipEcosystem }

/-- The expression `(^|\s+)#.*$` of `pkg/lockfile/parse-requirements-txt.go:78`. -/
def reComment : Re := .cat [.cap 1 (.alt .bot (.plus (.cls isReSpace))), .ch '#', .star true .any, .eot]

/-- `pkg/lockfile/parse-requirements-txt.go:77-81` `removeComments`. -/
def removeComments (line : Str) : Str := trimSpace (reComment.replaceAll [] line)

/-- `pkg/lockfile/parse-requirements-txt.go:83-93` `isNotRequirementLine`. -/
def isNotRequirementLine (line : Str) : Bool :=
  line.isEmpty || hasPrefix line g!"-" || hasPrefix line g!"https://" || hasPrefix line g!"http://" ||
  hasPrefix line g!"." || hasPrefix line g!"/"

/-- The expression `([^\\]|^)(\\{2})*\\$` of `pkg/lockfile/parse-requirements-txt.go:98`. -/
def reContinuation : Re :=
  .cat [.cap 1 (.alt (.cls (· != '\\')) .bot), .star true (.cap 2 (.seq (.ch '\\') (.ch '\\'))), .ch '\\', .eot]

/-- `pkg/lockfile/parse-requirements-txt.go:95-101` `isLineContinuation`. -/
def isLineContinuation (line : Str) : Bool := reContinuation.isMatch line

/-- `pkg/lockfile/parse-requirements-txt.go:121-127` once the scanner has no more lines: the loop keeps removing a
backslash. `fuel` bounds the number of rounds; `C43_end_of_file` shows that the loop has ended by itself before. -/
def continueAtEnd : Nat → Str → Str
  | 0, line => line
  | fuel + 1, line => if isLineContinuation line then continueAtEnd fuel (trimSuffix line g!"\\") else line

/-- `pkg/lockfile/parse-requirements-txt.go:118-127`: the lines after joining, beginning with a line that has been read. -/
def joinLinesFrom (line : Str) : List Str → List Str
  | [] => [continueAtEnd (line.length + 1) line]
  | next :: rest =>
    if isLineContinuation line then joinLinesFrom (trimSuffix line g!"\\" ++ next) rest
    else line :: joinLinesFrom next rest

/-- `pkg/lockfile/parse-requirements-txt.go:118-127`: all lines of a file after joining. -/
def joinLines : List Str → List Str
  | [] => []
  | l :: ls => joinLinesFrom l ls

/-- The key `detail.Name+"@"+detail.Version` of several parsers. -/
def detailKey (d : PackageDetails) : Str := d.name ++ g!"@" ++ d.version

/-- `packages[detail.Name+"@"+detail.Version] = detail`. -/
def addDetail (m : SMap PackageDetails) (d : PackageDetails) : SMap PackageDetails := m.set (detailKey d) d

/-- What a call of `parseRequirementsTxt` leaves: its packages (`none` for an error) and the files required so far. -/
abbrev ReqResult := Option (List PackageDetails) × List Str

/-- `pkg/lockfile/parse-requirements-txt.go:118-159`: the loop over the lines. `incl` is the recursive call; it is `none`
if that call does not return (see `parseRequirementsAt`), and then neither does the loop. The result carries the map. -/
def reqLoop (incl : Str → List Str → Option ReqResult) (path : Str) :
    List Str → SMap PackageDetails → List Str → Option (Option (SMap PackageDetails) × List Str)
  | [], packages, required => some (some packages, required)
  | raw :: rest, packages, required =>
    let line := removeComments raw
    let r := cutPrefix line g!"-r "
    if r.2 then
      let ar := Path.join2 (Path.dir path) r.1
      if required.contains ar then reqLoop incl path rest packages required
      else match incl ar (ar :: required) with
        | none => none
        | some (none, required') => some (none, required')
        | some (some details, required') => reqLoop incl path rest (details.foldl addDetail packages) required'
    else if isNotRequirementLine line then reqLoop incl path rest packages required
    else reqLoop incl path rest (addDetail packages (parseRequirement line)) required

/-- `pkg/lockfile/parse-requirements-txt.go:107-166` `parseRequirementsTxt`, with at most `depth` nested calls: `none`
if that is not enough. `fs` gives the content of the readable files. `order` is the order in which Go iterates over the
map of a call, which may differ from call to call. -/
def parseRequirementsAt (fs : Str → Option Str) (order : Str → List Str → List PackageDetails → List PackageDetails) :
    Nat → Str → List Str → Option ReqResult
  | 0, _, _ => none
  | depth + 1, path, required =>
    match fs path with
    | none => some (none, required)
    | some content =>
      let res := Scanner.scan content
      match reqLoop (parseRequirementsAt fs order depth) path (joinLines res.1) [] required with
      | none => none
      | some (none, required') => some (none, required')
      | some (some packages, required') =>
        if res.2 then some (none, required')
        else some (some (order path required (packages.map (·.2))), required')

/-- `pkg/lockfile/parse-requirements-txt.go:103-105` `ParseRequirementsTxt`, with bounded depth. -/
def parseRequirementsTxt (fs : Str → Option Str) (order : Str → List Str → List PackageDetails → List PackageDetails)
    (depth : Nat) (path : Str) : Option (Option (List PackageDetails)) :=
  (parseRequirementsAt fs order depth path []).map (·.1)

example : parseRequirement g!"Foo_Bar[x,y] == 1.2 # c" = ⟨g!"foo-bar", g!"1.2", [], g!"PyPI", g!"PyPI"⟩ := by
  decide +kernel
example : parseRequirement g!"foo != 1.2" = ⟨g!"foo", g!"0.0.0", [], g!"PyPI", g!"PyPI"⟩ := by decide +kernel
example : removeComments g!"foo==1#2 # c" = g!"foo==1#2" := by decide +kernel
example : joinLines [g!"foo\\", g!"==1\\\\", g!"bar\\"] = [g!"foo==1\\\\", g!"bar"] := by decide +kernel
example : parseRequirementsTxt
    (fun p => if p = g!"a/r.txt" then some g!"-r b.txt\nfoo==1\n" else if p = g!"a/b.txt" then some g!"-r r.txt\nbar\n" else none)
    (fun _ _ l => l) 5 g!"a/r.txt" =
    some (some [⟨g!"foo", g!"1", [], g!"PyPI", g!"PyPI"⟩, ⟨g!"bar", g!"0.0.0", [], g!"PyPI", g!"PyPI"⟩]) := by
  decide +kernel

end Osv
