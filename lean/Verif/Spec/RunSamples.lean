import Verif.Spec.Run
/-! Sample environments used by the satisfiability examples and the counterexamples. -/
namespace Osv.Spec

/-- A package of an ecosystem. -/
def samplePkg (name eco : Str) : PackageDetails :=
  { name := name, version := g!"1", ecosystem := eco, compareAs := eco }

def sampleA : OSV := { id := g!"A" }
def sampleB : OSV := { id := g!"B", aliases := [g!"A"] }
def sampleC : OSV := { id := g!"C" }

/-- A database that finds the given advisories for every package. -/
def sampleDB (c : DBConfig) (vs : List OSV) : DB :=
  { name := c.name, identifier := c.identifier, info := .dir vs.length, check := fun _ ps => (.ok (ps.map fun _ => vs), false) }

/-- Directory `d` holds `go.mod` and `yarn.lock` and a subdirectory; `go.mod` and `yarn.lock` are files; `e` is a
directory that cannot be listed.  `d` has a config that ignores `A`.  The Go database finds `A`, the npm database
finds `C`. -/
def sampleEnv : Env where
  path p :=
    if p = g!"d" then .dir [(g!"yarn.lock", false), (g!"x", true), (g!"go.mod", false)]
    else if p = g!"go.mod" then .file
    else if p = g!"yarn.lock" then .file
    else if p = g!"e" then .cannotList
    else .cannotOpen
  config p := if p = g!"d/.osv-detector.yml" then .ok { ignore := [g!"A"] } else .missing
  validURL _ := true
  parse name _ := if name = g!"go.mod" then ([samplePkg g!"m" g!"Go"], false) else ([samplePkg g!"n" g!"npm"], false)
  csvFile _ := none
  csvRows _ := ([], true)
  load c _ _ _ :=
    if c.name = g!"Go" then (some (sampleDB c [sampleA]), false) else (some (sampleDB c [sampleC]), false)
  update _ := .complete
  iter l := l

/-- Plain arguments. -/
def sampleFlags (args : List Str) : Flags := { args := args }

end Osv.Spec
