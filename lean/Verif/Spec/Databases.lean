import Verif.Model.Main
import Verif.Spec.Vulns
/-! # Which databases a lockfile is checked with -/
namespace Osv.Spec

/-- The configs without those whose identifier occurred before. -/
def firsts : List DBConfig → List DBConfig
  | [] => []
  | c :: cs => c :: (firsts cs).filter fun d => decide (d.identifier ≠ c.identifier)

/-- Loading a database keeps its identifier (C17). -/
def KeepsIdentifier (env : Env) : Prop :=
  ∀ c off n names db, (env.load c off n names).1 = some db → db.identifier = c.identifier

/-- The database config `c` must be used for a lockfile with these packages and this list of databases in its config. -/
def Required (f : Flags) (own : List DBConfig) (packages : List PackageDetails) (c : DBConfig) : Prop :=
  (f.noConfigDatabases = false ∧ c ∈ own) ∨ (f.useAPI = true ∧ c = apiDBConfig) ∨
    (f.useDatabases = true ∧ ∃ p ∈ packages, p.ecosystem ≠ [] ∧ c = ecosystemDBConfig p.ecosystem)

/-- The report accounts for everything in the answer of a database: for each package, each vulnerability or one
sharing an ID or alias is listed as known or ignored. -/
def Covers (rep : Report) (answer : List (List OSV)) : Prop :=
  ∀ k vs v, answer[k]? = some vs → v ∈ vs → k < rep.lockfile.packages.length →
    ∃ p, rep.packages[k]? = some p ∧ ∃ o ∈ p.vulnerabilities ++ p.ignored, Related o v

end Osv.Spec
