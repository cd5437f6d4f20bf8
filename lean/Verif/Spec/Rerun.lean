import Verif.Spec.Crash
/-!
# Running the command again

Two runs of one program on the same files, with the same flags and with the same answers from outside. What may differ is what Go
leaves open: the order in which maps are iterated.
-/
namespace Osv.Spec

/-- The lists have the same elements. -/
def SameMembers (a b : List Str) : Prop := ∀ n, n ∈ a ↔ n ∈ b

/-- What a second run sees, `env'`, compared to the first, `env`. -/
structure Rerun (env env' : Env) (f : Flags) : Prop where
  path : env'.path = env.path
  config : env'.config = env.config
  validURL : env'.validURL = env.validURL
  csvFile : env'.csvFile = env.csvFile
  csvRows : env'.csvRows = env.csvRows
  update : env'.update = env.update
  /-- iterating over a map gives every key once, in some order -/
  iter : ∀ l, (env.iter l).Perm l
  iter' : ∀ l, (env'.iter l).Perm l
  /-- a parser returns the same packages, in some order, and ends the same way -/
  parse : ∀ want q, IsParsed env f want q →
    (env'.parse (parserOf want q) q).1.Perm (env.parse (parserOf want q) q).1 ∧
    (env'.parse (parserOf want q) q).2 = (env.parse (parserOf want q) q).2 ∧
    env'.parsePanics (parserOf want q) q = env.parsePanics (parserOf want q) q
  /-- loading looks at the package names as a set -/
  load : ∀ c names names', SameMembers names names' →
    env'.load c f.offline f.batchSize names' = env.load c f.offline f.batchSize names ∧
    env'.loadPanics c f.offline f.batchSize names' = env.loadPanics c f.offline f.batchSize names

/-- Packages of a list that agree in name and version are the same. -/
def NoTies (ps : List PackageDetails) : Prop := ∀ a ∈ ps, ∀ b ∈ ps, a.name = b.name → a.version = b.version → a = b

instance (ps : List PackageDetails) : Decidable (NoTies ps) := by unfold NoTies; infer_instance

end Osv.Spec
