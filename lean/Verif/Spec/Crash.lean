import Verif.Spec.Discovery
import Verif.Lemmas.Run
/-!
# What can crash the command

Without saying when: the steps of a run in which something panics.
-/
namespace Osv.Spec

/-- A database is loaded for the run and used for the file: its identifier is that of a database of the config of the file. -/
def UsedFor (S : Sorter) (env : Env) (f : Flags) (x : FileEntry) (c : DBConfig) (db : DB) : Prop :=
  c ∈ neededConfigs env f (readOf S env f) ∧
  (env.load c f.offline f.batchSize (allPackageNames env (readOf S env f).files)).1 = some db ∧
  ∃ d ∈ ((adjustExtraDatabases env f (readOf S env f).files (readOf S env f).cells).getD x.config {}).databases,
    d.identifier = db.identifier

/-- A discovered file is parsed: it is not CSV, its parser exists, and its config can be read. -/
def IsParsed (env : Env) (f : Flags) (want q : Str) : Prop :=
  f.parseAs ≠ csvRowName ∧ Discovers env f.parseAs f.args want q ∧ want ≠ csvRowName ∧ want ≠ csvFileName ∧
  parserOf want q ∈ parserNames ∧ (LocalConfigs f → ∃ c, findConfig env.validURL env.config (Path.dir q) = .ok c)

/-- A step of the run panics. -/
inductive Panics (S : Sorter) (env : Env) (f : Flags) : Prop where
  /-- the parser of a file that is parsed -/
  | parser (want q : Str) (parsed : IsParsed env f want q) (panics : env.parsePanics (parserOf want q) q = true)
  /-- loading a database that some lockfile needs -/
  | load (c : DBConfig) (list : f.listPackages = false) (needed : c ∈ neededConfigs env f (readOf S env f))
      (panics : env.loadPanics c f.offline f.batchSize (allPackageNames env (readOf S env f).files) = true)
  /-- checking the packages of a lockfile -/
  | check (i : Nat) (x : FileEntry) (c : DBConfig) (db : DB) (list : f.listPackages = false)
      (file : (readOf S env f).files[i]? = some x) (ok : x.err = false) (used : UsedFor S env f x c db)
      (panics : db.panics i x.lockf.packages = true)
  /-- merging an answer that has too few results -/
  | merge (i : Nat) (x : FileEntry) (c : DBConfig) (db : DB) (list : f.listPackages = false)
      (file : (readOf S env f).files[i]? = some x) (ok : x.err = false) (used : UsedFor S env f x c db)
      (answer : List (List OSV)) (answers : (db.check i x.lockf.packages).1 = .ok answer)
      (short : answer.length < x.lockf.packages.length)

end Osv.Spec
