import Verif.Spec.Discovery
import Verif.Spec.Ignores
import Verif.Spec.Pip
import Verif.Spec.Pnpm
/-!
# Which file a path stands for

How an operating system follows a path, element by element, and how a disk is seen by the program.
-/
namespace Osv.Spec
open Osv

/-- Files and directories. Links are followed already: `child d name` is what an entry finally stands for, and the parent of a
directory that is reached through a link is not the directory with the link. -/
structure Disk (α : Type) where
  root : α
  isDir : α → Prop
  /-- what `..` stands for in a directory -/
  up : α → α
  child : α → Str → Option α

/-- There are no links to directories. -/
structure Tree {α : Type} (D : Disk α) : Prop where
  root_dir : D.isDir D.root
  root_up : D.up D.root = D.root
  up_dir : ∀ d, D.isDir d → D.isDir (D.up d)
  child_up : ∀ d name k, D.isDir d → D.child d name = some k → D.isDir k → D.up k = d

/-- A name that stands for an entry of a directory. -/
def EntryName (name : Str) : Prop := name ≠ [] ∧ name ≠ g!"." ∧ name ≠ g!".."

/-- Following the elements of a path. Every element is looked up in a directory. -/
inductive Walk {α : Type} (D : Disk α) : α → List Str → α → Prop
  | done (n : α) : Walk D n [] n
  | stay {n m : α} {name : Str} {ps : List Str} : D.isDir n → name = [] ∨ name = g!"." → Walk D n ps m → Walk D n (name :: ps) m
  | up {n m : α} {ps : List Str} : D.isDir n → Walk D (D.up n) ps m → Walk D n (g!".." :: ps) m
  | down {n k m : α} {name : Str} {ps : List Str} : D.isDir n → EntryName name → D.child n name = some k → Walk D k ps m →
      Walk D n (name :: ps) m

/-- Where a path starts. -/
def start {α : Type} (D : Disk α) (cwd : α) (p : Str) : α := if p.head? = some '/' then D.root else cwd

/-- In the directory `cwd`, the path `p` stands for `n`. -/
def Opens {α : Type} (D : Disk α) (cwd : α) (p : Str) (n : α) : Prop :=
  p ≠ [] ∧ ∃ ps, Segments p ps ∧ Walk D (start D cwd p) ps n

/-- In the directory `cwd`, the path `p` stands for the entry `name` of the directory `d`, which is `n`. -/
def Leads {α : Type} (D : Disk α) (cwd : α) (p : Str) (d : α) (name : Str) (n : α) : Prop :=
  ∃ ps, Segments p (ps ++ [name]) ∧ EntryName name ∧ Walk D (start D cwd p) ps d ∧ D.isDir d ∧ D.child d name = some n

/-- A path that is followed from the current directory. -/
def Relative (p : Str) : Prop := ∀ q, p ≠ '/' :: q

/-- What the program sees of a disk, with the configs that are in its files. -/
structure Sees {α : Type} (D : Disk α) (cwd : α) (conf : α → ConfigFile) (env : Env) : Prop where
  file : ∀ p, env.path p = .file → ∃ n, Opens D cwd p n ∧ ¬ D.isDir n
  dir : ∀ p entries, env.path p = .dir entries → ∃ d, Opens D cwd p d ∧ D.isDir d ∧
    ∀ name, (name, false) ∈ entries → EntryName name ∧ '/' ∉ name ∧ ∃ n, D.child d name = some n
  config : ∀ p n, Opens D cwd p n → env.config p = conf n
  missing : ∀ p, (∀ n, ¬ Opens D cwd p n) → env.config p = .missing

/-- The config in a directory. -/
def ConfigIn {α : Type} (D : Disk α) (conf : α → ConfigFile) (d : α) (raw : RawConfig) : Prop :=
  (∃ k, D.child d g!".osv-detector.yml" = some k ∧ conf k = .ok raw) ∨
  ((∀ k, D.child d g!".osv-detector.yml" = some k → conf k = .missing) ∧
    ∃ k, D.child d g!".osv-detector.yaml" = some k ∧ conf k = .ok raw)

/-- `t` is a line of the file `n` after joining and removing comments. -/
def LineOf {α : Type} (content : α → Option Str) (n : α) (t : Str) : Prop :=
  ∃ text js j, content n = some text ∧ Joined (Scanner.scan text).1 js ∧ j ∈ js ∧ Uncommented j t

/-- The requirements file `n` in the directory `d` includes the file `n'` in the directory `d'`. -/
def FileIncludes {α : Type} (D : Disk α) (content : α → Option Str) (d n : α) (path : Str) (d' n' : α) : Prop :=
  LineOf content n (g!"-r " ++ path) ∧ ∃ name, Leads D d path d' name n'

/-- The requirements files that are included directly or indirectly, with their directories. `ok` restricts how they are named. -/
inductive FilesReach {α : Type} (D : Disk α) (content : α → Option Str) (ok : Str → Prop) (d0 n0 : α) : α → α → Prop
  | root : FilesReach D content ok d0 n0 d0 n0
  | step {d n d' n' : α} {path : Str} : FilesReach D content ok d0 n0 d n → ok path → FileIncludes D content d n path d' n' →
      FilesReach D content ok d0 n0 d' n'

end Osv.Spec
