import Verif.Model.Load
/-!
# What loading a database should read
-/
namespace Osv.Spec

/-- `name` is a path below the directory `wd` (the root of the archive if `wd` is empty). -/
def Inside (wd name : Str) : Prop :=
  wd = [] ∨ ∃ rest, name = Str.trimSuffix wd g!"/" ++ g!"/" ++ rest

/-- `name` ends in `.json`. -/
def JsonName (name : Str) : Prop := ∃ stem, name = stem ++ g!".json"

mutual
/-- All files below a path in walk order, with their name and content (`none`: unreadable). Directories that
cannot be listed and entries that have vanished have no files. -/
def files (name : Str) : FNode → List (Str × Option Str)
  | .gone => []
  | .file content => [(name, content)]
  | .locked => []
  | .dir entries => filesIn entries
def filesIn : FList → List (Str × Option Str)
  | .nil => []
  | .cons name node rest => files name node ++ filesIn rest
end

mutual
/-- Some entry met by the walk has vanished (`Lstat` fails). -/
def Vanished : FNode → Prop
  | .gone => True
  | .file _ => False
  | .locked => False
  | .dir entries => VanishedIn entries
def VanishedIn : FList → Prop
  | .nil => False
  | .cons _ node rest => Vanished node ∨ VanishedIn rest
end

mutual
/-- Something below a path cannot be read: a directory that cannot be listed, or an entry that is called `.json` and is a
directory, cannot be opened or is no advisory. -/
def Unread (decode : Str → Option OSV) (name : Str) : FNode → Prop
  | .gone => False
  | .file content => JsonName name ∧ ∀ c o, content = some c → decode c ≠ some o
  | .locked => True
  | .dir entries => JsonName name ∨ UnreadIn decode entries
def UnreadIn (decode : Str → Option OSV) : FList → Prop
  | .nil => False
  | .cons name node rest => Unread decode name node ∨ UnreadIn decode rest
end

end Osv.Spec
