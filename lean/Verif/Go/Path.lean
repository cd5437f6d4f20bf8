import Verif.Go.Str
/-!
# `path` and `path/filepath` (Unix)
-/
namespace Osv.Path
open Osv Str

/-- Component loop of `path.Clean`; `acc` is the stack of kept components, innermost first. -/
def cleanComps (rooted : Bool) (acc : List Str) : List Str → List Str
  | [] => acc.reverse
  | c :: cs =>
    if c = [] ∨ c = g!"." then cleanComps rooted acc cs
    else if c = g!".." then
      match acc with
      | [] => if rooted then cleanComps rooted [] cs else cleanComps rooted [g!".."] cs
      | a :: as => if a = g!".." then cleanComps rooted (g!".." :: a :: as) cs
                   else cleanComps rooted as cs
    else cleanComps rooted (c :: acc) cs

/-- `path.Clean` / `filepath.Clean`. -/
def clean (p : Str) : Str :=
  if p = [] then g!"."
  else if p.head? = some '/' then '/' :: join g!"/" (cleanComps true [] (splitChar '/' p))
  else
    let body := join g!"/" (cleanComps false [] (splitChar '/' p))
    if body = [] then g!"." else body

/-- `path.Base` / `filepath.Base`. -/
def base (p : Str) : Str :=
  if p = [] then g!"."
  else
    let q := dropRight (· == '/') p
    if q = [] then g!"/" else (splitChar '/' q).getLast?.getD []

/-- `path.Dir` / `filepath.Dir`: clean the part up to and including the last slash. -/
def dir (p : Str) : Str :=
  match cutLast? '/' p with
  | none => clean []
  | some (d, _) => clean (d ++ g!"/")

/-- `filepath.Join(a, b)`. -/
def join2 (a b : Str) : Str :=
  if a ≠ [] then clean (a ++ g!"/" ++ b)
  else if b ≠ [] then clean b
  else []

example : clean g!"./a//b/../c/" = g!"a/c" := by decide
example : clean g!"/../a" = g!"/a" := by decide
example : clean g!"../../x/.." = g!"../.." := by decide
example : base g!"node_modules/@babel/core" = g!"core" := by decide
example : dir g!"node_modules/@babel/core" = g!"node_modules/@babel" := by decide
example : dir g!"core" = g!"." := by decide
example : join2 g!"testdata/pip" g!"./../pip/x.txt" = g!"testdata/pip/x.txt" := by decide

end Osv.Path
