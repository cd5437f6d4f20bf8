import Verif.Spec.Text
import Verif.Spec.Ecosystem
import Verif.Model.Osv
import Verif.Go.Path
import Verif.Go.Scanner
/-! # Specification of requirements.txt lines -/
namespace Osv.Spec
open Osv Str

/-- The line ends in an odd number of backslashes. -/
def OddBackslashes (l : Str) : Prop :=
  ∃ t n, l = t ++ List.replicate (2 * n + 1) '\\' ∧ ∀ u, t ≠ u ++ ['\\']

/-- Lines after joining: a line ending in an odd number of backslashes loses the last one and is continued by the next
line, if there is one. -/
inductive Joined : List Str → List Str → Prop
  | nil : Joined [] []
  | plain {l ls js} : ¬ OddBackslashes l → Joined ls js → Joined (l :: ls) (l :: js)
  | join {l next ls js} : OddBackslashes (l ++ ['\\']) → Joined ((l ++ next) :: ls) js →
      Joined ((l ++ ['\\']) :: next :: ls) js
  | last {l} : OddBackslashes (l ++ ['\\']) → Joined [l ++ ['\\']] [l]

/-- A `#` at the start of the line or after white space; `pre` is the text before it. -/
def CommentAt (l pre : Str) : Prop :=
  ∃ post, l = pre ++ '#' :: post ∧ (pre = [] ∨ ∃ u c, pre = u ++ [c] ∧ isReSpace c = true)

/-- `t` is the line up to the first comment, without white space around it. -/
def Uncommented (l t : Str) : Prop :=
  ((∀ p, ¬ CommentAt l p) ∧ Trimmed l t) ∨
  ∃ p, CommentAt l p ∧ (∀ q, CommentAt l q → p.length ≤ q.length) ∧ Trimmed p t

/-- The word occurs in the text. -/
def Occurs (w s : Str) : Prop := ∃ a b, s = a ++ w ++ b

/-- First occurrence of a word: what is before and after it. -/
def FirstAt (w s a b : Str) : Prop := s = a ++ w ++ b ∧ ∀ a' b', s = a' ++ w ++ b' → a.length ≤ a'.length

/-- The operator a line is split at. -/
inductive ReqOp (line : Str) : Str → Prop
  | ne : Occurs g!"!=" line → ReqOp line g!"!="
  | compatible : ¬ Occurs g!"!=" line → Occurs g!"~=" line → ReqOp line g!"~="
  | ge : ¬ Occurs g!"!=" line → ¬ Occurs g!"~=" line → Occurs g!">=" line → ReqOp line g!">="
  | eq : ¬ Occurs g!"!=" line → ¬ Occurs g!"~=" line → ¬ Occurs g!">=" line → Occurs g!"==" line → ReqOp line g!"=="

/-- A PyPI package of a requirements.txt. -/
def pypi (name version : Str) : PackageDetails := ⟨name, version, [], g!"PyPI", g!"PyPI"⟩

/-- The package of a requirement line. -/
inductive ReqEntry (line : Str) : PackageDetails → Prop
  | bare {base} : (∀ op, ¬ ReqOp line op) → Before '[' line base → ReqEntry line (pypi (pep503 base) g!"0.0.0")
  | excluded {a b n base} : ReqOp line g!"!=" → FirstAt g!"!=" line a b → Trimmed a n → Before '[' n base →
      ReqEntry line (pypi (pep503 base) g!"0.0.0")
  | pinned {op a b n base w v} : ReqOp line op → op ≠ g!"!=" → FirstAt op line a b → Trimmed a n → Before '[' n base →
      Trimmed b w → Before ' ' w v → ReqEntry line (pypi (pep503 base) v)

/-- A line that names a package: not empty, no option, no URL and no path. -/
def RequirementLine (t : Str) : Prop :=
  t ≠ [] ∧ (∀ u, t ≠ '-' :: u) ∧ (∀ u, t ≠ '.' :: u) ∧ (∀ u, t ≠ '/' :: u) ∧
  (∀ u, t ≠ g!"https://" ++ u) ∧ ∀ u, t ≠ g!"http://" ++ u

/-- `t` is a line of the file after joining and removing comments. -/
def FileLine (fs : Str → Option Str) (p t : Str) : Prop :=
  ∃ content js j, fs p = some content ∧ Joined (Scanner.scan content).1 js ∧ j ∈ js ∧ Uncommented j t

/-- The file names the package. -/
def Requires (fs : Str → Option Str) (p : Str) (d : PackageDetails) : Prop :=
  ∃ t, FileLine fs p t ∧ RequirementLine t ∧ ReqEntry t d

/-- The file includes another one, given relative to its directory. -/
def Includes (fs : Str → Option Str) (p q : Str) : Prop :=
  ∃ ar, FileLine fs p (g!"-r " ++ ar) ∧ q = Path.join2 (Path.dir p) ar

/-- Files included directly or indirectly. -/
inductive IncludeReach (fs : Str → Option Str) (root : Str) : Str → Prop
  | root : IncludeReach fs root root
  | step {p q} : IncludeReach fs root p → Includes fs p q → IncludeReach fs root q

/-- The file exists and none of its lines is too long for the scanner. -/
def ReadableText (fs : Str → Option Str) (p : Str) : Prop :=
  ∃ content, fs p = some content ∧ (Scanner.scan content).2 = false

end Osv.Spec
