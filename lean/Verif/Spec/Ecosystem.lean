import Verif.Go.Str
/-! # Specification of ecosystem strings and PEP 503 names -/
namespace Osv.Spec
open Osv

/-- The part of an ecosystem before the first `:`. -/
def ecoBase (e : Str) : Str := e.takeWhile (· != ':')
/-- The part of an ecosystem after the first `:` (empty if there is none). -/
def ecoSuffix (e : Str) : Str := (e.dropWhile (· != ':')).drop 1

/-- Two ecosystems match: same base, and same suffix unless one of them has none. -/
def EcoMatch (a b : Str) : Prop :=
  ecoBase a = ecoBase b ∧ (ecoSuffix a ≠ [] → ecoSuffix b ≠ [] → ecoSuffix a = ecoSuffix b)

instance (a b : Str) : Decidable (EcoMatch a b) := by unfold EcoMatch; infer_instance

/-- The separators of PEP 503. -/
def isNameSep (c : Char) : Bool := c == '-' || c == '_' || c == '.'

/-- PEP 503 normalisation: every maximal run of separators becomes one `-` (written at its last
separator), everything else is lower-cased. -/
def pep503 : Str → Str
  | [] => []
  | [c] => if isNameSep c then ['-'] else [c.toLower]
  | c :: d :: s =>
    if isNameSep c then
      if isNameSep d then pep503 (d :: s) else '-' :: pep503 (d :: s)
    else c.toLower :: pep503 (d :: s)

/-- Two names are the same PyPI project (PEP 503): equal up to letter case and up to the length and kind of
non-empty separator runs. -/
inductive SamePyPI : Str → Str → Prop
  | nil : SamePyPI [] []
  | char {c d s t} : isNameSep c = false → isNameSep d = false → c.toLower = d.toLower → SamePyPI s t →
      SamePyPI (c :: s) (d :: t)
  | run {x y s t} : x ≠ [] → y ≠ [] → x.all isNameSep = true → y.all isNameSep = true →
      (∀ c ∈ s.head?, isNameSep c = false) → (∀ c ∈ t.head?, isNameSep c = false) → SamePyPI s t →
      SamePyPI (x ++ s) (y ++ t)

end Osv.Spec
