import Verif.Spec.Precedence
/-!
# Order of the versions of R packages

`package_version` of R: numbers with dots or dashes between them, compared one by one; where there is no difference the longer one is the
newer one.
-/
namespace Osv.Spec.CranVersion
open Osv Osv.Spec.Precedence

/-- The text of a version and its numbers. -/
inductive Written : Str → List Nat → Prop
  | one {d : Str} {n : Nat} : Decimal d n → Written d [n]
  | sep {d r : Str} {c : Char} {n : Nat} {ns : List Nat} : Decimal d n → (c = '.' ∨ c = '-') → Written r ns → Written (d ++ c :: r) (n :: ns)

def Precedes (v w : List Nat) : Prop := Before (· < ·) v w

def Good (s : Str) : Prop := ∃ v, Written s v

/-- The version that `s` is the text of is older than that of `t`. -/
def Older (s t : Str) : Prop := ∃ v w, Written s v ∧ Written t w ∧ Precedes v w

end Osv.Spec.CranVersion
