import Verif.Spec.Precedence
import Verif.Spec.Pep440
/-!
# Order of NuGet versions

<https://learn.microsoft.com/nuget/concepts/package-versioning>: semantic versions with one to four numbers, where missing numbers are
zeros and the case of the letters does not matter.
-/
namespace Osv.Spec.NuGetOrder
open Osv Osv.Spec.Precedence

/-- A version without its build metadata, the identifiers of the pre-release in lower case. -/
structure Version where
  numbers : List Nat
  pre : List Str
deriving DecidableEq, Repr

/-- The text of a version, which may start with a `v`. -/
inductive Written : Str → Version → Prop
  | plain {s t : Str} {ns : List Nat} {pre : List Str} : NumbersText s ns → ns.length ≤ 4 → Ending (t.map Char.toLower) pre →
      Written (s ++ t) ⟨ns, pre⟩
  | v {s t : Str} {ns : List Nat} {pre : List Str} : NumbersText s ns → ns.length ≤ 4 → Ending (t.map Char.toLower) pre →
      Written ('v' :: (s ++ t)) ⟨ns, pre⟩

/-- `v` is older than `w`: by the first number that differs, then a pre-release before its release, then by the identifiers. -/
inductive Precedes : Version → Version → Prop
  | numbers {v w : Version} : Pep440.ReleaseBefore v.numbers w.numbers → Precedes v w
  | release {v w : Version} : Pep440.SameRelease v.numbers w.numbers → v.pre ≠ [] → w.pre = [] → Precedes v w
  | pre {v w : Version} : Pep440.SameRelease v.numbers w.numbers → v.pre ≠ [] → Before IdBefore v.pre w.pre → Precedes v w

/-- The same version, up to zeros at the end of the numbers. -/
def Same (v w : Version) : Prop := Pep440.SameRelease v.numbers w.numbers ∧ v.pre = w.pre

/-- No identifier is a hyphen with a number behind it. -/
def Plain (v : Version) : Prop := ∀ i ∈ v.pre, ∀ t, i = '-' :: t → t = [] ∨ ∃ c ∈ t, ¬ ModText.Digit c

/-- A text that is such a version, with plain identifiers only. -/
def Good (s : Str) : Prop := ∃ v, Written s v ∧ Plain v

/-- The version that `s` is the text of is older than that of `t`. -/
def Older (s t : Str) : Prop := ∃ v w, Written s v ∧ Written t w ∧ Precedes v w

end Osv.Spec.NuGetOrder
