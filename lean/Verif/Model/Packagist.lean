import Verif.Model.GemVersion
/-!
# Versions of PHP packages (`github.com/google/osv-scalibr/semantic`, `version-packagist.go`)

`pkg/database/osv.go:96-131` compares versions with this library. It is not part of the repository and its source is not available
here: the definitions follow its known behaviour (release 0.4).
-/
namespace Osv.Packagist
open Str Semantic

/-- `canonicalizePackagistVersion`: without `v`, with dots for dashes, underscores and plus signs, and dots where digits and other
characters meet. The two regular expressions `([^\d.])(\d)` and `(\d)([^\d.])` put a dot between the two characters wherever they stand
together, since what one match takes can not begin the next one; this is the loop of gem versions. -/
def canonicalize (s : Str) : Str :=
  GemVersion.canonLoop false true
    ((trimPrefix (trimPrefix s g!"v") g!"V").map fun c => if c = '-' ∨ c = '_' ∨ c = '+' then '.' else c)

/-- `weighPackagistBuildCharacter`. -/
def weigh (s : Str) : Nat :=
  if hasPrefix s g!"RC" then 3
  else if hasPrefix s g!"dev" then 0
  else if hasPrefix s g!"a" then 1
  else if hasPrefix s g!"b" then 2
  else if hasPrefix s g!"rc" then 3
  else if hasPrefix s g!"#" then 4
  else if hasPrefix s g!"p" then 5
  else 0

/-- `comparePackagistSpecialVersions`. -/
def cmpSpecial (a b : Str) : Int := cmpInt (weigh a) (weigh b)

/-- The comparison of two parts in `comparePackagistComponents`. -/
def cmpPart (a b : Str) : Int :=
  match bigInt? a, bigInt? b with
  | some m, some n => cmpInt m n
  | none, none => cmpSpecial a b
  | some _, none => cmpSpecial g!"#" b
  | none, some _ => cmpSpecial a g!"#"

/-- `comparePackagistComponents` where the second version has ended: a number makes the version newer, other parts are compared with
`#`, and if that makes no difference the same is done with the next part. -/
def rest : List Str → Int
  | [] => 0
  | s :: r => if (bigInt? s).isSome then 1 else if cmpSpecial s g!"#" ≠ 0 then cmpSpecial s g!"#" else rest r

/-- The same where the first version has ended. -/
def rest' : List Str → Int
  | [] => 0
  | s :: r => if (bigInt? s).isSome then -1 else if cmpSpecial g!"#" s ≠ 0 then cmpSpecial g!"#" s else rest' r

/-- `comparePackagistComponents`. -/
def cmpParts : List Str → List Str → Int
  | [], [] => 0
  | x :: a, [] => rest (x :: a)
  | [], y :: b => rest' (y :: b)
  | x :: a, y :: b => if cmpPart x y ≠ 0 then cmpPart x y else cmpParts a b

/-- `PackagistVersion.Compare`. -/
def packagist (a b : Str) : Int := cmpParts (splitChar '.' (canonicalize a)) (splitChar '.' (canonicalize b))

example : packagist g!"1.0.0-beta2" g!"v1.0.0" = -1 := by decide +kernel
example : packagist g!"1.0RC1" g!"1.0.0-rc.1" = -1 := by decide +kernel
example : packagist g!"1.0-p1" g!"1.0" = 1 := by decide +kernel
example : packagist g!"1.0alpha3" g!"1.0_a.3" = 0 := by decide +kernel

end Osv.Packagist
