import Verif.Model.Semantic
/-!
# Versions of gems (`github.com/google/osv-scalibr/semantic`, `version-rubygems.go`)

`pkg/database/osv.go:96-131` compares versions with this library. It is not part of the repository and its source is not available
here: the definitions follow its known behaviour (release 0.4).
-/
namespace Osv.GemVersion
open Str Semantic

/-- The loop of `canonicalizeRubyGemVersion`: a dot where digits and other characters meet. `check` is false at the start and behind a
dot, `prev` says whether the last character was a digit. -/
def canonLoop (check prev : Bool) : Str → Str
  | [] => []
  | c :: r =>
    if c = '.' then '.' :: canonLoop false prev r
    else if check = true ∧ prev ≠ isDigit c then '.' :: c :: canonLoop true (isDigit c) r
    else c :: canonLoop true (isDigit c) r

/-- `canonicalizeRubyGemVersion`. -/
def canonicalize (s : Str) : Str := canonLoop false true s

/-- `groupSegments`: the numbers at the start, and the others. -/
def group : List Str → List Str × List Str
  | [] => ([], [])
  | s :: r => if (bigInt? s).isSome then (s :: (group r).1, (group r).2) else ([], s :: r)

/-- `removeZeros`: without the zeros at the end. -/
def removeZeros (segs : List Str) : List Str := (segs.reverse.dropWhile (· = g!"0")).reverse

/-- `canonicalSegments`. -/
def canonicalSegments (segs : List Str) : List Str := removeZeros (group segs).1 ++ removeZeros (group segs).2

/-- `parseRubyGemsVersion`. -/
def segments (s : Str) : List Str := canonicalSegments (splitChar '.' (canonicalize s))

/-- `RubyGemsVersion.Compare`. -/
def gems : Str → Str → Int := rubygems segments

example : segments g!"1.0.0.rc1.0" = [g!"1", g!"rc", g!"1"] := by decide +kernel
example : gems g!"1.0.0.rc1" g!"1" = -1 := by decide +kernel
example : gems g!"1.0.a" g!"1.a" = 0 := by decide +kernel
example : gems g!"1.10" g!"1.9.3" = 1 := by decide +kernel

end Osv.GemVersion
