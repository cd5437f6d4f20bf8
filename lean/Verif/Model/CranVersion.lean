import Verif.Model.Semantic
/-!
# Versions of R packages (`github.com/google/osv-scalibr/semantic`, `version-cran.go`)

`pkg/database/osv.go:96-131` compares versions with this library. It is not part of the repository and its source is not available
here: the definitions follow its known behaviour (release 0.4).
-/
namespace Osv.CranVersion
open Str Semantic

/-- `parseCRANVersion`: dashes are dots, and all parts are numbers. What is made of other parts (the library reports an error) is left
open by `other`. -/
def parse (other : Str → Nat) (s : Str) : List Nat :=
  (splitChar '.' (s.map fun c => if c = '-' then '.' else c)).map fun p => ((bigInt? p).map Int.toNat).getD (other p)

/-- The comparison of two lists of numbers: with zeros for the missing ones, and then by the length. -/
def cmpParts (a b : List Nat) : Int := if cmpComponents a b ≠ 0 then cmpComponents a b else cmpInt a.length b.length

/-- `CRANVersion.Compare`. -/
def cran (other : Str → Nat) (a b : Str) : Int := cmpParts (parse other a) (parse other b)

example : cran (fun _ => 0) g!"1.2-3" g!"1.2.3" = 0 := by decide +kernel
example : cran (fun _ => 0) g!"1.2" g!"1.2.0" = -1 := by decide +kernel
example : cran (fun _ => 0) g!"1.10" g!"1.9-3" = 1 := by decide +kernel

end Osv.CranVersion
