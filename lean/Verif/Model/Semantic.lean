import Verif.Model.Osv
/-!
# Comparison of versions (`github.com/google/osv-scalibr/semantic`)

`pkg/database/osv.go:96-131` compares versions with this library. It is not part of the repository and its source is not available
here: the definitions follow its known behaviour (release 0.4) for the ecosystems that it compares as semantic versions, and for
NuGet and RubyGems. Strings are compared by bytes in Go and by characters here, which is the same order for UTF-8.
-/
namespace Osv.Semantic
open Str

/-- `strings.Compare`, `big.Int.Cmp`: three ways. -/
def cmpInt (a b : Int) : Int := if a < b then -1 else if b < a then 1 else 0

/-- `strings.Compare`. -/
def cmpStr : Str → Str → Int
  | [], [] => 0
  | [], _ :: _ => -1
  | _ :: _, [] => 1
  | a :: as, b :: bs => if a.toNat < b.toNat then -1 else if b.toNat < a.toNat then 1 else cmpStr as bs

/-- The value of decimal digits. -/
def decimal (ds : Str) : Nat := ds.foldl (fun n c => n * 10 + (c.toNat - 48)) 0

/-- `big.Int.SetString(s, 10)` for digits without a sign. -/
def digits? (s : Str) : Option Nat := if s ≠ [] ∧ s.all isDigit then some (decimal s) else none

/-- `convertToBigInt`: `big.Int.SetString(s, 10)`. -/
def bigInt? (s : Str) : Option Int :=
  match s with
  | '-' :: ds => (digits? ds).map fun (n : Nat) => -(n : Int)
  | '+' :: ds => (digits? ds).map Int.ofNat
  | ds => (digits? ds).map Int.ofNat

/-- `SemverLikeVersion`: the numbers and what follows them. -/
structure Like where
  components : List Nat
  build : Str
deriving DecidableEq, Repr

/-- The loop of `ParseSemverLikeVersion`: the numbers so far, the digits of the current one, and whether the last dot has nothing
behind it. -/
def scan (comps : List Nat) (cur : Str) (empty : Bool) : Str → Like
  | [] => if cur ≠ [] then ⟨comps ++ [decimal cur], []⟩ else ⟨comps, if empty then g!"." else []⟩
  | c :: rest =>
    if isDigit c then scan comps (cur ++ [c]) empty rest
    else
      let comps := if cur ≠ [] then comps ++ [decimal cur] else comps
      let empty := if cur ≠ [] then false else empty
      if c = '.' then scan comps [] true rest
      else ⟨comps, (if empty then g!"." else []) ++ c :: rest⟩

/-- `ParseSemverLikeVersion` with a maximum number of components: the ones beyond it are moved to the build. -/
def parseLike (max : Nat) (s : Str) : Like :=
  let v := scan [] [] false (trimPrefix s g!"v")
  if v.components.length ≤ max then v
  else ⟨v.components.take max, v.build ++ (v.components.drop max).flatMap fun n => '.' :: (Nat.repr n).toList⟩

/-- `Components.Cmp`: the first difference, with zeros for the ones that are missing. -/
def cmpComponents (a b : List Nat) : Int :=
  ((List.range (Nat.max a.length b.length)).map fun i => cmpInt (a.getD i 0) (b.getD i 0)).foldr (fun d r => if d ≠ 0 then d else r) 0

/-- The comparison of two identifiers in `compareSemverBuildComponents`. -/
def cmpIdent (a b : Str) : Int :=
  match bigInt? a, bigInt? b with
  | some m, some n => cmpInt m n
  | none, none => cmpStr a b
  | some _, none => -1
  | none, some _ => 1

/-- `compareSemverBuildComponents`. -/
def cmpIdents : List Str → List Str → Int
  | [], [] => 0
  | [], _ :: _ => -1
  | _ :: _, [] => 1
  | a :: as, b :: bs => if cmpIdent a b ≠ 0 then cmpIdent a b else cmpIdents as bs

/-- What `compareBuildComponents` compares: without the build metadata and the hyphen. -/
def prerelease (build : Str) : Str := trimPrefix ((splitChar '+' build).headD []) g!"-"

/-- `compareBuildComponents`. -/
def cmpBuild (a b : Str) : Int :=
  let a := prerelease a
  let b := prerelease b
  if a = [] ∧ b ≠ [] then 1
  else if a ≠ [] ∧ b = [] then -1
  else cmpIdents (splitChar '.' a) (splitChar '.' b)

/-- `SemverVersion.Compare`. -/
def semver (a b : Str) : Int :=
  let v := parseLike 3 a
  let w := parseLike 3 b
  if cmpComponents v.components w.components ≠ 0 then cmpComponents v.components w.components else cmpBuild v.build w.build

/-- `NuGetVersion.Compare`. -/
def nuget (a b : Str) : Int :=
  let v := parseLike 4 a
  let w := parseLike 4 b
  if cmpComponents v.components w.components ≠ 0 then cmpComponents v.components w.components
  else cmpBuild (toLower v.build) (toLower w.build)

/-- The comparison of two segments in `compareRubyGemsComponents`. -/
def cmpSegment (a b : Str) : Int :=
  match bigInt? a, bigInt? b with
  | some m, some n => cmpInt m n
  | none, none => cmpStr a b
  | some _, none => 1
  | none, some _ => -1

/-- `compareRubyGemsComponents`: the first difference, with zeros for the ones that are missing. -/
def cmpSegments (a b : List Str) : Int :=
  ((List.range (Nat.max a.length b.length)).map fun i => cmpSegment (a.getD i g!"0") (b.getD i g!"0")).foldr
    (fun d r => if d ≠ 0 then d else r) 0

/-- `RubyGemsVersion.Compare`. `segments` gives the canonical segments of a version. -/
def rubygems (segments : Str → List Str) (a b : Str) : Int := cmpSegments (segments a) (segments b)

/-- The ecosystems of `parse.go` whose versions are compared as semantic versions, as far as `pkg/lockfile` has packages of them. -/
def semverEcosystems : List Ecosystem := [g!"crates.io", g!"Go", g!"Hex", g!"npm", g!"ConanCenter"]

example : semver g!"1.0.0-alpha" g!"1.0.0" = -1 := by decide +kernel
example : semver g!"1.0.0-alpha.9" g!"1.0.0-alpha.10" = -1 := by decide +kernel
example : semver g!"v1.10.0" g!"1.9.3+meta" = 1 := by decide +kernel
example : semver g!"1.0.0-rc.1" g!"1.0.0-rc.1+5" = 0 := by decide +kernel
example : nuget g!"1.0.0.1-RC" g!"1.0.0.1-rc" = 0 := by decide +kernel

end Osv.Semantic
