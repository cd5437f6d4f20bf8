import Verif.Go.JsonDecode
import Verif.Model.LockYarn
/-!
# bun.lock (`pkg/lockfile/parse-bun-lock.go`)
-/
namespace Osv
open Str

mutual
/-- A value into an `any`: only a number outside of the range of `float64` is an error. `isFloat` tells which are inside. -/
def anyOk (isFloat : Str → Bool) : JVal → Bool
  | .num lit => isFloat lit
  | .arr l => anyOkElems isFloat l
  | .obj m => anyOkMembers isFloat m
  | _ => true
/-- The elements of an array into values of type `any`. -/
def anyOkElems (isFloat : Str → Bool) : JList → Bool
  | .nil => true
  | .cons v l => anyOk isFloat v && anyOkElems isFloat l
/-- The members of an object into a `map[string]any`. -/
def anyOkMembers (isFloat : Str → Bool) : JMembers → Bool
  | .nil => true
  | .cons _ v m => anyOk isFloat v && anyOkMembers isFloat m
end

/-- A value into an `any`, which is represented by the value itself. -/
def decAny (isFloat : Str → Bool) (v : JVal) : Option JVal := if anyOk isFloat v then some v else none

/-- Fields of `BunLockfile`, `pkg/lockfile/parse-bun-lock.go:12-15`; only `Packages` is ever read. -/
def bunStep (isFloat : Str → Bool) (f : Str) (v : JVal) (l : Option (SMap (List JVal))) : Option (Option (SMap (List JVal))) :=
  if f = g!"lockfileVersion" then (Json.decInt v).map fun _ => l
  else Json.decMap (Json.decSlice (decAny isFloat)) v l

/-- Decoding into a nil `*BunLockfile`; `some none` if it stays nil. -/
def decBunLockfile (isFloat : Str → Bool) (v : JVal) : Option (Option (Option (SMap (List JVal)))) :=
  match v with
  | .null => some none
  | v => (Json.decStruct [g!"lockfileVersion", g!"packages"] (bunStep isFloat) v none).map some

/-- `pkg/lockfile/parse-bun-lock.go:21-49` `structurePackageDetails`: name, version and commit; `none` is the panic of
line 22 on an empty tuple. -/
def structurePackageDetails (pkg : List JVal) : Option (Str × Str × Str) :=
  match pkg with
  | [] => none
  | .str s :: _ =>
    let sc := cutPrefix s g!"@"
    let nv := cut sc.1 g!"@"
    let name := if sc.2 then g!"@" ++ nv.1 else nv.1
    let vc := cut nv.2 g!"#"
    let version := if vc.2 ≠ [] then [] else vc.1
    let version := if hasPrefix version g!"file:" then [] else version
    some (name, version, vc.2)
  | _ => some ([], [], [])

/-- `pkg/lockfile/parse-bun-lock.go:68-82`: the loop over the tuples in the order of iteration. -/
def bunLoop : SMap (List JVal) → Option (List PackageDetails)
  | [] => some []
  | (_, pkg) :: rest =>
    (structurePackageDetails pkg).bind fun d =>
      if d.1 = [] && d.2.1 = [] && d.2.2 = [] then bunLoop rest
      else (bunLoop rest).map fun l => ⟨d.1, d.2.1, d.2.2, npmEcosystem, npmEcosystem⟩ :: l

/-- `pkg/lockfile/parse-bun-lock.go:51-85` `ParseBunLock`; `none` is a panic. `toJSON` is that of `github.com/tidwall/jsonc`,
`iter` gives the order in which Go iterates over the map. -/
def parseBunLock (toJSON : Str → Str) (isFloat : Str → Bool) (iter : SMap (List JVal) → SMap (List JVal))
    (content : Option Str) : Option Parsed :=
  match content with
  | none => some ([], true)
  | some c => match (Json.parse (toJSON c)).bind (decBunLockfile isFloat) with
    | none => some ([], true)
    | some none => none
    | some (some packages) => (bunLoop (iter (packages.getD []))).map fun l => (l, false)

example : parseBunLock id (fun _ => true) id (some
    g!"{\"lockfileVersion\": 1, \"packages\": {\"a\": [\"@s/a@1.0\", \"\", {}], \"b\": [\"b@github:x/b#abc\", {}], \"c\": [1]}}") =
    some ([⟨g!"@s/a", g!"1.0", [], g!"npm", g!"npm"⟩, ⟨g!"b", [], g!"abc", g!"npm", g!"npm"⟩], false) := by decide +kernel
example : parseBunLock id (fun _ => true) id (some g!"{\"packages\": {\"a\": []}}") = none := by decide +kernel

end Osv
