import Verif.Spec.JsonDoc
import Verif.Spec.Npm
import Verif.Model.LockBun
/-! # What a bun.lock says -/
namespace Osv.Spec
open Osv Str

/-- The package that the head of a tuple stands for. -/
inductive BunHead : Str → PackageDetails → Prop
  /-- `name@version` -/
  | version {name version} : NpmName name → '#' ∉ version → (∀ r, version ≠ g!"file:" ++ r) →
      BunHead (name ++ '@' :: version) (npm name version [])
  /-- `name@source#commit` -/
  | commit {name source commit} : NpmName name → '#' ∉ source → commit ≠ [] →
      BunHead (name ++ '@' :: source ++ '#' :: commit) (npm name [] commit)
  /-- `name@file:path` -/
  | file {name path} : NpmName name → '#' ∉ path → BunHead (name ++ '@' :: g!"file:" ++ path) (npm name [] [])
  /-- `name@version#`, an empty commit -/
  | emptyCommit {name version} : NpmName name → '#' ∉ version → (∀ r, version ≠ g!"file:" ++ r) →
      BunHead (name ++ '@' :: version ++ ['#']) (npm name version [])
  /-- `name@file:path#`, an empty commit -/
  | emptyCommitFile {name path} : NpmName name → '#' ∉ path →
      BunHead (name ++ '@' :: g!"file:" ++ path ++ ['#']) (npm name [] [])
  /-- A name without a version. -/
  | bare {name} : NpmName name → BunHead name (npm name [] [])

/-- The package of a member of `packages`: that of the text at the head of its tuple. -/
def BunPackage (member : Str × JVal) (p : PackageDetails) : Prop :=
  ∃ head rest, member.2 = .arr (.cons (.str head) rest) ∧ BunHead head p

/-- The JSON text of a bun.lock with the given `packages`. -/
def BunFile (json : Str) (packages : JMembers) : Prop :=
  ∃ doc, Json.parse json = some (.obj doc) ∧ PlainKeys [g!"lockfileVersion", g!"packages"] doc ∧
    Member doc g!"packages" (.obj packages) ∧ DistinctKeys packages

/-- All members have the right type: the version is an integer and every package is a list, without numbers that are too
large. -/
def BunTyped (isFloat : Str → Bool) (json : Str) (packages : JMembers) : Prop :=
  (∀ doc, Json.parse json = some (.obj doc) → ∀ v, Member doc g!"lockfileVersion" v → IsInt v) ∧
  ∀ k v, Member packages k v → v = .null ∨ ∃ l, v = .arr l ∧ ∀ lit, NumberIn lit (.arr l) → isFloat lit = true

end Osv.Spec
