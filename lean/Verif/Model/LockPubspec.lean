import Verif.Model.LockGradle
import Verif.Model.MemDB
/-!
# pubspec.lock (`pkg/lockfile/parse-pubspec-lock.go`)

The YAML library is a parameter: it tells how a node is decoded into the types used.
-/
namespace Osv
open Str

/-- `pkg/lockfile/parse-pubspec-lock.go:10-15` `PubspecLockDescription`. -/
structure PubspecDescription where
  name : Str := []
  url : Str := []
  path : Str := []
  ref : Str := []
deriving DecidableEq, Repr

/-- What the library makes of a description: decoded into the struct of lines 18-23 and into a `*string`; `none` is an
error. -/
structure PubspecNode where
  asStruct : Option PubspecDescription
  asString : Option (Option Str)
deriving DecidableEq, Repr

/-- What a decoding method ends with. -/
inductive Decoded (α : Type) where
  | ok (a : α)
  | error
  | panic
deriving DecidableEq, Repr

/-- `pkg/lockfile/parse-pubspec-lock.go:17-47` `UnmarshalYAML`. -/
def PubspecNode.decode (n : PubspecNode) : Decoded PubspecDescription :=
  match n.asStruct with
  | some m => .ok ⟨m.name, m.url, m.path, m.ref⟩
  | none => match n.asString with
    | none => .error
    | some none => .panic
    | some (some s) => .ok { path := s }

/-- `pkg/lockfile/parse-pubspec-lock.go:49-53` `PubspecLockPackage`, with the description still to be decoded; `none` if the
package has none. -/
structure PubspecPackage where
  version : Str
  description : Option PubspecNode
deriving DecidableEq, Repr

/-- The descriptions of the packages in the order in which the library decodes them. It stops at an error, because the
method wraps it (line 40). -/
def pubspecDescriptions : SMap PubspecPackage → Decoded (SMap (Str × PubspecDescription))
  | [] => .ok []
  | (name, p) :: rest =>
    match (p.description.map PubspecNode.decode).getD (.ok {}) with
    | .panic => .panic
    | .error => .error
    | .ok d => match pubspecDescriptions rest with
      | .panic => .panic
      | .error => .error
      | .ok l => .ok ((name, p.version, d) :: l)

/-- `pkg/lockfile/parse-pubspec-lock.go:60` -/
def pubEcosystem : Ecosystem := g!"Pub"

/-- `pkg/lockfile/parse-pubspec-lock.go:62-93` `ParsePubspecLock`; `none` is a panic. `yaml` decodes the text up to the
descriptions: `none` is an error and `some none` leaves the pointer nil. `iter` gives the order in which Go iterates over the map. -/
def parsePubspecLock (yaml : Str → Option (Option (SMap PubspecPackage)))
    (iter : SMap (Str × PubspecDescription) → SMap (Str × PubspecDescription)) (content : Option Str) : Option Parsed :=
  match content.bind yaml with
  | none => some ([], true)
  | some none => some ([], false)
  | some (some packages) => match pubspecDescriptions packages with
    | .panic => none
    | .error => some ([], true)
    | .ok l => some ((iter l).map fun x => ⟨x.1, x.2.1, x.2.2.ref, pubEcosystem, pubEcosystem⟩, false)

end Osv
