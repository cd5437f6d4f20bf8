import Verif.Model.MemDB
/-!
# Decoding YAML nodes (`gopkg.in/yaml.v3`, `decode.go`)

The text is read by the library; the model starts from the tree of nodes. Simplifications: aliases are replaced by what they refer to,
there are no merge keys and no explicit tags. Errors of the decoder are collected and returned at the end, so that it is enough to know
whether there is one.
-/
namespace Osv
open Str

/-- A node. A scalar is kept as it is written, with whether it means null (`~`, `null` or nothing, without quotes). -/
inductive YNode where
  | scalar (value : Str) (null : Bool)
  | seq (items : List YNode)
  | map (entries : List (YNode × YNode))

namespace Yaml

/-- What a missing value decodes like. -/
def null : YNode := .scalar [] true

/-- The comparison of keys in `mapping`: by kind and text. -/
def sameKey : YNode → YNode → Bool
  | .scalar a _, .scalar b _ => a = b
  | .seq _, .seq _ => true
  | .map _, .map _ => true
  | _, _ => false

/-- A key occurs twice. -/
def duplicate : List (YNode × YNode) → Bool
  | [] => false
  | e :: rest => rest.any (fun x => sameKey e.1 x.1) || duplicate rest

/-- The entries of a mapping with their keys decoded as strings. Entries with a null key are skipped. -/
def keys : List (YNode × YNode) → Option (List (Str × YNode))
  | [] => some []
  | (.scalar _ true, _) :: rest => keys rest
  | (.scalar k false, v) :: rest => (keys rest).map ((k, v) :: ·)
  | _ :: _ => none

/-- `mapping` and `mappingStruct`: the entries that are decoded; `none` is an error. Null leaves the value as it is. -/
def fields : YNode → Option (List (Str × YNode))
  | .scalar _ true => some []
  | .scalar _ false => none
  | .seq _ => none
  | .map entries => if duplicate entries then none else keys entries

/-- The value for a field. -/
def at_ (fs : List (Str × YNode)) (k : Str) : YNode := (fs.lookup k).getD null

/-- `scalar` into a string: numbers and booleans are taken as they are written. -/
def text : YNode → Option Str
  | .scalar _ true => some []
  | .scalar v false => some v
  | _ => none

/-- The values of a mapping, decoded. -/
def values {α : Type} (d : YNode → Option α) : List (Str × YNode) → Option (SMap α)
  | [] => some []
  | (k, v) :: rest => match d v, values d rest with
    | some a, some m => some ((k, a) :: m)
    | _, _ => none

/-- `mapping` into a map from strings. -/
def mapOf {α : Type} (d : YNode → Option α) (n : YNode) : Option (SMap α) := (fields n).bind (values d)

/-- The items of a sequence, decoded. Null items are left out. -/
def items {α : Type} (d : YNode → Option α) : List YNode → Option (List α)
  | [] => some []
  | .scalar _ true :: rest => items d rest
  | n :: rest => match d n, items d rest with
    | some a, some l => some (a :: l)
    | _, _ => none

/-- `sequence` into a slice. -/
def listOf {α : Type} (d : YNode → Option α) : YNode → Option (List α)
  | .scalar _ true => some []
  | .seq l => items d l
  | _ => none

end Yaml
end Osv
