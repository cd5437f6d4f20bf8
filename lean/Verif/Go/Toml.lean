import Verif.Go.Str
/-!
# Decoding TOML values (`github.com/BurntSushi/toml`, `decode.go`)

The text is read by the library; the model starts from the tree of values, a table being the list of its entries in the order in which
Go iterates over the map that the library keeps it in. Keys belong to a field if they are equal apart from upper and lower case.
Simplification: where several keys belong to one field that is a struct or a slice, the last one replaces the others, whereas the library
merges them.
-/
namespace Osv
open Str

inductive TNode where
  | str (s : Str)
  | int (i : Int)
  /-- float, boolean, date or time -/
  | other
  | arr (items : List TNode)
  | table (entries : List (Str × TNode))

namespace Toml

/-- `strings.EqualFold` for names in ASCII: besides the letters, the long s and the Kelvin sign have ASCII letters as other cases. -/
def foldChar (c : Char) : Char :=
  if c = 'ſ' then 's' else if c = '\u212A' then 'k' else c.toLower

def fold (s : Str) : Str := s.map foldChar

/-- `unifyStruct` for one field: every entry that belongs to it is decoded. -/
def get {α : Type} (d : TNode → Option α) : α → List (Str × TNode) → Str → Option α
  | cur, [], _ => some cur
  | cur, (k', v) :: rest, k => if fold k' = fold k then (d v).bind fun a => get d a rest k else get d cur rest k

/-- `unifyStruct`: only tables. -/
def fields : TNode → Option (List (Str × TNode))
  | .table es => some es
  | _ => none

/-- `unifyString` -/
def text : TNode → Option Str
  | .str s => some s
  | _ => none

/-- `unifyInt`, without the value. -/
def int : TNode → Option Unit
  | .int _ => some ()
  | _ => none

/-- `unifySliceArray` -/
def items {α : Type} (d : TNode → Option α) : List TNode → Option (List α)
  | [] => some []
  | n :: rest => match d n, items d rest with
    | some a, some l => some (a :: l)
    | _, _ => none

/-- `unifySlice` -/
def listOf {α : Type} (d : TNode → Option α) : TNode → Option (List α)
  | .arr l => items d l
  | _ => none

end Toml
end Osv
