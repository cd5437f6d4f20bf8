import Verif.Go.Json
/-!
# Encoding Go values (`encoding/json`, `Marshal`)

Structs become objects with their fields in order. A nil slice becomes `null` and an empty slice `[]`; as the models do not tell
the two apart, an encoding of an empty slice may be either (`Slice`).
-/
namespace Osv

def JList.ofList : List JVal → JList
  | [] => .nil
  | v :: l => .cons v (ofList l)

def JMembers.ofList : List (Str × JVal) → JMembers
  | [] => .nil
  | (k, v) :: l => .cons k v (ofList l)

/-- The two lists have the same length and `R` holds at each position. -/
inductive Each {α β : Type} (R : α → β → Prop) : List α → List β → Prop
  | nil : Each R [] []
  | cons {a : α} {b : β} {l : List α} {m : List β} : R a b → Each R l m → Each R (a :: l) (b :: m)

namespace Json

/-- An array. -/
def jarr (l : List JVal) : JVal := .arr (.ofList l)

/-- An object. -/
def jobj (l : List (Str × JVal)) : JVal := .obj (.ofList l)

/-- A `string` field. -/
def textAs (k s : Str) : Str × JVal := (k, .str s)

/-- A `string` field with `omitempty`. -/
def textIf (k s : Str) : List (Str × JVal) := if s = [] then [] else [(k, .str s)]

/-- A slice with these elements. -/
inductive Slice : List JVal → JVal → Prop
  | array (l : List JVal) : Slice l (jarr l)
  | null : Slice [] .null

end Json
end Osv
