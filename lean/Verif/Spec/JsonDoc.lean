import Verif.Go.JsonDecode
import Verif.Spec.Case
/-! # Members of JSON objects -/
namespace Osv.Spec
open Osv

/-- The object has a member `k` with value `v`. -/
def Member (m : JMembers) (k : Str) (v : JVal) : Prop := (k, v) ∈ m.toList

/-- No key twice. -/
def DistinctKeys (m : JMembers) : Prop := (m.toList.map (·.1)).Nodup

/-- No key twice, and none that differs from one of `fields` in case only. -/
def PlainKeys (fields : List Str) (m : JMembers) : Prop :=
  DistinctKeys m ∧ ∀ x ∈ m.toList, ∀ f ∈ fields, SameName f x.1 → f = x.1

/-- The text of member `f`, empty if it is missing or null. -/
def TextField (m : JMembers) (f s : Str) : Prop := Member m f (.str s) ∨ (s = [] ∧ ∀ v, Member m f v → v = .null)

/-- A text, or null. -/
def IsText (v : JVal) : Prop := v = .null ∨ ∃ s, v = .str s

/-- An integer in the range of `int64`, or null. -/
def IsInt (v : JVal) : Prop := v = .null ∨ ∃ lit, v = .num lit ∧ Int64Text lit

/-- The number `lit` occurs somewhere in a value. -/
inductive NumberIn (lit : Str) : JVal → Prop
  | num : NumberIn lit (.num lit)
  | elem {l : JList} {v : JVal} : v ∈ l.toList → NumberIn lit v → NumberIn lit (.arr l)
  | member {m : JMembers} {k : Str} {v : JVal} : Member m k v → NumberIn lit v → NumberIn lit (.obj m)

end Osv.Spec
