import Verif.Go.Str
/-! # Text notions used by the lockfile specifications -/
namespace Osv.Spec
open Osv Str

/-- White space only. -/
def Blank (s : Str) : Prop := ∀ c ∈ s, isSpace c = true

/-- `t` is `s` without the white space around it. -/
def Trimmed (s t : Str) : Prop :=
  ∃ a b, s = a ++ t ++ b ∧ Blank a ∧ Blank b ∧
    (∀ c ∈ t.head?, isSpace c = false) ∧ (∀ c ∈ t.getLast?, isSpace c = false)

/-- `p` is `s` up to the first `c`, or all of `s` if there is none. -/
def Before (c : Char) (s p : Str) : Prop := c ∉ p ∧ (s = p ∨ ∃ r, s = p ++ c :: r)

/-- A list of outcomes read off one by one: the entries of the items that have one, in order. -/
inductive Entries {α β : Type} (entry : α → β → Prop) : List α → List β → Prop
  | nil : Entries entry [] []
  | keep {a b as bs} : entry a b → Entries entry as bs → Entries entry (a :: as) (b :: bs)
  | skip {a as bs} : (∀ b, ¬ entry a b) → Entries entry as bs → Entries entry (a :: as) bs

end Osv.Spec
