import Verif.Go.Str
/-! # Names that differ in upper and lower case only, and numbers -/
namespace Osv.Spec
open Osv

/-- The same letter apart from upper and lower case, for names in ASCII: the long s is a lower case S, and the Kelvin sign an
upper case k. -/
def SameLetter (c d : Char) : Prop :=
  c.toUpper = d.toUpper ∨ (c ∈ ['s', 'S', 'ſ'] ∧ d ∈ ['s', 'S', 'ſ']) ∨ (c ∈ ['k', 'K', '\u212A'] ∧ d ∈ ['k', 'K', '\u212A'])

instance (c d : Char) : Decidable (SameLetter c d) := by unfold SameLetter; infer_instance

/-- The same name apart from upper and lower case. -/
def SameName : Str → Str → Prop
  | [], [] => True
  | c :: s, d :: t => SameLetter c d ∧ SameName s t
  | _, _ => False

instance decSameName : (s t : Str) → Decidable (SameName s t)
  | [], [] => isTrue trivial
  | c :: s, d :: t => @instDecidableAnd _ _ _ (decSameName s t)
  | [], _ :: _ => isFalse id
  | _ :: _, [] => isFalse id

/-- The number with these decimal digits. -/
inductive DigitsOf : Str → Nat → Prop
  | one {c : Char} {n : Nat} : c.toNat = 48 + n → n ≤ 9 → DigitsOf [c] n
  | more {s : Str} {m : Nat} {c : Char} {n : Nat} : DigitsOf s m → c.toNat = 48 + n → n ≤ 9 → DigitsOf (s ++ [c]) (10 * m + n)

/-- An integer in the range of `int64`. -/
inductive Int64Text : Str → Prop
  | nonneg {s : Str} {n : Nat} : DigitsOf s n → n < 2 ^ 63 → Int64Text s
  | neg {s : Str} {n : Nat} : DigitsOf s n → n ≤ 2 ^ 63 → Int64Text ('-' :: s)

end Osv.Spec
