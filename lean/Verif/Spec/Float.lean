import Verif.Spec.ModText
/-! # Decimal numbers and the doubles next to them -/
namespace Osv.Spec
open Str ModText

/-- A sign that may be left out. -/
inductive FloatSign : Str → Bool → Prop
  | none : FloatSign [] false
  | plus : FloatSign g!"+" false
  | minus : FloatSign g!"-" true

/-- An exponent of at most four digits that may be left out. -/
inductive FloatExp : Str → Int → Prop
  | none : FloatExp [] 0
  | some {c : Char} {a ds : Str} {neg : Bool} {n : Nat} : c = 'e' ∨ c = 'E' → FloatSign a neg → ds ≠ [] → ds.length ≤ 4 → Numeral 10 ds n →
      FloatExp (c :: (a ++ ds)) (if neg then -(n : Int) else n)

/-- The text of a decimal number: its sign, its digits as a number, and the power of ten that they are multiplied with. -/
inductive FloatText : Str → Bool → Nat → Int → Prop
  | whole {a ds t : Str} {neg : Bool} {m : Nat} {e : Int} : FloatSign a neg → ds ≠ [] → Numeral 10 ds m → FloatExp t e →
      FloatText (a ++ (ds ++ t)) neg m e
  | point {a ds fs t : Str} {neg : Bool} {m : Nat} {e : Int} : FloatSign a neg → ds ++ fs ≠ [] → Numeral 10 (ds ++ fs) m → FloatExp t e →
      FloatText (a ++ (ds ++ '.' :: (fs ++ t))) neg m (e - fs.length)

/-- `p / q` is `m * 10 ^ e`. -/
def IsFraction (m : Nat) (e : Int) (p q : Nat) : Prop := p = m * 10 ^ e.toNat ∧ q = 10 ^ (-e).toNat

/-- No multiple of 2^-49 is closer to `p / q` than 9. -/
def NextToNine (p q : Nat) : Prop := ∀ k : Int, ((p : Int) * 2 ^ 49 - 9 * 2 ^ 49 * q).natAbs ≤ ((p : Int) * 2 ^ 49 - k * q).natAbs

/-- `p / q` is below the middle between the largest double and 2^1024. -/
def BelowInfinity (p q : Nat) : Prop := 2 * p < ((2 ^ 53 - 1) * 2 ^ 971 + 2 ^ 1024) * q

end Osv.Spec
