import Verif.Go.Str
/-!
# Decimal numbers as floating point numbers

`strconv.ParseFloat(s, 64)`, as far as the program looks at the result: whether there is an error, and whether the number is 9. The
modelled part are decimal numbers with at most four digits in the exponent; hexadecimal numbers, underscores, infinities and NaN are left
to a parameter.
-/
namespace Osv.ParseFloat
open Str

/-- A decimal number: sign, digits and exponent. -/
structure Dec where
  neg : Bool
  mant : Nat
  exp : Int
deriving DecidableEq, Repr

/-- The value of decimal digits. -/
def value (ds : Str) : Nat := ds.foldl (fun n c => n * 10 + (c.toNat - 48)) 0

/-- A sign, if there is one. -/
def sign : Str → Bool × Str
  | '+' :: t => (false, t)
  | '-' :: t => (true, t)
  | t => (false, t)

/-- The exponent, which is the rest of the text. -/
def exponent : Str → Option Int
  | [] => some 0
  | c :: t =>
    if c = 'e' ∨ c = 'E' then
      if (sign t).2 ≠ [] ∧ (sign t).2.all isDigit ∧ (sign t).2.length ≤ 4 then
        some (if (sign t).1 then -(value (sign t).2 : Int) else value (sign t).2)
      else none
    else none

/-- What is behind the digits before the point: the digits behind the point, and the rest. -/
def fraction : Str → Str × Str
  | '.' :: t => (t.takeWhile isDigit, t.dropWhile isDigit)
  | t => ([], t)

/-- `strconv/atof.go` `readFloat` without hexadecimal numbers and underscores. -/
def read (s : Str) : Option Dec :=
  let t := (sign s).2
  let f := fraction (t.dropWhile isDigit)
  let ds := t.takeWhile isDigit ++ f.1
  if ds = [] then none else (exponent f.2).map fun e => ⟨(sign s).1, value ds, e - f.1.length⟩

/-- The number without its sign as a fraction. -/
def Dec.num (d : Dec) : Nat := d.mant * 10 ^ d.exp.toNat
def Dec.den (d : Dec) : Nat := 10 ^ (-d.exp).toNat

/-- Numbers from the middle between the largest double and 2^1024 on are errors. -/
def Dec.fits (d : Dec) : Bool := d.num < 2 ^ 970 * (2 ^ 54 - 1) * d.den

/-- Doubles between 8 and 16 are the multiples of 2^-49, so these are the numbers that are rounded to 9, which is even. -/
def Dec.isNine (d : Dec) : Bool := !d.neg && 2 ^ 50 * d.num ≤ (9 * 2 ^ 50 + 1) * d.den && (9 * 2 ^ 50 - 1) * d.den ≤ 2 ^ 50 * d.num

end Osv.ParseFloat

namespace Osv

/-- `pkg/lockfile/parse-pnpm-lock.go:43` and the comparison with 9 in line 76. -/
def pnpmNineWith (other : Str → Option Bool) (s : Str) : Option Bool :=
  match ParseFloat.read s with
  | some d => if d.fits then some d.isNine else none
  | none => other s

/-- `encoding/json` on a number in a value of any type (`pkg/lockfile/parse-bun-lock.go`). -/
def isFloatWith (other : Str → Bool) (s : Str) : Bool :=
  match ParseFloat.read s with
  | some d => d.fits
  | none => other s

end Osv
