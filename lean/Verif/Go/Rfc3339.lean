import Verif.Go.Str
/-!
# Times

`time.Time` in JSON (`time/time.go` `UnmarshalJSON`, `MarshalJSON`): a text is read by RFC 3339 and printed in the same zone, with a
fraction of at most nine digits and no zeros at its end. The modelled part are the texts of RFC 3339 with capital letters; what the library
does with other texts is a parameter.
-/
namespace Osv.Rfc3339
open Str

/-- A time; the zone is in minutes. -/
structure Stamp where
  year : Nat
  month : Nat
  day : Nat
  hour : Nat
  minute : Nat
  second : Nat
  fraction : Str
  zone : Int
deriving DecidableEq, Repr

/-- `time/time.go` `isLeap`. -/
def leap (y : Nat) : Bool := y % 4 = 0 && (y % 100 ≠ 0 || y % 400 = 0)

/-- `time/time.go` `daysIn`. -/
def daysIn (y m : Nat) : Nat := if m = 2 then (if leap y then 29 else 28) else if m = 4 ∨ m = 6 ∨ m = 9 ∨ m = 11 then 30 else 31

/-- `time/format_rfc3339.go` `parseUint`. -/
def number (ds : Str) (min max : Nat) : Option Nat :=
  let n := ds.foldl (fun n c => n * 10 + (c.toNat - 48)) 0
  if ds.all isDigit ∧ min ≤ n ∧ n ≤ max then some n else none

/-- The zone, which is the rest of the text. -/
def zone : Str → Option Int
  | ['Z'] => some 0
  | [c, a, b, ':', x, y] =>
    if c = '+' ∨ c = '-' then
      match number [a, b] 0 23, number [x, y] 0 59 with
      | some h, some m => some (if c = '-' then -(60 * h + m : Int) else 60 * h + m)
      | _, _ => none
    else none
  | _ => none

/-- The digits of the fraction, and the rest. -/
def fraction : Str → Str × Str
  | '.' :: t => if t.takeWhile isDigit = [] then ([], '.' :: t) else (t.takeWhile isDigit, t.dropWhile isDigit)
  | t => ([], t)

/-- `time/format_rfc3339.go` `parseRFC3339`. -/
def read : Str → Option Stamp
  | y1 :: y2 :: y3 :: y4 :: '-' :: m1 :: m2 :: '-' :: d1 :: d2 :: 'T' :: h1 :: h2 :: ':' :: n1 :: n2 :: ':' :: s1 :: s2 :: rest =>
    match number [y1, y2, y3, y4] 0 9999, number [m1, m2] 1 12, number [h1, h2] 0 23, number [n1, n2] 0 59, number [s1, s2] 0 59,
      zone (fraction rest).2 with
    | some y, some m, some h, some n, some s, some z => (number [d1, d2] 1 (daysIn y m)).map fun d => ⟨y, m, d, h, n, s, (fraction rest).1, z⟩
    | _, _, _, _, _, _ => none
  | _ => none

/-- A digit. -/
def digit (n : Nat) : Char := Char.ofNat (48 + n % 10)
def two (n : Nat) : Str := [digit (n / 10), digit n]

/-- A fraction of at most nine digits without zeros at its end. -/
def shortened (f : Str) : Str := ((f.take 9).reverse.dropWhile (· = '0')).reverse

def printFraction (f : Str) : Str := if shortened f = [] then [] else '.' :: shortened f

def printZone (z : Int) : Str :=
  if z = 0 then g!"Z" else (if z < 0 then '-' else '+') :: (two (z.natAbs / 60) ++ ':' :: two (z.natAbs % 60))

/-- `time/format_rfc3339.go` `appendFormatRFC3339`. -/
def print (t : Stamp) : Str :=
  two (t.year / 100) ++ (two (t.year % 100) ++ ('-' :: (two t.month ++ ('-' :: (two t.day ++ ('T' :: (two t.hour ++ (':' :: (two t.minute ++
    (':' :: (two t.second ++ (printFraction t.fraction ++ printZone t.zone))))))))))))

end Osv.Rfc3339

namespace Osv

/-- `pkg/database/osv.go:186-188`: a time is read and printed again. -/
def canonWith (other : Str → Option Str) (s : Str) : Option Str :=
  match Rfc3339.read s with
  | some t => some (Rfc3339.print t)
  | none => other s

example : canonWith (fun _ => none) g!"2021-02-28T01:02:03.4500Z" = some g!"2021-02-28T01:02:03.45Z" ∧
    canonWith (fun _ => none) g!"2020-02-29T23:59:59.1234567899-05:30" = some g!"2020-02-29T23:59:59.123456789-05:30" ∧
    canonWith (fun _ => none) g!"2020-02-29T23:59:59-00:00" = some g!"2020-02-29T23:59:59Z" ∧
    canonWith (fun _ => none) g!"2021-02-29T01:02:03Z" = none := by decide +kernel

end Osv
