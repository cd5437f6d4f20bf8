import Verif.Spec.ModText
/-! # Texts of times (RFC 3339) -/
namespace Osv.Spec
open Str ModText

/-- A number in a text of a given length. -/
def Padded (w : Nat) (t : Str) (n : Nat) : Prop := t.length = w ∧ Numeral 10 t n

/-- Years with 366 days. -/
def LeapYear (y : Nat) : Prop := 4 ∣ y ∧ (100 ∣ y → 400 ∣ y)

/-- The days of the months. -/
inductive MonthDays (y : Nat) : Nat → Nat → Prop
  | long {m : Nat} : m ∈ [1, 3, 5, 7, 8, 10, 12] → MonthDays y m 31
  | short {m : Nat} : m ∈ [4, 6, 9, 11] → MonthDays y m 30
  | leap : LeapYear y → MonthDays y 2 29
  | common : ¬ LeapYear y → MonthDays y 2 28

/-- A date and a time of day. -/
structure Moment where
  year : Nat
  month : Nat
  day : Nat
  hour : Nat
  minute : Nat
  second : Nat

/-- There is such a date and such a time. -/
structure Moment.Valid (m : Moment) : Prop where
  year : m.year ≤ 9999
  day : 1 ≤ m.day ∧ ∃ n, MonthDays m.year m.month n ∧ m.day ≤ n
  time : m.hour ≤ 23 ∧ m.minute ≤ 59 ∧ m.second ≤ 59

/-- The date and the time of day. -/
def MomentText (t : Str) (m : Moment) : Prop :=
  ∃ ys ms ds hs ns ss, Padded 4 ys m.year ∧ Padded 2 ms m.month ∧ Padded 2 ds m.day ∧ Padded 2 hs m.hour ∧ Padded 2 ns m.minute ∧
    Padded 2 ss m.second ∧ t = ys ++ ('-' :: (ms ++ ('-' :: (ds ++ ('T' :: (hs ++ (':' :: (ns ++ (':' :: ss)))))))))

/-- The fraction of a second, by its digits. -/
inductive FractionText : Str → Str → Prop
  | none : FractionText [] []
  | some {f : Str} : f ≠ [] → (∀ c ∈ f, Digit c) → FractionText ('.' :: f) f

/-- The zone, in minutes. -/
inductive ZoneText : Str → Int → Prop
  | utc : ZoneText g!"Z" 0
  | plus {hs ms : Str} {h m : Nat} : Padded 2 hs h → h ≤ 23 → Padded 2 ms m → m ≤ 59 → ZoneText ('+' :: (hs ++ ':' :: ms)) (60 * h + m)
  | minus {hs ms : Str} {h m : Nat} : Padded 2 hs h → h ≤ 23 → Padded 2 ms m → m ≤ 59 → ZoneText ('-' :: (hs ++ ':' :: ms)) (-(60 * h + m))

/-- The text of a time: the moment in its zone, the digits of the fraction, and the zone. -/
def TimeText (s : Str) (m : Moment) (f : Str) (z : Int) : Prop :=
  ∃ a b c, MomentText a m ∧ FractionText b f ∧ ZoneText c z ∧ m.Valid ∧ s = a ++ (b ++ c)

/-- The nanoseconds of a fraction: nine digits, filled up with zeros. -/
def Nanoseconds (f : Str) (n : Nat) : Prop := ∃ zeros, (∀ c ∈ zeros, c = '0') ∧ (f.length < 9 → f.length + zeros.length = 9) ∧
  (9 ≤ f.length → zeros = []) ∧ Numeral 10 (f.take 9 ++ zeros) n

/-- The way to write a time: at most nine digits, the last of which is not 0, and `Z` for zones without difference. -/
def CanonicalTime (s : Str) : Prop :=
  ∃ m f z, TimeText s m f z ∧ f.length ≤ 9 ∧ f.getLast? ≠ some '0' ∧ (z = 0 → ∃ t, s = t ++ g!"Z")

end Osv.Spec
