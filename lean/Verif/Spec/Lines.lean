import Verif.Go.JsonEncode
/-! # Lines of a text -/
namespace Osv.Spec
open Osv

/-- The lines of a text. A line break at the end of the text does not begin another line. -/
inductive LinesOf : Str → List Str → Prop
  | nil : LinesOf [] []
  | last {l : Str} : l ≠ [] → '\n' ∉ l → LinesOf l [l]
  | line {l rest : Str} {ls : List Str} : '\n' ∉ l → LinesOf rest ls → LinesOf (l ++ '\n' :: rest) (l :: ls)

/-- `t` is `l` without a carriage return at its end. -/
def WithoutCR (l t : Str) : Prop := l = t ++ ['\r'] ∨ ((∀ u, l ≠ u ++ ['\r']) ∧ t = l)

/-- The number of bytes of a character in UTF-8. -/
def charBytes (c : Char) : Nat :=
  if c.toNat < 0x80 then 1 else if c.toNat < 0x800 then 2 else if c.toNat < 0x10000 then 3 else 4

/-- A line with fewer than 64 KiB. -/
def ShortLine (l : Str) : Prop := (l.map charBytes).sum < 64 * 1024

/-- The lines of a text, without carriage returns at their ends, all of them short. -/
def TextLines (content : Str) (ls : List Str) : Prop :=
  ∃ raw, LinesOf content raw ∧ (∀ l ∈ raw, ShortLine l) ∧ Each WithoutCR raw ls

/-- A character that counts as white space around texts. -/
def White (c : Char) : Prop :=
  c ∈ [' ', '\t', '\n', '\u000B', '\u000C', '\r', '\u0085', '\u00A0', '\u1680', '\u2028', '\u2029', '\u202F', '\u205F',
    '\u3000'] ∨
  ('\u2000' ≤ c ∧ c ≤ '\u200A')

end Osv.Spec
