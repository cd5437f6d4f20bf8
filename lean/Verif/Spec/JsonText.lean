import Verif.Go.Json
/-!
# The texts of a JSON value (RFC 8259), also with comments and commas at the end
-/
namespace Osv.Spec
open Osv

/-- One or more decimal digits. -/
def DecDigits (s : Str) : Prop := s ≠ [] ∧ ∀ c ∈ s, '0' ≤ c ∧ c ≤ '9'

/-- A number literal. -/
def JNumber (s : Str) : Prop :=
  ∃ sign int frac exp : Str, s = sign ++ int ++ frac ++ exp ∧
    (sign = [] ∨ sign = g!"-") ∧
    (int = g!"0" ∨ (DecDigits int ∧ int.head? ≠ some '0')) ∧
    (frac = [] ∨ ∃ d, DecDigits d ∧ frac = '.' :: d) ∧
    (exp = [] ∨ ∃ e sg d, (e = 'e' ∨ e = 'E') ∧ (sg = [] ∨ sg = g!"+" ∨ sg = g!"-") ∧ DecDigits d ∧ exp = e :: sg ++ d)

/-- A hexadecimal digit and its value. -/
def HexDigit (c : Char) (n : Nat) : Prop := g!"0123456789abcdef"[n]? = some c ∨ g!"0123456789ABCDEF"[n]? = some c

/-- `\uXXXX` and the number it stands for. -/
def CodeUnit (s : Str) (n : Nat) : Prop :=
  ∃ a b c d w x y z, HexDigit a w ∧ HexDigit b x ∧ HexDigit c y ∧ HexDigit d z ∧ s = ['\\', 'u', a, b, c, d] ∧
    n = ((w * 16 + x) * 16 + y) * 16 + z

/-- The two-character escapes. -/
def shortEscapes : List (Char × Char) :=
  [('"', '"'), ('\\', '\\'), ('/', '/'), ('b', '\x08'), ('f', '\x0c'), ('n', '\n'), ('r', '\r'), ('t', '\t')]

def HighSurrogate (n : Nat) : Prop := 0xD800 ≤ n ∧ n ≤ 0xDBFF
def LowSurrogate (n : Nat) : Prop := 0xDC00 ≤ n ∧ n ≤ 0xDFFF

/-- The inside of a string literal: the text, and how it is written. A surrogate without its other half stands for U+FFFD. -/
inductive JChars : Str → Str → Prop
  | nil : JChars [] []
  | plain {c : Char} {t raw : Str} : c ≠ '"' → c ≠ '\\' → 0x20 ≤ c.toNat → JChars t raw → JChars (c :: t) (c :: raw)
  | short {e c : Char} {t raw : Str} : (e, c) ∈ shortEscapes → JChars t raw → JChars (c :: t) ('\\' :: e :: raw)
  | unit {u : Str} {n : Nat} {t raw : Str} : CodeUnit u n → ¬ HighSurrogate n → ¬ LowSurrogate n → JChars t raw →
      JChars (Char.ofNat n :: t) (u ++ raw)
  | pair {u w : Str} {n m : Nat} {t raw : Str} : CodeUnit u n → CodeUnit w m → HighSurrogate n → LowSurrogate m → JChars t raw →
      JChars (Char.ofNat (0x10000 + (n - 0xD800) * 0x400 + (m - 0xDC00)) :: t) (u ++ (w ++ raw))
  | alone {u : Str} {n : Nat} {t raw : Str} : CodeUnit u n → HighSurrogate n ∨ LowSurrogate n →
      (HighSurrogate n → ¬ ∃ w m rest, CodeUnit w m ∧ LowSurrogate m ∧ raw = w ++ rest) → JChars t raw →
      JChars ('�' :: t) (u ++ raw)

/-- A string literal. -/
def JString (t s : Str) : Prop := ∃ raw, JChars t raw ∧ s = '"' :: (raw ++ ['"'])

/-- What may stand between two tokens, and what may stand before a closing bracket that is not the first thing behind the
opening one. -/
structure Layout where
  gap : Str → Prop
  close : Str → Prop

mutual
/-- A text of a value. -/
def JText (L : Layout) : JVal → Str → Prop
  | .null, s => s = g!"null"
  | .bool b, s => s = if b then g!"true" else g!"false"
  | .num lit, s => JNumber lit ∧ s = lit
  | .str t, s => JString t s
  | .arr .nil, s => ∃ g, L.gap g ∧ s = '[' :: (g ++ [']'])
  | .arr (.cons v l), s => ∃ g a b, L.gap g ∧ JText L v a ∧ JElems L l b ∧ s = '[' :: (g ++ (a ++ b))
  | .obj .nil, s => ∃ g, L.gap g ∧ s = '{' :: (g ++ ['}'])
  | .obj (.cons k v m), s => ∃ g q h i a b, L.gap g ∧ JString k q ∧ L.gap h ∧ L.gap i ∧ JText L v a ∧ JMembs L m b ∧
      s = '{' :: (g ++ (q ++ (h ++ ':' :: (i ++ (a ++ b)))))
/-- The text of an array behind an element. -/
def JElems (L : Layout) : JList → Str → Prop
  | .nil, s => ∃ g, L.close g ∧ s = g ++ [']']
  | .cons v l, s => ∃ f g a b, L.gap f ∧ L.gap g ∧ JText L v a ∧ JElems L l b ∧ s = f ++ ',' :: (g ++ (a ++ b))
/-- The text of an object behind a member. -/
def JMembs (L : Layout) : JMembers → Str → Prop
  | .nil, s => ∃ g, L.close g ∧ s = g ++ ['}']
  | .cons k v m, s => ∃ f g q h i a b, L.gap f ∧ L.gap g ∧ JString k q ∧ L.gap h ∧ L.gap i ∧ JText L v a ∧ JMembs L m b ∧
      s = f ++ ',' :: (g ++ (q ++ (h ++ ':' :: (i ++ (a ++ b)))))
end

/-- White space. -/
def JBlank (s : Str) : Prop := ∀ c ∈ s, c = ' ' ∨ c = '\t' ∨ c = '\r' ∨ c = '\n'

/-- White space and closed comments. -/
inductive JGap : Str → Prop
  | nil : JGap []
  | space {c : Char} {s : Str} : (c = ' ' ∨ c = '\t' ∨ c = '\r' ∨ c = '\n') → JGap s → JGap (c :: s)
  | line {t s : Str} : '\n' ∉ t → JGap s → JGap ('/' :: '/' :: (t ++ '\n' :: s))
  | block {t s : Str} : ¬ g!"*/" <:+: t → JGap s → JGap ('/' :: '*' :: (t ++ '*' :: '/' :: s))

/-- JSON. -/
def jsonLayout : Layout := ⟨JBlank, JBlank⟩

/-- JSON with comments, and with an optional comma behind the last element or member. -/
def jsoncLayout : Layout := ⟨JGap, fun s => JGap s ∨ ∃ a b, JGap a ∧ JGap b ∧ s = a ++ ',' :: b⟩

/-- A JSON document. -/
def JsonDoc (v : JVal) (s : Str) : Prop := ∃ g a h, JBlank g ∧ JText jsonLayout v a ∧ JBlank h ∧ s = g ++ (a ++ h)

/-- A JSON document with comments; the last comment may be ended by the end of the file. -/
def JsoncDoc (v : JVal) (s : Str) : Prop :=
  ∃ g a h e, JGap g ∧ JText jsoncLayout v a ∧ JGap h ∧ (e = [] ∨ ∃ t, '\n' ∉ t ∧ e = '/' :: '/' :: t) ∧ s = g ++ (a ++ (h ++ e))

end Osv.Spec
