import Verif.Go.Xml
import Verif.Spec.JsonText
/-!
# How a document is written in XML

Grammar of XML 1.0 for what occurs in a pom: elements with attributes, text, references, CDATA, comments, processing instructions and a
document type declaration. Names are restricted to ASCII.
-/
namespace Osv.Spec.Markup
open Osv Str

/-- White space. -/
def Blank (s : Str) : Prop := ∀ c ∈ s, c = ' ' ∨ c = '\t' ∨ c = '\n' ∨ c = '\r'

/-- A character that may be written in a document (except for carriage returns, which are line ends). -/
def XmlChar (c : Char) : Prop :=
  c = '\t' ∨ c = '\n' ∨ (0x20 ≤ c.toNat ∧ c.toNat ≤ 0xFFFD) ∨ (0x10000 ≤ c.toNat ∧ c.toNat ≤ 0x10FFFF)

def NameStart (c : Char) : Prop := ('a' ≤ c ∧ c ≤ 'z') ∨ ('A' ≤ c ∧ c ≤ 'Z') ∨ c = '_'

/-- A name without a colon. -/
def SimpleName (s : Str) : Prop :=
  ∃ c r, s = c :: r ∧ NameStart c ∧ ∀ d ∈ r, NameStart d ∨ ('0' ≤ d ∧ d ≤ '9') ∨ d = '-' ∨ d = '.'

/-- A name as it is written, with its local part. -/
inductive QName : Str → Str → Prop
  | plain {n : Str} : SimpleName n → QName n n
  | prefixed {p n : Str} : SimpleName p → SimpleName n → QName (p ++ g!":" ++ n) n

/-- The number with these decimal digits. -/
inductive Decimal : Str → Nat → Prop
  | one {c : Char} {n : Nat} : c.toNat = 48 + n → n ≤ 9 → Decimal [c] n
  | more {s : Str} {m : Nat} {c : Char} {n : Nat} : Decimal s m → c.toNat = 48 + n → n ≤ 9 → Decimal (s ++ [c]) (10 * m + n)

/-- The number with these hexadecimal digits. -/
inductive Hexadecimal : Str → Nat → Prop
  | one {c : Char} {n : Nat} : HexDigit c n → Hexadecimal [c] n
  | more {s : Str} {m : Nat} {c : Char} {n : Nat} : Hexadecimal s m → HexDigit c n → Hexadecimal (s ++ [c]) (16 * m + n)

/-- A reference to a character. -/
inductive Ref : Char → Str → Prop
  | lt : Ref '<' g!"&lt;"
  | gt : Ref '>' g!"&gt;"
  | amp : Ref '&' g!"&amp;"
  | apos : Ref '\'' g!"&apos;"
  | quot : Ref '"' g!"&quot;"
  | code {c : Char} {ds : Str} : Decimal ds c.toNat → (XmlChar c ∨ c = '\r') → Ref c (g!"&#" ++ ds ++ g!";")
  | hex {c : Char} {ds : Str} : Hexadecimal ds c.toNat → (XmlChar c ∨ c = '\r') → Ref c (g!"&#x" ++ ds ++ g!";")

/-- Text, and how it may be written. Line ends may be `\n` or `\r\n`. -/
inductive Written : Str → Str → Prop
  | nil : Written [] []
  | char {c : Char} {s t : Str} : XmlChar c → c ≠ '<' → c ≠ '&' → Written s t → Written (c :: s) (c :: t)
  | line {s t : Str} : Written s t → Written ('\n' :: s) (g!"\r\n" ++ t)
  | ref {c : Char} {r s t : Str} : Ref c r → Written s t → Written (c :: s) (r ++ t)

/-- `sub` does not occur in `s`. -/
def Without (sub s : Str) : Prop := ∀ a b, s ≠ a ++ sub ++ b

/-- Attributes, each after white space. -/
inductive Attributes : Str → Prop
  | nil : Attributes []
  | cons {w n l w1 w2 v t rest : Str} {q : Char} : Blank w → w ≠ [] → QName n l → Blank w1 → Blank w2 → (q = '"' ∨ q = '\'') → Written v t →
      q ∉ t → Attributes rest → Attributes (w ++ n ++ w1 ++ g!"=" ++ w2 ++ [q] ++ t ++ [q] ++ rest)

/-- A comment. -/
def Comment (t : Str) : Prop := ∃ c, Without g!"--" (c ++ g!"-") ∧ t = g!"<!--" ++ c ++ g!"-->"

/-- A processing instruction other than the XML declaration. -/
def Instruction (t : Str) : Prop :=
  ∃ n c, SimpleName n ∧ n ≠ g!"xml" ∧ Without g!"?>" c ∧ (∀ d ∈ c.head?, d = ' ') ∧ t = g!"<?" ++ n ++ c ++ g!"?>"

/-- The contents of an element. -/
inductive Content : List XNode → Str → Prop
  | nil : Content [] []
  | text {s t u : Str} {rest : List XNode} : Written s t → t ≠ [] → Without g!"]]>" t → (u = [] ∨ ∃ r, u = '<' :: r) → Content rest u →
      Content (.text s :: rest) (t ++ u)
  | cdata {s u : Str} {rest : List XNode} : (∀ c ∈ s, XmlChar c) → Without g!"]]>" s → Content rest u →
      Content (.text s :: rest) (g!"<![CDATA[" ++ s ++ g!"]]>" ++ u)
  | comment {t u : Str} {rest : List XNode} : Comment t → Content rest u → Content (.other :: rest) (t ++ u)
  | instruction {t u : Str} {rest : List XNode} : Instruction t → Content rest u → Content (.other :: rest) (t ++ u)
  | element {q l a w w' t u : Str} {kids rest : List XNode} : QName q l → Attributes a → Blank w → Blank w' → Content kids t →
      Content rest u → Content (.elem l kids :: rest) (g!"<" ++ q ++ a ++ w ++ g!">" ++ t ++ g!"</" ++ q ++ w' ++ g!">" ++ u)
  | empty {q l a w u : Str} {rest : List XNode} : QName q l → Attributes a → Blank w → Content rest u →
      Content (.elem l [] :: rest) (g!"<" ++ q ++ a ++ w ++ g!"/>" ++ u)

/-- `UTF-8` in any case, in quotes. -/
def Utf8Name (t : Str) : Prop :=
  ∃ q a b c, (q = '"' ∨ q = '\'') ∧ (a = 'u' ∨ a = 'U') ∧ (b = 't' ∨ b = 'T') ∧ (c = 'f' ∨ c = 'F') ∧ t = [q, a, b, c, '-', '8', q]

/-- The XML declaration: the version, perhaps the encoding, and perhaps whether the document stands alone. -/
def Declaration (t : Str) : Prop :=
  ∃ w q enc alone w', Blank w ∧ w ≠ [] ∧ (q = '"' ∨ q = '\'') ∧
    (enc = [] ∨ ∃ w1 e, Blank w1 ∧ w1 ≠ [] ∧ Utf8Name e ∧ enc = w1 ++ g!"encoding=" ++ e) ∧
    (alone = [] ∨ ∃ w2 q2 a, Blank w2 ∧ w2 ≠ [] ∧ (q2 = '"' ∨ q2 = '\'') ∧ (a = g!"yes" ∨ a = g!"no") ∧
      alone = w2 ++ g!"standalone=" ++ [q2] ++ a ++ [q2]) ∧
    Blank w' ∧ t = g!"<?xml" ++ w ++ (g!"version=" ++ [q] ++ g!"1.0" ++ [q] ++ enc ++ alone ++ w') ++ g!"?>"

/-- What is in a document type declaration: declarations in angle brackets, texts in quotes, comments. -/
inductive Inner : Str → Prop
  | nil : Inner []
  | char {c : Char} {t : Str} : c ≠ '<' → c ≠ '>' → c ≠ '"' → c ≠ '\'' → Inner t → Inner (c :: t)
  | quoted {q : Char} {s t : Str} : (q = '"' ∨ q = '\'') → q ∉ s → Inner t → Inner (q :: s ++ q :: t)
  | comment {c t : Str} : Comment c → Inner t → Inner (c ++ t)
  | nested {s t : Str} : Inner s → (∀ u, s ≠ g!"!--" ++ u) → Inner t → Inner ('<' :: s ++ '>' :: t)

/-- What may come before the first element: a declaration, comments, instructions, a document type and white space. -/
inductive Prolog : Str → Prop
  | nil : Prolog []
  | declaration {d t : Str} : Declaration d → Prolog t → Prolog (d ++ t)
  | doctype {s t : Str} : Inner s → Prolog t → Prolog (g!"<!DOCTYPE" ++ s ++ g!">" ++ t)
  | comment {c t : Str} : Comment c → Prolog t → Prolog (c ++ t)
  | instruction {c t : Str} : Instruction c → Prolog t → Prolog (c ++ t)
  | blank {w t : Str} : Blank w → w ≠ [] → (t = [] ∨ ∃ r, t = '<' :: r) → Prolog t → Prolog (w ++ t)

/-- A document with this element, which is not closed at once; anything may come after it. -/
inductive Document : Str → List XNode → Str → Prop
  | mk {p q l a w w' t more : Str} {kids : List XNode} : Prolog p → QName q l → Attributes a → Blank w → Blank w' → Content kids t →
      Document l kids (p ++ (g!"<" ++ q ++ a ++ w ++ g!">" ++ t ++ g!"</" ++ q ++ w' ++ g!">" ++ more))

end Osv.Spec.Markup
