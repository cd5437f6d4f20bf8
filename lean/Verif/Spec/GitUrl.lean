import Verif.Spec.DbUrl
/-!
# URLs of git hosts

`scheme://user@host/path?query#fragment`, where characters may be written as `%XX`.
-/
namespace Osv.Spec
open Osv

/-- The text `s` is written as `t`: every character stands for itself if it is `ok`, or is an ASCII character written as its code. With
`plus` a space may be written as `+`. -/
inductive Shown (plus : Bool) (ok : Char → Prop) : Str → Str → Prop
  | nil : Shown plus ok [] []
  | char {c : Char} {s t : Str} : ok c → c ≠ '%' → (plus = true → c ≠ '+') → Shown plus ok s t → Shown plus ok (c :: s) (c :: t)
  | code {c x y : Char} {s t : Str} : c.toNat < 128 → HexDigit x (c.toNat / 16) → HexDigit y (c.toNat % 16) → Shown plus ok s t →
      Shown plus ok (c :: s) ('%' :: x :: y :: t)
  | space {s t : Str} : plus = true → Shown plus ok s t → Shown plus ok (' ' :: s) ('+' :: t)

/-- A printable character that is none of these. -/
def Visible (no : Str) (c : Char) : Prop := 32 ≤ c.toNat ∧ c.toNat ≠ 127 ∧ c ∉ no

/-- The user, with `@`, if there is one. -/
def UserPart (t : Str) : Prop :=
  t = [] ∨ ∃ s u, Shown false (· ∈ g!"abcdefghijklmnopqrstuvwxyzABCDEFGHIJKLMNOPQRSTUVWXYZ0123456789-._:~!$&'()*+,;=@") s u ∧ t = u ++ g!"@"

/-- The path, if there is one. -/
def UrlPath (t : Str) : Prop := t = [] ∨ ∃ s u, Shown false (Visible g!"?#") s u ∧ t = '/' :: u

/-- One part of a query. -/
def PairText (p : Str × Str) (t : Str) : Prop :=
  ∃ a b, Shown true (Visible g!"&;#=") p.1 a ∧ Shown true (Visible g!"&;#") p.2 b ∧ t = a ++ '=' :: b

/-- The pairs of a query. -/
inductive PairsText : List (Str × Str) → Str → Prop
  | one {p : Str × Str} {t : Str} : PairText p t → PairsText [p] t
  | cons {p : Str × Str} {t u : Str} {ps : List (Str × Str)} : PairText p t → PairsText ps u → PairsText (p :: ps) (t ++ '&' :: u)

/-- The query with its mark, if there is one. -/
def QueryPart (ps : List (Str × Str)) (t : Str) : Prop := (ps = [] ∧ t = []) ∨ ∃ u, PairsText ps u ∧ t = '?' :: u

/-- The fragment with its mark, if there is one. -/
def FragmentPart (f t : Str) : Prop := (f = [] ∧ t = []) ∨ ∃ u, Shown false (fun _ => True) f u ∧ t = '#' :: u

/-- A URL with this host, query and fragment. -/
def GitUrl (host : Str) (pairs : List (Str × Str)) (fragment url : Str) : Prop :=
  ∃ scheme user path query frag, SchemeText scheme ∧ UserPart user ∧ UrlPath path ∧ QueryPart pairs query ∧ FragmentPart fragment frag ∧
    url = scheme ++ g!"://" ++ user ++ host ++ path ++ query ++ frag

/-- The first `ref` of the query is named, or the fragment. -/
def NamedBy (pairs : List (Str × Str)) (fragment c : Str) : Prop :=
  (∃ pre post, pairs = pre ++ (g!"ref", c) :: post ∧ ∀ p ∈ pre, p.1 ≠ g!"ref") ∨ ((∀ p ∈ pairs, p.1 ≠ g!"ref") ∧ c = fragment)

end Osv.Spec
