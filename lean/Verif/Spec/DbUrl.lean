import Verif.Spec.JsonText
/-!
# URLs of databases

How a text is written in a URL, and the parts of the URL of an API.
-/
namespace Osv.Spec
open Osv

/-- Bytes as `%XX`. -/
inductive Coded : List UInt8 → Str → Prop
  | nil : Coded [] []
  | byte {b : UInt8} {bs : List UInt8} {x y : Char} {t : Str} : HexDigit x (b.toNat / 16) → HexDigit y (b.toNat % 16) → Coded bs t →
      Coded (b :: bs) ('%' :: x :: y :: t)

/-- A character that may stand for itself in the path of a URL. -/
def UrlChar (c : Char) : Prop := 32 ≤ c.toNat ∧ c.toNat ≠ 127 ∧ c ≠ '%' ∧ c ≠ '?'

/-- The text `p` is written as `t` in the path of a URL: every character stands for itself or is written as the codes of its bytes
in UTF-8. -/
inductive Spelled : Str → Str → Prop
  | nil : Spelled [] []
  | plain {c : Char} {p t : Str} : UrlChar c → Spelled p t → Spelled (c :: p) (c :: t)
  | coded {c : Char} {p t u : Str} : Coded (String.utf8EncodeChar c) t → Spelled p u → Spelled (c :: p) (t ++ u)

/-- The elements of the path of a URL. -/
inductive SegsText : List Str → Str → Prop
  | nil : SegsText [] []
  | cons {s t u : Str} {ss : List Str} : Spelled s t → '/' ∉ t → SegsText ss u → SegsText (s :: ss) ('/' :: t ++ u)

/-- The scheme of a URL, in lower case. -/
def SchemeText (s : Str) : Prop :=
  ∃ c t, s = c :: t ∧ c ∈ g!"abcdefghijklmnopqrstuvwxyz" ∧ ∀ d ∈ t, d ∈ g!"abcdefghijklmnopqrstuvwxyz0123456789+-."

/-- A host name or address, perhaps with a port. -/
def HostText (s : Str) : Prop :=
  ∃ name port, name ≠ [] ∧ (∀ c ∈ name, c ∈ g!"abcdefghijklmnopqrstuvwxyzABCDEFGHIJKLMNOPQRSTUVWXYZ0123456789-._~") ∧
    (∀ c ∈ port, c ∈ g!"0123456789") ∧ (s = name ∨ s = name ++ ':' :: port)

/-- The query of a URL, if it has one. -/
def QueryText (q : Str) : Prop := q = [] ∨ ∃ t, q = '?' :: t ∧ ∀ c ∈ t, 32 ≤ c.toNat ∧ c.toNat ≠ 127

/-- A URL with its parts. There may be slashes after the path. -/
def ApiUrl (scheme host : Str) (segs : List Str) (query url : Str) : Prop :=
  SchemeText scheme ∧ HostText host ∧ QueryText query ∧
  ∃ t k, SegsText segs t ∧ url = scheme ++ g!"://" ++ host ++ t ++ List.replicate k '/' ++ query

end Osv.Spec
