import Verif.Spec.DbUrl
/-!
# Request URIs

A grammar of the URIs that may be given as the URL of a database, with the parts that they have.
-/
namespace Osv.Spec
open Osv

/-- Kinds of parts of a URI, which differ in what may be written in them and how. -/
inductive UriKind where
  | path | user | host | zone
deriving DecidableEq, Repr

/-- Characters of hosts. -/
def uriHostChars : Str := g!"abcdefghijklmnopqrstuvwxyzABCDEFGHIJKLMNOPQRSTUVWXYZ0123456789-_.~!$&'()*+,;=:[]<>\""

/-- Characters of user information. -/
def uriUserChars : Str := g!"abcdefghijklmnopqrstuvwxyzABCDEFGHIJKLMNOPQRSTUVWXYZ0123456789-._:~!$&'()*+,;=%@"

/-- Characters that stand for themselves. In hosts and zones they are the ones listed and those outside ASCII. -/
def UriPlain : UriKind → Char → Prop
  | .path, c | .user, c => c ≠ '%'
  | .host, c | .zone, c => 128 ≤ c.toNat ∨ c ∈ uriHostChars

/-- Bytes that may be written as `%XX`. -/
def UriByte : UriKind → Nat → Prop
  | .path, _ | .user, _ => True
  | .host, n => 128 ≤ n ∨ n = 37
  | .zone, n => n = 37 ∨ n = 32 ∨ ∃ c ∈ uriHostChars, c.toNat = n

/-- A part that may be written. -/
inductive UriOk (k : UriKind) : Str → Prop
  | nil : UriOk k []
  | plain {c : Char} {t : Str} : UriPlain k c → UriOk k t → UriOk k (c :: t)
  | byte {x y : Char} {a b : Nat} {t : Str} : HexDigit x a → HexDigit y b → UriByte k (16 * a + b) → UriOk k t → UriOk k ('%' :: x :: y :: t)

/-- The text `p` is written as `t`: every character stands for itself or is written as the codes of its bytes in UTF-8. -/
inductive UriSpelled (k : UriKind) : Str → Str → Prop
  | nil : UriSpelled k [] []
  | plain {c : Char} {p t : Str} : UriPlain k c → UriSpelled k p t → UriSpelled k (c :: p) (c :: t)
  | coded {c : Char} {p t u : Str} : Coded (String.utf8EncodeChar c) t → (∀ b ∈ String.utf8EncodeChar c, UriByte k b.toNat) →
      UriSpelled k p u → UriSpelled k (c :: p) (t ++ u)

/-- A scheme. -/
def UriScheme (s : Str) : Prop :=
  ∃ c t, s = c :: t ∧ c ∈ g!"abcdefghijklmnopqrstuvwxyzABCDEFGHIJKLMNOPQRSTUVWXYZ" ∧
    ∀ d ∈ t, d ∈ g!"abcdefghijklmnopqrstuvwxyzABCDEFGHIJKLMNOPQRSTUVWXYZ0123456789+-."

/-- Digits, perhaps none. -/
def UriDigits (s : Str) : Prop := ∀ c ∈ s, c ∈ g!"0123456789"

/-- A port after a host in brackets, if there is one. -/
def UriPort (s : Str) : Prop := s = [] ∨ ∃ n, s = ':' :: n ∧ UriDigits n

section
/- How texts are written in the parts of each kind. -/
variable (D : UriKind → Str → Str → Prop)

/-- Hosts: their texts and how they are written. A name ends with its port if there is a colon in it. An address is in brackets;
after the code of `%` it may have a zone. -/
inductive UriHost : Str → Str → Prop
  | name {h t : Str} : (∀ r, t ≠ '[' :: r) → (∀ a b, t = a ++ ':' :: b → ':' ∉ b → UriDigits b) → D .host h t → UriHost h t
  | address {h i p : Str} : UriPort p → (∀ a b, '[' :: i ≠ a ++ g!"%25" ++ b) → D .host h ('[' :: i ++ ']' :: p) →
      UriHost h ('[' :: i ++ ']' :: p)
  | zone {h z e i t p : Str} : UriPort p → (∀ a b, '[' :: i ≠ a ++ g!"%25" ++ b) → D .host h ('[' :: i) → D .zone z t →
      D .host e (']' :: p) → UriHost (h ++ '%' :: z ++ e) ('[' :: i ++ g!"%25" ++ t ++ ']' :: p)

/-- User information: the name, the password, and how they are written. -/
inductive UriUser : Str → Option Str → Str → Prop
  | name {n t : Str} : (∀ c ∈ t, c ∈ uriUserChars) → ':' ∉ t → D .user n t → UriUser n none t
  | password {n p t u : Str} : (∀ c ∈ t, c ∈ uriUserChars) → ':' ∉ t → (∀ c ∈ u, c ∈ uriUserChars) → D .user n t → D .user p u →
      UriUser n (some p) (t ++ ':' :: u)

/-- Hosts, perhaps with user information before them. -/
inductive UriAuthority : Option (Str × Option Str) → Str → Str → Prop
  | host {h t : Str} : '@' ∉ t → UriHost D h t → UriAuthority none h t
  | user {n : Str} {p : Option Str} {h u t : Str} : UriUser D n p u → '@' ∉ t → UriHost D h t → UriAuthority (some (n, p)) h (u ++ '@' :: t)

/-- Parts of a URI. -/
structure UriParts where
  scheme : Str := []
  /-- what follows the scheme if that does not begin with a slash -/
  rest : Str := []
  user : Option (Str × Option Str) := none
  host : Str := []
  path : Str := []
  /-- a path follows the scheme -/
  hostless : Bool := false
  query : Option Str := none
deriving DecidableEq, Repr

/-- How the query is written. -/
def uriQuery : Option Str → Str
  | none => []
  | some q => '?' :: q

/-- URIs and their parts. The scheme is given in lower case. -/
inductive RequestUri : UriParts → Str → Prop
  | star : RequestUri { path := g!"*" } g!"*"
  | path {p t : Str} {q : Option Str} : '?' ∉ '/' :: t → D .path p ('/' :: t) → RequestUri { path := p, query := q } ('/' :: t ++ uriQuery q)
  | bare {s r : Str} {q : Option Str} : UriScheme s → '?' ∉ r → (∀ t, r ≠ '/' :: t) →
      RequestUri { scheme := s.map Char.toLower, rest := r, query := q } (s ++ ':' :: (r ++ uriQuery q))
  | rooted {s p t : Str} {q : Option Str} : UriScheme s → '?' ∉ '/' :: t → (∀ u, t ≠ '/' :: u) → D .path p ('/' :: t) →
      RequestUri { scheme := s.map Char.toLower, path := p, hostless := true, query := q } (s ++ ':' :: ('/' :: t ++ uriQuery q))
  | full {s a h p t : Str} {u : Option (Str × Option Str)} {q : Option Str} : UriScheme s → '/' ∉ a → '?' ∉ a → UriAuthority D u h a →
      (t = [] ∨ ∃ r, t = '/' :: r) → '?' ∉ t → D .path p t →
      RequestUri { scheme := s.map Char.toLower, user := u, host := h, path := p, query := q } (s ++ ':' :: (g!"//" ++ a ++ t ++ uriQuery q))
end

/-- Characters of URIs. -/
def UriChars (s : Str) : Prop := ∀ c ∈ s, 32 ≤ c.toNat ∧ c.toNat ≠ 127

/-- Texts that are URIs. -/
def IsRequestUri (s : Str) : Prop := UriChars s ∧ ∃ parts, RequestUri (fun k _ t => UriOk k t) parts s

/-- URIs whose parts are texts. -/
def UriOf (parts : UriParts) (s : Str) : Prop := UriChars s ∧ RequestUri UriSpelled parts s

end Osv.Spec
