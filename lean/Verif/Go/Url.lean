import Verif.Go.Str
/-!
# `url.Parse` (package `net/url` of Go 1.24), as far as `pkg/lockfile/parse-yarn-lock.go:123-147` uses it

Only the host, the raw query and the fragment are kept.  Simplifications:

* the host is the raw text of the authority: `parseHost` may reject it or decode escapes in it, but the outcome then is
  never one of the plain hosts the code compares it with, so both cases end like a different host;
* a decoded byte from 128 on is kept as the rune with that number.
-/
namespace Osv.Url
open Osv Str

/-- The parts of a URL that the code uses. -/
structure URL where
  host : Str := []
  rawQuery : Str := []
  fragment : Str := []
deriving DecidableEq, Repr

/-- Value of a hexadecimal digit. -/
def unhex (c : Char) : Option Nat :=
  let n := c.toNat
  if 48 ≤ n && n ≤ 57 then some (n - 48)
  else if 97 ≤ n && n ≤ 102 then some (n - 87)
  else if 65 ≤ n && n ≤ 70 then some (n - 55)
  else none

/-- `unescape`: `%XX` is decoded, other characters are kept; `none` is an error. With `plus`, as in query components,
`+` stands for a space. -/
def unescape (plus : Bool) : Str → Option Str
  | [] => some []
  | '%' :: a :: b :: s =>
    match unhex a, unhex b with
    | some x, some y => (unescape plus s).map (Char.ofNat (16 * x + y) :: ·)
    | _, _ => none
  | c :: s =>
    if c = '%' then none
    else (unescape plus s).map ((if plus && c == '+' then ' ' else c) :: ·)

/-- ASCII letter. -/
def isLetter (c : Char) : Bool :=
  let n := c.toNat
  (97 ≤ n && n ≤ 122) || (65 ≤ n && n ≤ 90)

/-- `getScheme` after the characters `acc`: the scheme and the rest; `none` is the error of a missing scheme. -/
def getScheme (raw acc : Str) : Str → Option (Str × Str)
  | [] => some ([], raw)
  | c :: s =>
    if isLetter c then getScheme raw (acc ++ [c]) s
    else if isDigit c || c == '+' || c == '-' || c == '.' then
      if acc.isEmpty then some ([], raw) else getScheme raw (acc ++ [c]) s
    else if c == ':' then (if acc.isEmpty then none else some (acc, s))
    else some ([], raw)

/-- `stringContainsCTLByte`. -/
def hasCTL (s : Str) : Bool := s.any fun c => c.toNat < 32 || c.toNat == 127

/-- `validUserinfo`. -/
def validUserinfo (s : Str) : Bool :=
  s.all fun c => isLetter c || isDigit c || g!"-._:~!$&'()*+,;=%@".contains c

/-- `parseAuthority`: the raw host, if the user information is valid. -/
def parseAuthority (a : Str) : Option Str :=
  match cutLast? '@' a with
  | none => some a
  | some (user, host) => if validUserinfo user && (unescape false user).isSome then some host else none

/-- The query is cut off first (`parse`, before looking at the authority). -/
def cutQuery (rest : Str) : Str × Str :=
  if hasSuffix rest g!"?" && (rest.filter (· == '?')).length == 1 then (rest.dropLast, [])
  else cut rest g!"?"

/-- `parse(rawURL, false)`: no fragment. -/
def parseNoFragment (raw : Str) : Option URL :=
  if hasCTL raw then none
  else if raw = g!"*" then some {}
  else match getScheme raw [] raw with
    | none => none
    | some (scheme, rest) =>
      let q := cutQuery rest
      if !hasPrefix q.1 g!"/" then
        if scheme ≠ [] then some { rawQuery := q.2 }
        else if contains (cut q.1 g!"/").1 g!":" then none
        else (unescape false q.1).map fun _ => { rawQuery := q.2 }
      else if hasPrefix q.1 g!"//" && (scheme ≠ [] || !hasPrefix q.1 g!"///") then
        let body := q.1.drop 2
        let authority := (cut body g!"/").1
        let path := body.drop authority.length
        match parseAuthority authority with
        | none => none
        | some host => (unescape false path).map fun _ => { host := host, rawQuery := q.2 }
      else (unescape false q.1).map fun _ => { rawQuery := q.2 }

/-- `url.Parse`; `none` is an error. -/
def parse (raw : Str) : Option URL :=
  let p := cut raw g!"#"
  match parseNoFragment p.1 with
  | none => none
  | some u => (unescape false p.2).map fun f => { u with fragment := f }

/-- One `key=value` of `ParseQuery`; errors are skipped by `URL.Query`. -/
def queryPair (piece : Str) : Option (Str × Str) :=
  if contains piece g!";" || piece.isEmpty then none
  else
    let kv := cut piece g!"="
    match unescape true kv.1, unescape true kv.2 with
    | some k, some v => some (k, v)
    | _, _ => none

/-- `u.Query()` as a list of pairs; `Has` and `Get` look for the first one with the key. -/
def query (u : URL) : List (Str × Str) := (splitChar '&' u.rawQuery).filterMap queryPair

example : parse g!"https://u:p@github.com/a/b?x=1&ref=v%31#frag" =
    some ⟨g!"github.com", g!"x=1&ref=v%31", g!"frag"⟩ := by decide
example : (query ⟨[], g!"x=1&ref=v%31", []⟩).lookup g!"ref" = some g!"v1" := by decide +kernel
example : parse g!"git@github.com:a/b.git" = none := by decide
example : parse g!"1.2.3" = some {} := by decide
example : parse g!"npm:foo@1" = some {} := by decide

end Osv.Url
