import Verif.Go.Url
import Verif.Go.Path
/-!
# `url.ParseRequestURI` and `URL.String` (package `net/url` of Go 1.24)

As used for the URLs of databases (`internal/configer/load.go:52`, `pkg/database/dir.go:38`, `pkg/database/api.go:42`,
`pkg/database/api-check.go:33-39`, `pkg/database/api-fetch.go:12-18`).

Simplification: escapes are decoded to bytes, and the bytes are read as UTF-8. A byte that does not belong to a character is kept
as the character with that number, where Go keeps the byte.
-/
namespace Osv.Url
open Osv Str

/-- Bytes of a text. -/
def bytesOf (s : Str) : List UInt8 := s.flatMap String.utf8EncodeChar

/-- The text of some bytes. A character is taken where it is encoded like that. -/
def textOf : List UInt8 → Str
  | a :: b :: c :: d :: s =>
    let v := (a.toNat % 8) * 262144 + (b.toNat % 64) * 4096 + (c.toNat % 64) * 64 + d.toNat % 64
    let w := (a.toNat % 16) * 4096 + (b.toNat % 64) * 64 + c.toNat % 64
    let u := (a.toNat % 32) * 64 + b.toNat % 64
    if String.utf8EncodeChar (Char.ofNat v) = [a, b, c, d] then Char.ofNat v :: textOf s
    else if String.utf8EncodeChar (Char.ofNat w) = [a, b, c] then Char.ofNat w :: textOf (d :: s)
    else if String.utf8EncodeChar (Char.ofNat u) = [a, b] then Char.ofNat u :: textOf (c :: d :: s)
    else Char.ofNat a.toNat :: textOf (b :: c :: d :: s)
  | [a, b, c] =>
    let w := (a.toNat % 16) * 4096 + (b.toNat % 64) * 64 + c.toNat % 64
    let u := (a.toNat % 32) * 64 + b.toNat % 64
    if String.utf8EncodeChar (Char.ofNat w) = [a, b, c] then [Char.ofNat w]
    else if String.utf8EncodeChar (Char.ofNat u) = [a, b] then [Char.ofNat u, Char.ofNat c.toNat]
    else Char.ofNat a.toNat :: textOf [b, c]
  | [a, b] =>
    let u := (a.toNat % 32) * 64 + b.toNat % 64
    if String.utf8EncodeChar (Char.ofNat u) = [a, b] then [Char.ofNat u] else [Char.ofNat a.toNat, Char.ofNat b.toNat]
  | [a] => [Char.ofNat a.toNat]
  | [] => []

/-- Kinds of parts of a URL (`encoding`), as far as they are used here. -/
inductive Part where
  | path | user | host | zone
deriving DecidableEq, Repr

/-- `shouldEscape`. -/
def shouldEscape (part : Part) (c : Char) : Bool :=
  if isLetter c || isDigit c then false
  else if (part = .host || part = .zone) && g!"!$&'()*+,;=:[]<>\"".contains c then false
  else if g!"-_.~".contains c then false
  else if g!"$&+,/:;=?@".contains c then
    match part with
    | .path => c == '?'
    | .user => g!"@/?:".contains c
    | _ => true
  else true

/-- Whether `unescape` accepts the escape `%ab`. -/
def escapeOK (part : Part) (a b : Char) (x y : Nat) : Bool :=
  match part with
  | .host => 8 ≤ x || (a == '2' && b == '5')
  | .zone => (a == '2' && b == '5') || 16 * x + y == 32 || !(shouldEscape .host (Char.ofNat (16 * x + y)))
  | _ => true

/-- `unescape`, to bytes; `none` is an error. -/
def unescapeBytes (part : Part) : Str → Option (List UInt8)
  | [] => some []
  | '%' :: a :: b :: s =>
    match unhex a, unhex b with
    | some x, some y => if escapeOK part a b x y then (unescapeBytes part s).map (UInt8.ofNat (16 * x + y) :: ·) else none
    | _, _ => none
  | c :: s =>
    if c = '%' then none
    else if (part = .host || part = .zone) && c.toNat < 128 && shouldEscape part c then none
    else (unescapeBytes part s).map (String.utf8EncodeChar c ++ ·)

/-- `unescape`. -/
def unescapePart (part : Part) (s : Str) : Option Str := (unescapeBytes part s).map textOf

/-- The digit `upperhex[n]`. -/
def upperHex (n : Nat) : Char := g!"0123456789ABCDEF".getD n '0'

/-- `escape`: every byte that `shouldEscape` becomes `%XX`. Bytes of characters outside ASCII always do. -/
def escape (part : Part) (s : Str) : Str :=
  s.flatMap fun c =>
    if shouldEscape part c then
      (String.utf8EncodeChar c).flatMap fun b => ['%', upperHex (b.toNat / 16), upperHex (b.toNat % 16)]
    else [c]

/-- `Userinfo`. -/
structure User where
  name : Str
  password : Option Str
deriving DecidableEq, Repr

/-- `URL`, without the fragment, which `ParseRequestURI` never sets. -/
structure Request where
  scheme : Str := []
  opaquePart : Str := []
  user : Option User := none
  host : Str := []
  path : Str := []
  rawPath : Str := []
  omitHost : Bool := false
  forceQuery : Bool := false
  rawQuery : Str := []
deriving DecidableEq, Repr

/-- `validOptionalPort`. -/
def validPort : Str → Bool
  | [] => true
  | c :: s => c == ':' && s.all isDigit

/-- `parseHost`. -/
def parseHost (host : Str) : Option Str :=
  if hasPrefix host g!"[" then
    match cutLast? ']' host with
    | none => none
    | some (inner, port) =>
      if !validPort port then none
      else match cut? g!"%25" inner with
        | some (h1, z) => do
          let a ← unescapePart .host h1
          let b ← unescapePart .zone (g!"%25" ++ z)
          let c ← unescapePart .host (']' :: port)
          some (a ++ b ++ c)
        | none => unescapePart .host host
  else match cutLast? ':' host with
    | some (_, port) => if validPort (':' :: port) then unescapePart .host host else none
    | none => unescapePart .host host

/-- `parseAuthority`. -/
def parseAuthorityFull (a : Str) : Option (Option User × Str) :=
  match cutLast? '@' a with
  | none => (parseHost a).map fun h => (none, h)
  | some (user, host) => do
    let h ← parseHost host
    if !validUserinfo user then none
    else match cut? g!":" user with
      | none => (unescapePart .user user).map fun u => (some ⟨u, none⟩, h)
      | some (u, p) => do
        let u ← unescapePart .user u
        let p ← unescapePart .user p
        some (some ⟨u, some p⟩, h)

/-- `setPath`. -/
def setPath (u : Request) (p : Str) : Option Request :=
  (unescapePart .path p).map fun path => { u with path := path, rawPath := if p = escape .path path then [] else p }

/-- `url.ParseRequestURI`; `none` is an error. -/
def parseRequest (raw : Str) : Option Request :=
  if hasCTL raw then none
  else if raw = [] then none
  else if raw = g!"*" then some { path := g!"*" }
  else match getScheme raw [] raw with
    | none => none
    | some (scheme, rest) =>
      let force := hasSuffix rest g!"?" && (rest.filter (· == '?')).length == 1
      let q := cutQuery rest
      let u : Request := { scheme := Str.toLower scheme, forceQuery := force, rawQuery := q.2 }
      if !hasPrefix q.1 g!"/" then
        if scheme ≠ [] then some { u with opaquePart := q.1 } else none
      else if scheme ≠ [] && hasPrefix q.1 g!"//" then
        let body := q.1.drop 2
        let authority := (cut body g!"/").1
        match parseAuthorityFull authority with
        | none => none
        | some (user, host) => setPath { u with user := user, host := host } (body.drop authority.length)
      else setPath { u with omitHost := scheme ≠ [] } q.1

/-- `validEncoded` for paths. -/
def validEncoded (s : Str) : Bool := s.all fun c => g!"!$&'()*+,;=:@[]%".contains c || !shouldEscape .path c

/-- `URL.EscapedPath`. -/
def Request.escapedPath (u : Request) : Str :=
  if u.rawPath ≠ [] && validEncoded u.rawPath && unescapePart .path u.rawPath == some u.path then u.rawPath
  else if u.path = g!"*" then g!"*"
  else escape .path u.path

/-- `Userinfo.String`. -/
def User.string (u : User) : Str :=
  escape .user u.name ++ (match u.password with | none => [] | some p => ':' :: escape .user p)

/-- `URL.String`. -/
def Request.string (u : Request) : Str :=
  let s := if u.scheme = [] then [] else u.scheme ++ g!":"
  let s := if u.opaquePart ≠ [] then s ++ u.opaquePart
    else
      let s :=
        if u.scheme ≠ [] || u.host ≠ [] || u.user.isSome then
          if u.omitHost && u.host = [] && u.user.isNone then s
          else
            s ++ (if u.host ≠ [] || u.path ≠ [] || u.user.isSome then g!"//" else []) ++
              (match u.user with | none => [] | some ui => ui.string ++ g!"@") ++ escape .host u.host
        else s
      let p := u.escapedPath
      let s := if p ≠ [] && !hasPrefix p g!"/" && u.host ≠ [] then s ++ g!"/" else s
      let s := if s = [] && contains (cut p g!"/").1 g!":" then g!"./" else s
      s ++ p
  s ++ (if u.forceQuery || u.rawQuery ≠ [] then g!"?" ++ u.rawQuery else [])

/-- Whether `url.ParseRequestURI` succeeds. -/
def validRequest (raw : Str) : Bool := (parseRequest raw).isSome

/-- The path of a URL. -/
def requestPath (raw : Str) : Option Str := (parseRequest raw).map (·.path)

example : requestPath g!"file:/../relative/path/to/dir" = some g!"/../relative/path/to/dir" := by decide +kernel
example : requestPath g!"file:////root/path/to/dir" = some g!"//root/path/to/dir" := by decide +kernel
example : requestPath g!"file://a/b" = some g!"/b" := by decide +kernel
example : requestPath g!"file:a/b" = some [] := by decide +kernel
example : requestPath g!"file:/%C3%A9%e2%82%ac?x" = some g!"/é€" := by decide +kernel
example : requestPath g!"a/b" = none := by decide +kernel
example : (parseRequest g!"https://a:b@[::1%25en0]:80/x(y)%2Fz?q").map Request.string =
    some g!"https://a:b@[::1%25en0]:80/x(y)%2Fz?q" := by decide +kernel
example : (parseRequest g!"https://h:8a/").isNone ∧ (parseRequest g!"https://h h/").isNone ∧ (parseRequest g!"https://%41/").isNone := by
  decide +kernel

end Osv.Url
