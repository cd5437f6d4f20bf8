import Verif.Go.Str
/-!
# XML text (`encoding/xml` of the standard library, a strict decoder without entities or character sets of its own)

`xmlRead` gives the first element of a document; what comes after it is not read by `xml.Unmarshal`.

Simplifications: characters that are not ASCII are accepted in names, whereas the library has a table of those that may occur in names.
Only local names of elements are kept, as the decoder compares only these for tags without a name space.
-/
namespace Osv
open Str

/-- A node of an XML document: an element, text (with CDATA and references resolved), or a comment, processing instruction or
directive. -/
inductive XNode where
  | elem (name : Str) (kids : List XNode)
  | text (s : Str)
  | other

namespace Xml

/-- `space`: the characters that are skipped inside of tags. -/
def isSpace (c : Char) : Bool := c == ' ' || c == '\t' || c == '\n' || c == '\r'

/-- `isInCharacterRange`; surrogates are no characters in the model. -/
def legal (c : Char) : Bool :=
  c == '\t' || c == '\n' || c == '\r' || (' ' ≤ c && c.toNat ≤ 0xFFFD) || (0x10000 ≤ c.toNat && c.toNat ≤ 0x10FFFF)

def isLetter (c : Char) : Bool := ('a' ≤ c && c ≤ 'z') || ('A' ≤ c && c ≤ 'Z')

/-- `isNameByte` and the characters that are not ASCII. -/
def nameChar (c : Char) : Bool :=
  isLetter c || isDigit c || c == '_' || c == ':' || c == '.' || c == '-' || 0x80 ≤ c.toNat

/-- The first character of a name (`isName`). -/
def nameStart (c : Char) : Bool := isLetter c || c == '_' || c == ':' || 0x80 ≤ c.toNat

/-- `name`: a name and the text after it. -/
def name (s : Str) : Option (Str × Str) :=
  match s.takeWhile nameChar with
  | [] => none
  | c :: n => if nameStart c then some (c :: n, s.dropWhile nameChar) else none

/-- `nsname`: a name with at most one colon. -/
def qname (s : Str) : Option (Str × Str) :=
  match name s with
  | none => none
  | some (n, r) => if (n.filter (· == ':')).length ≤ 1 then some (n, r) else none

/-- The part of `nsname` that gives the local name. -/
def localName (n : Str) : Str :=
  match cut? g!":" n with
  | none => n
  | some (a, b) => if a = [] || b = [] then n else b

def isHex (c : Char) : Bool := isDigit c || ('a' ≤ c && c ≤ 'f') || ('A' ≤ c && c ≤ 'F')

def hexVal (c : Char) : Nat :=
  if isDigit c then c.toNat - 48 else if 'a' ≤ c && c ≤ 'f' then c.toNat - 87 else c.toNat - 55

/-- The number written with these digits. -/
def number (base : Nat) (s : Str) : Nat := s.foldl (fun n c => n * base + hexVal c) 0

/-- `string(rune(n))` for `n ≤ unicode.MaxRune`: surrogates become U+FFFD. -/
def runeOf (n : Nat) : Option Char :=
  if n ≤ 0x10FFFF then some (if 0xD800 ≤ n && n ≤ 0xDFFF then '�' else Char.ofNat n) else none

/-- The part of `text` for references: what is between `&` and `;`. -/
def entity (body : Str) : Option Char :=
  if body = g!"lt" then some '<'
  else if body = g!"gt" then some '>'
  else if body = g!"amp" then some '&'
  else if body = g!"apos" then some '\''
  else if body = g!"quot" then some '"'
  else match body with
    | '#' :: 'x' :: ds => if ds ≠ [] && ds.all isHex then runeOf (number 16 ds) else none
    | '#' :: ds => if ds ≠ [] && ds.all isDigit then runeOf (number 10 ds) else none
    | _ => none

/-- `text`, for the characters of a text or an attribute: references are resolved and line ends made uniform. `fuel` bounds the number
of steps. -/
def unescape : Nat → Str → Option Str
  | 0, _ => none
  | _ + 1, [] => some []
  | fuel + 1, '&' :: r => match cut? g!";" r with
    | none => none
    | some (body, rest) => match entity body with
      | none => none
      | some c => if legal c then (unescape fuel rest).map (c :: ·) else none
  | fuel + 1, '\r' :: '\n' :: r => (unescape fuel r).map ('\n' :: ·)
  | fuel + 1, '\r' :: r => (unescape fuel r).map ('\n' :: ·)
  | fuel + 1, c :: r => if legal c then (unescape fuel r).map (c :: ·) else none

/-- `text` inside of `CDATA`, without references. -/
def uniform : Str → Option Str
  | [] => some []
  | '\r' :: '\n' :: r => (uniform r).map ('\n' :: ·)
  | '\r' :: r => (uniform r).map ('\n' :: ·)
  | c :: r => if legal c then (uniform r).map (c :: ·) else none

/-- The attributes of a tag up to its end, given the text after the name: whether the element is empty, and the text after the tag.
`fuel` bounds the number of attributes. -/
def attrs : Nat → Str → Option (Bool × Str)
  | 0, _ => none
  | fuel + 1, s => match s.dropWhile isSpace with
    | '/' :: '>' :: r => some (true, r)
    | '/' :: _ => none
    | '>' :: r => some (false, r)
    | r => match qname r with
      | none => none
      | some (_, r) => match r.dropWhile isSpace with
        | '=' :: r => match r.dropWhile isSpace with
          | q :: r =>
            if q = '"' ∨ q = '\'' then match cut? [q] r with
              | none => none
              | some (v, r) => if v.any (· == '<') || (unescape (v.length + 1) v).isNone then none else attrs fuel r
            else none
          | [] => none
        | _ => none

/-- `procInst`: a value in the XML declaration. `fuel` bounds the number of occurrences that are tried. -/
def procInst (param : Str) : Nat → Str → Str
  | 0, _ => []
  | fuel + 1, s => match cut? (param ++ g!"=") s with
    | none => []
    | some (_, []) => []
    | some (_, c :: r) =>
      if c = '\'' ∨ c = '"' then match cut? [c] r with
        | none => []
        | some (v, _) => v
      else procInst param fuel r

/-- The declaration is accepted: version 1.0 and UTF-8. -/
def declaration (content : Str) : Bool :=
  let ver := procInst g!"version" (content.length + 1) content
  let enc := procInst g!"encoding" (content.length + 1) content
  (ver = [] || ver = g!"1.0") && (enc = [] || toLower enc = g!"utf-8")

/-- A directive up to its end: `quote` is the quote that is open, `depth` the number of open angle brackets. `fuel` bounds the number
of steps. -/
def directive : Nat → Option Char → Nat → Str → Option Str
  | 0, _, _, _ => none
  | _ + 1, _, _, [] => none
  | fuel + 1, some q, depth, c :: r => directive fuel (if c = q then none else some q) depth r
  | fuel + 1, none, depth, c :: r =>
    if c = '>' then
      if depth = 0 then some r else directive fuel none (depth - 1) r
    else if c = '\'' ∨ c = '"' then directive fuel (some c) depth r
    else if c = '<' then
      if hasPrefix r g!"!--" then match cut? g!"-->" (r.drop 3) with
        | none => none
        | some (_, r) => directive fuel none depth r
      else directive fuel none (depth + 1) r
    else directive fuel none depth r

inductive Tok where
  | start (name : Str) (empty : Bool)
  | stop (name : Str)
  | text (s : Str)
  | other
deriving DecidableEq, Repr

/-- `rawToken`, after `<`. -/
def markup : Str → Option (Tok × Str)
  | '/' :: r => match qname r with
    | none => none
    | some (n, r) => match r.dropWhile isSpace with
      | '>' :: r => some (.stop n, r)
      | _ => none
  | '?' :: r => match name r with
    | none => none
    | some (n, r) => match cut? g!"?>" (r.dropWhile isSpace) with
      | none => none
      | some (content, r) => if n = g!"xml" && !declaration content then none else some (.other, r)
  | '!' :: '-' :: r => match r with
    | '-' :: r => match cut? g!"--" r with
      | some (_, '>' :: r) => some (.other, r)
      | _ => none
    | _ => none
  | '!' :: '[' :: r =>
    if hasPrefix r g!"CDATA[" then match cut? g!"]]>" (r.drop 6) with
      | none => none
      | some (s, r) => (uniform s).map fun t => (.text t, r)
    else none
  | '!' :: [] => none
  | '!' :: _ :: r => (directive (r.length + 1) none 0 r).map fun r => (.other, r)
  | r => match qname r with
    | none => none
    | some (n, r) => (attrs (r.length + 1) r).map fun p => (.start n p.1, p.2)

/-- `rawToken`; `none` is an error or the end of the text. -/
def token : Str → Option (Tok × Str)
  | [] => none
  | '<' :: r => markup r
  | s =>
    let raw := s.takeWhile (· != '<')
    if contains raw g!"]]>" then none
    else (unescape (raw.length + 1) raw).map fun t => (.text t, s.dropWhile (· != '<'))

/-- `Token` up to the next end tag on this level: the nodes, the name in the end tag and the text after it. `fuel` bounds the number
of tokens. -/
def kids : Nat → Str → Option (List XNode × Str × Str)
  | 0, _ => none
  | fuel + 1, s => match token s with
    | none => none
    | some (.stop n, r) => some ([], n, r)
    | some (.text t, r) => (kids fuel r).map fun p => (.text t :: p.1, p.2)
    | some (.other, r) => (kids fuel r).map fun p => (.other :: p.1, p.2)
    | some (.start n true, r) => (kids fuel r).map fun p => (.elem (localName n) [] :: p.1, p.2)
    | some (.start n false, r) => match kids fuel r with
      | none => none
      | some (k, n', r) => if n = n' then (kids fuel r).map fun p => (.elem (localName n) k :: p.1, p.2) else none

/-- The first element of a document, with its local name and what is in it. `fuel` as above. -/
def root : Nat → Str → Option (Str × List XNode)
  | 0, _ => none
  | fuel + 1, s => match token s with
    | none => none
    | some (.stop _, _) => none
    | some (.text _, r) => root fuel r
    | some (.other, r) => root fuel r
    | some (.start n true, _) => some (localName n, [])
    | some (.start n false, r) => match kids (r.length + 1) r with
      | none => none
      | some (k, n', _) => if n = n' then some (localName n, k) else none

/-- The first element of the document. -/
def read (s : Str) : Option (Str × List XNode) := root (s.length + 1) s

end Xml
end Osv
