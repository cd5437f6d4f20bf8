import Verif.Go.Str
/-!
# JSON (`encoding/json`)

Syntax as accepted by Go's scanner, and the compact output of `json.Marshal`.  Numbers keep their literal
text; object members keep their order and duplicates.  Simplifications: text is valid UTF-8 (one element per
rune), and the nesting limit of 10000 is not modelled.
-/
namespace Osv

mutual
/-- A JSON document. -/
inductive JVal where
  | null
  | bool (b : Bool)
  | num (lit : Str)
  | str (s : Str)
  | arr (l : JList)
  | obj (m : JMembers)
/-- Elements of an array. -/
inductive JList where
  | nil
  | cons (v : JVal) (l : JList)
/-- Members of an object. -/
inductive JMembers where
  | nil
  | cons (k : Str) (v : JVal) (m : JMembers)
end

def JList.toList : JList → List JVal
  | .nil => []
  | .cons v l => v :: l.toList

def JMembers.toList : JMembers → List (Str × JVal)
  | .nil => []
  | .cons k v m => (k, v) :: m.toList

namespace Json

/-- `isSpace` of `encoding/json/scanner.go`. -/
def ws (c : Char) : Bool := c == ' ' || c == '\t' || c == '\r' || c == '\n'

def skipWs (s : Str) : Str := s.dropWhile ws

def isHex (c : Char) : Bool :=
  ('0' ≤ c && c ≤ '9') || ('a' ≤ c && c ≤ 'f') || ('A' ≤ c && c ≤ 'F')

/-- The scanner inside a string: the raw text up to the closing quote, and what follows. -/
def scanStr : Str → Option (Str × Str)
  | [] => none
  | '"' :: r => some ([], r)
  | '\\' :: 'u' :: a :: b :: c :: d :: r =>
    if isHex a && isHex b && isHex c && isHex d then
      (scanStr r).map fun x => ('\\' :: 'u' :: a :: b :: c :: d :: x.1, x.2)
    else none
  | '\\' :: e :: r =>
    if e == '"' || e == '\\' || e == '/' || e == 'b' || e == 'f' || e == 'n' || e == 'r' || e == 't' then
      (scanStr r).map fun x => ('\\' :: e :: x.1, x.2)
    else none
  | '\\' :: [] => none
  | c :: r => if c.toNat < 0x20 then none else (scanStr r).map fun x => (c :: x.1, x.2)

def hexVal (c : Char) : Nat :=
  if '0' ≤ c && c ≤ '9' then c.toNat - 48
  else if 'a' ≤ c && c ≤ 'f' then c.toNat - 87
  else if 'A' ≤ c && c ≤ 'F' then c.toNat - 55
  else 0

def hex4 (a b c d : Char) : Nat := hexVal a * 4096 + hexVal b * 256 + hexVal c * 16 + hexVal d

/-- `\b`, `\f`, … -/
def simpleEscape (e : Char) : Char :=
  if e == 'b' then '\x08' else if e == 'f' then '\x0c' else if e == 'n' then '\n'
  else if e == 'r' then '\r' else if e == 't' then '\t' else e

def isHigh (n : Nat) : Bool := 0xD800 ≤ n && n < 0xDC00
def isLow (n : Nat) : Bool := 0xDC00 ≤ n && n < 0xE000

/-- `unquote` of `encoding/json/decode.go` on the raw text of a scanned string. Unpaired surrogates become
U+FFFD. -/
def unquote : Str → Str
  | [] => []
  | '\\' :: 'u' :: a :: b :: c :: d :: '\\' :: 'u' :: a' :: b' :: c' :: d' :: r =>
    let n := hex4 a b c d
    let m := hex4 a' b' c' d'
    if isHigh n && isLow m then
      Char.ofNat (0x10000 + (n - 0xD800) * 0x400 + (m - 0xDC00)) :: unquote r
    else
      (if isHigh n || isLow n then '\ufffd' else Char.ofNat n) ::
        unquote ('\\' :: 'u' :: a' :: b' :: c' :: d' :: r)
  | '\\' :: 'u' :: a :: b :: c :: d :: r =>
    let n := hex4 a b c d
    (if isHigh n || isLow n then '\ufffd' else Char.ofNat n) :: unquote r
  | '\\' :: e :: r => simpleEscape e :: unquote r
  | c :: r => c :: unquote r

/-- Digits at the front. -/
def digits (s : Str) : Str × Str := (s.takeWhile Str.isDigit, s.dropWhile Str.isDigit)

/-- Optional fraction. `none` if the point is not followed by a digit. -/
def scanFrac : Str → Option (Str × Str)
  | '.' :: r => if (digits r).1 = [] then none else some ('.' :: (digits r).1, (digits r).2)
  | s => some ([], s)

/-- Optional exponent sign. -/
def scanSign : Str → Str × Str
  | '+' :: r => (['+'], r)
  | '-' :: r => (['-'], r)
  | s => ([], s)

/-- Optional exponent. -/
def scanExp : Str → Option (Str × Str)
  | [] => some ([], [])
  | c :: r =>
    if c == 'e' || c == 'E' then
      let sg := scanSign r
      if (digits sg.2).1 = [] then none else some (c :: sg.1 ++ (digits sg.2).1, (digits sg.2).2)
    else some ([], c :: r)

/-- Integer part: `0` or a non-zero digit followed by digits. -/
def scanInt : Str → Option (Str × Str)
  | '0' :: r => some (['0'], r)
  | c :: r => if Str.isDigit c then some (c :: (digits r).1, (digits r).2) else none
  | [] => none

/-- Optional minus sign. -/
def scanMinus : Str → Str × Str
  | '-' :: r => (['-'], r)
  | s => ([], s)

/-- A number literal: its text and what follows. -/
def scanNum (s : Str) : Option (Str × Str) :=
  let m := scanMinus s
  (scanInt m.2).bind fun i =>
  (scanFrac i.2).bind fun f =>
  (scanExp f.2).map fun e => (m.1 ++ i.1 ++ f.1 ++ e.1, e.2)

/-- Expect a fixed text. -/
def expect (p s : Str) : Option Str := if p.isPrefixOf s then some (s.drop p.length) else none

/-- The next significant character and what follows it. -/
def next (s : Str) : Option (Char × Str) :=
  match skipWs s with
  | [] => none
  | c :: r => some (c, r)

mutual
/-- A value after optional white space; what follows it. The first argument bounds the recursion and is
always large enough in `parse`. -/
def parseVal : Nat → Str → Option (JVal × Str)
  | 0, _ => none
  | n + 1, s => (next s).bind fun h =>
    if h.1 = '"' then (scanStr h.2).map fun x => (.str (unquote x.1), x.2)
    else if h.1 = '{' then (next h.2).bind fun h' =>
      if h'.1 = '}' then some (.obj .nil, h'.2)
      else (parseMembers n (h'.1 :: h'.2)).map fun x => (.obj x.1, x.2)
    else if h.1 = '[' then (next h.2).bind fun h' =>
      if h'.1 = ']' then some (.arr .nil, h'.2)
      else (parseElems n (h'.1 :: h'.2)).map fun x => (.arr x.1, x.2)
    else if h.1 = 't' then (expect g!"rue" h.2).map fun x => (.bool true, x)
    else if h.1 = 'f' then (expect g!"alse" h.2).map fun x => (.bool false, x)
    else if h.1 = 'n' then (expect g!"ull" h.2).map fun x => (.null, x)
    else (scanNum (h.1 :: h.2)).map fun x => (.num x.1, x.2)
/-- One or more members up to the closing brace. -/
def parseMembers : Nat → Str → Option (JMembers × Str)
  | 0, _ => none
  | n + 1, s => (next s).bind fun h =>
    if h.1 = '"' then (scanStr h.2).bind fun k => (next k.2).bind fun c =>
      if c.1 = ':' then (parseVal n c.2).bind fun v => (next v.2).bind fun d =>
        if d.1 = '}' then some (.cons (unquote k.1) v.1 .nil, d.2)
        else if d.1 = ',' then (parseMembers n d.2).map fun m => (.cons (unquote k.1) v.1 m.1, m.2)
        else none
      else none
    else none
/-- One or more elements up to the closing bracket. -/
def parseElems : Nat → Str → Option (JList × Str)
  | 0, _ => none
  | n + 1, s => (parseVal n s).bind fun v => (next v.2).bind fun d =>
    if d.1 = ']' then some (.cons v.1 .nil, d.2)
    else if d.1 = ',' then (parseElems n d.2).map fun l => (.cons v.1 l.1, l.2)
    else none
end

/-- A complete document: `checkValid` followed by decoding into a generic value. -/
def parse (s : Str) : Option JVal :=
  match parseVal (2 * s.length + 2) s with
  | some (v, r) => if skipWs r = [] then some v else none
  | none => none

/-- Lower-case hexadecimal digit. -/
def hexDigit (n : Nat) : Char := if n < 10 then Char.ofNat (48 + n) else Char.ofNat (87 + n)

/-- `\u00XX` and friends, `appendString` of `encoding/json/encode.go`. -/
def escapeU (n : Nat) : Str :=
  ['\\', 'u', hexDigit (n / 4096 % 16), hexDigit (n / 256 % 16), hexDigit (n / 16 % 16), hexDigit (n % 16)]

/-- `appendString` with HTML escaping, one rune. -/
def escapeChar (c : Char) : Str :=
  if c == '"' then ['\\', '"']
  else if c == '\\' then ['\\', '\\']
  else if c == '\x08' then ['\\', 'b']
  else if c == '\x0c' then ['\\', 'f']
  else if c == '\n' then ['\\', 'n']
  else if c == '\r' then ['\\', 'r']
  else if c == '\t' then ['\\', 't']
  else if c.toNat < 0x20 || c == '<' || c == '>' || c == '&' || c == '\u2028' || c == '\u2029' then
    escapeU c.toNat
  else [c]

def escape (s : Str) : Str := s.flatMap escapeChar

def quote (s : Str) : Str := '"' :: escape s ++ ['"']

mutual
/-- Compact encoding. -/
def render : JVal → Str
  | .null => g!"null"
  | .bool true => g!"true"
  | .bool false => g!"false"
  | .num lit => lit
  | .str s => quote s
  | .arr .nil => g!"[]"
  | .arr (.cons v l) => '[' :: render v ++ renderElems l
  | .obj .nil => g!"{}"
  | .obj (.cons k v m) => '{' :: quote k ++ ':' :: render v ++ renderMembers m
/-- Rest of an array. -/
def renderElems : JList → Str
  | .nil => g!"]"
  | .cons v l => ',' :: render v ++ renderElems l
/-- Rest of an object. -/
def renderMembers : JMembers → Str
  | .nil => g!"}"
  | .cons k v m => ',' :: quote k ++ ':' :: render v ++ renderMembers m
end

end Json
end Osv
