/-!
# Go strings

A Go string is a sequence of bytes.  Every string that reaches the modelled code is text, and the
model represents it by its sequence of runes (`List Char`).  For valid UTF-8 this is exact for all
operations below: substring search, prefixes, cutting and splitting only involve ASCII patterns, and
byte-wise lexicographic order coincides with rune-wise lexicographic order.  The one place where byte
offsets matter (`truncate` in `pkg/database/osv.go`) is modelled on UTF-8 bytes separately.
Simplification: text that is not valid UTF-8 is outside the model.
-/

namespace Osv

/-- A Go string, as its sequence of runes. -/
abbrev Str := List Char

/-- `g!"text"` is the model of the Go string literal `"text"`: the list of its runes. -/
macro:max "g!" s:str : term => do
  let cs := s.getString.toList.map fun c => Lean.Syntax.mkCharLit c
  `(([$cs.toArray,*] : Str))

namespace Str

/-- `strings.HasPrefix(s, p)`. -/
def hasPrefix (s p : Str) : Bool := p.isPrefixOf s

/-- `strings.HasSuffix(s, p)`. -/
def hasSuffix (s p : Str) : Bool := p.isSuffixOf s

/-- First occurrence of `sep` in `s`: the part before and the part after it. -/
def cut? (sep : Str) : Str → Option (Str × Str)
  | [] => if sep.isPrefixOf [] then some ([], []) else none
  | c :: cs =>
    if sep.isPrefixOf (c :: cs) then some ([], (c :: cs).drop sep.length)
    else (cut? sep cs).map fun r => (c :: r.1, r.2)

/-- `strings.Cut(s, sep)`, without the `found` flag: `(s, "")` if `sep` does not occur. -/
def cut (s sep : Str) : Str × Str :=
  match cut? sep s with
  | some r => r
  | none => (s, [])

/-- `strings.Contains(s, sub)`. -/
def contains (s sub : Str) : Bool := (cut? sub s).isSome

/-- `strings.CutPrefix(s, p)`. -/
def cutPrefix (s p : Str) : Str × Bool :=
  if hasPrefix s p then (s.drop p.length, true) else (s, false)

/-- `strings.TrimPrefix(s, p)`. -/
def trimPrefix (s p : Str) : Str := if hasPrefix s p then s.drop p.length else s

/-- `strings.TrimSuffix(s, p)`. -/
def trimSuffix (s p : Str) : Str := if hasSuffix s p then s.take (s.length - p.length) else s

/-- `unicode.IsSpace` (complete table: Latin-1 spaces and the `White_Space` code points). -/
def isSpace (c : Char) : Bool :=
  let n := c.toNat
  (9 ≤ n && n ≤ 13) || n == 32 || n == 0x85 || n == 0xA0 || n == 0x1680 ||
  (0x2000 ≤ n && n ≤ 0x200a) || n == 0x2028 || n == 0x2029 || n == 0x202f || n == 0x205f ||
  n == 0x3000

/-- Drop trailing elements satisfying `p`. -/
def dropRight (p : Char → Bool) (s : Str) : Str := (s.reverse.dropWhile p).reverse

/-- `strings.TrimFunc(s, p)`. -/
def trimFunc (p : Char → Bool) (s : Str) : Str := dropRight p (s.dropWhile p)

/-- `strings.TrimSpace(s)`. -/
def trimSpace (s : Str) : Str := trimFunc isSpace s

/-- `strings.Split(s, string(sep))` for a one-rune separator. Never empty. -/
def splitChar (sep : Char) : Str → List Str
  | [] => [[]]
  | c :: cs =>
    if c = sep then [] :: splitChar sep cs
    else match splitChar sep cs with
      | [] => [[c]]
      | p :: ps => (c :: p) :: ps

/-- `strings.SplitN(s, string(sep), n)` for a one-rune separator and `n ≥ 1`
(`strings.SplitN` with `n = 0` returns nil; not used by the code). -/
def splitCharN (sep : Char) (n : Nat) (s : Str) : List Str :=
  match n with
  | 0 => []
  | 1 => [s]
  | n + 1 => match cut? [sep] s with
    | none => [s]
    | some (a, b) => a :: splitCharN sep n b

/-- `strings.Join(parts, sep)`. -/
def join (sep : Str) : List Str → Str
  | [] => []
  | [p] => p
  | p :: q :: ps => p ++ sep ++ join sep (q :: ps)

/-- `strings.FieldsFunc(s, p)`: maximal non-empty runs of runes not satisfying `p`. -/
def fieldsFunc (p : Char → Bool) (s : Str) : List Str :=
  let rec go (cur : Str) : Str → List Str
    | [] => if cur.isEmpty then [] else [cur]
    | c :: cs =>
      if p c then (if cur.isEmpty then go [] cs else cur :: go [] cs)
      else go (cur ++ [c]) cs
  go [] s

/-- `strings.LastIndex(s, string(c))`: parts before and after the last occurrence of `c`. -/
def cutLast? (c : Char) : Str → Option (Str × Str)
  | [] => none
  | d :: ds => match cutLast? c ds with
    | some r => some (d :: r.1, r.2)
    | none => if d = c then some ([], ds) else none

/-- `strings.ToLower`. Simplification: only ASCII letters are mapped (package names compared after
lower-casing are ASCII by PEP 508); other runes are left unchanged. -/
def toLower (s : Str) : Str := s.map Char.toLower

/-- Go's `a < b` on strings. -/
def lt (a b : Str) : Bool := decide (a < b)

/-- `[0-9A-Za-z_]`, i.e. `\w` in Go regular expressions. -/
def isWord (c : Char) : Bool :=
  ('0' ≤ c && c ≤ '9') || ('A' ≤ c && c ≤ 'Z') || ('a' ≤ c && c ≤ 'z') || c == '_'

/-- `[0-9]`, i.e. `\d`. -/
def isDigit (c : Char) : Bool := '0' ≤ c && c ≤ '9'

/-- `[\t\n\f\r ]`, i.e. `\s`. -/
def isReSpace (c : Char) : Bool := c == '\t' || c == '\n' || c == '\x0c' || c == '\r' || c == ' '

end Str
end Osv
