import Verif.Go.Str
/-!
# JSON with comments (`github.com/tidwall/jsonc` v0.3.2, called at `pkg/lockfile/parse-bun-lock.go:60`)

`toJSON` of that package blanks comments out and blanks a comma out that stands before a closing bracket. What has been
written so far is kept reversed. Text is one element per rune: a rune of a comment becomes as many blanks as it has bytes.
-/
namespace Osv.Jsonc

/-- Where the loop of `toJSON` is. `str odd` is inside of a string after an odd or even number of backslashes, which is what
the loop that walks back from a quote finds out. -/
inductive Mode where
  | code
  | line
  | block
  | str (odd : Bool)
deriving DecidableEq

/-- The walk back from a closing bracket, on the reversed text: over what is not above a space, to a comma that is blanked. -/
def dropComma : Str → Str
  | [] => []
  | c :: r => if c ≤ ' ' then c :: dropComma r else if c = ',' then ' ' :: r else c :: r

/-- A rune of a comment: tabs and line ends stay. -/
def blank (c : Char) : Str := if c = '\n' || c = '\t' || c = '\r' then [c] else List.replicate c.utf8Size ' '

/-- The loop of `toJSON`: the source from the current position, and what has been written, reversed. A block comment that is
not closed loses its last byte. -/
def loop : Mode → Str → Str → Str
  | _, [], out => out.reverse
  | .code, '/' :: '/' :: r, out => loop .line r (' ' :: ' ' :: out)
  | .code, '/' :: '*' :: r, out => loop .block r (' ' :: ' ' :: out)
  | .code, c :: r, out =>
    if c = '"' then loop (.str false) r (c :: out)
    else if c = '}' || c = ']' then loop .code r (c :: dropComma out)
    else loop .code r (c :: out)
  | .line, c :: r, out => if c = '\n' then loop .code r (c :: out) else loop .line r (blank c ++ out)
  | .block, '*' :: '/' :: r, out => loop .code r (' ' :: ' ' :: out)
  | .block, [c], out => loop .block [] (List.replicate (c.utf8Size - 1) ' ' ++ out)
  | .block, c :: r, out => loop .block r (blank c ++ out)
  | .str odd, c :: r, out =>
    if c = '"' && !odd then loop .code r (c :: out)
    else loop (.str (c = '\\' && !odd)) r (c :: out)

/-- `ToJSON`. -/
def toJSON (s : Str) : Str := loop .code s []

example : toJSON g!"{\"a\": [1, 2,], // b\n\"c//\\\"\": /* é\n */ 3, }" = g!"{\"a\": [1, 2 ],     \n\"c//\\\"\":      \n    3  }" := by
  decide +kernel

end Osv.Jsonc
