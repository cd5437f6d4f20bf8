import Verif.Go.Str
/-!
# Go regular expressions

Go's `regexp` returns the leftmost match, and among the matches starting there the one a backtracking
engine with Perl priorities would find first.  `Re.run` enumerates all matches at a position in exactly
that priority order (greedy alternatives first for greedy operators), so the head of the list is Go's
answer.  Every regular expression of the code is transcribed literally as a term of `Re`.
-/
namespace Osv

/-- Regular expressions as used in the code. -/
inductive Re where
  /-- empty expression -/
  | eps
  /-- one rune of a class -/
  | cls (p : Char → Bool)
  | seq (a b : Re)
  /-- `a|b`, preferring `a` -/
  | alt (a b : Re)
  /-- `a*` (greedy) or `a*?` (lazy) -/
  | star (greedy : Bool) (a : Re)
  /-- capture group number `n` -/
  | cap (n : Nat) (a : Re)
  /-- `^` without `(?m)` -/
  | bot
  /-- `$` without `(?m)` -/
  | eot

/-- Captured groups; the head binding of a number is the final one. -/
abbrev Caps := List (Nat × Str)

namespace Re

/-- literal rune -/
def ch (c : Char) : Re := cls (· == c)
/-- literal string -/
def lit : Str → Re
  | [] => eps
  | [c] => ch c
  | c :: cs => seq (ch c) (lit cs)
/-- sequence of expressions -/
def cat : List Re → Re
  | [] => eps
  | [r] => r
  | r :: rs => seq r (cat rs)
/-- `a+` -/
def plus (a : Re) : Re := seq a (star true a)
/-- `a?` -/
def opt (a : Re) : Re := alt a eps
/-- `.`: any rune but newline -/
def any : Re := cls (· != '\n')

/-- `a*` with at most `fuel` iterations; an iteration must consume something.
A result is (consumed text, remaining text, captures). -/
def starLoop (body : Bool → Str → Caps → List (Str × Str × Caps)) (greedy : Bool) :
    Nat → Bool → Str → Caps → List (Str × Str × Caps)
  | 0, _, s, k => [([], s, k)]
  | fuel + 1, bol, s, k =>
    let more := (body bol s k).flatMap fun r =>
      if r.1.isEmpty then []
      else (starLoop body greedy fuel false r.2.1 r.2.2).map fun t => (r.1 ++ t.1, t.2)
    if greedy then more ++ [([], s, k)] else ([], s, k) :: more

/-- All matches of the expression at the start of `s`, in priority order.
`bol` says whether the position is the beginning of the whole text. -/
def run : Re → Bool → Str → Caps → List (Str × Str × Caps)
  | eps, _, s, k => [([], s, k)]
  | cls _, _, [], _ => []
  | cls p, _, c :: cs, k => if p c then [([c], cs, k)] else []
  | seq a b, bol, s, k =>
    (run a bol s k).flatMap fun r =>
      (run b (bol && r.1.isEmpty) r.2.1 r.2.2).map fun t => (r.1 ++ t.1, t.2)
  | alt a b, bol, s, k => run a bol s k ++ run b bol s k
  | star g a, bol, s, k => starLoop (run a) g s.length bol s k
  | cap n a, bol, s, k => (run a bol s k).map fun r => (r.1, r.2.1, (n, r.1) :: r.2.2)
  | bot, bol, s, k => if bol then [([], s, k)] else []
  | eot, _, s, k => if s.isEmpty then [([], s, k)] else []

/-- A match found by searching: text before, matched text, text after, captures. -/
structure Found where
  pre : Str
  matched : Str
  post : Str
  caps : Caps
deriving Repr, DecidableEq

/-- Leftmost match from here on. -/
def findFrom (r : Re) (bol : Bool) : Str → Option Found
  | [] => (run r bol [] []).head?.map fun t => ⟨[], t.1, t.2.1, t.2.2⟩
  | c :: cs => match (run r bol (c :: cs) []).head? with
    | some t => some ⟨[], t.1, t.2.1, t.2.2⟩
    | none => (findFrom r false cs).map fun f => { f with pre := c :: f.pre }

/-- `re.FindStringSubmatch(s)`; `none` is Go's nil. -/
def find (r : Re) (s : Str) : Option Found := findFrom r true s

/-- `re.MatchString(s)`. -/
def isMatch (r : Re) (s : Str) : Bool := (find r s).isSome

/-- `results[n]` of a submatch: the empty string if the group did not participate. -/
def Found.group (f : Found) (n : Nat) : Str := (f.caps.lookup n).getD []

/-- `re.ReplaceAllString(s, repl)` for a replacement without `$`, from here on.
Simplification: stops at an empty match; none of the expressions used with it matches the empty string. -/
def replaceFrom (r : Re) (repl : Str) : Nat → Bool → Str → Str
  | 0, _, s => s
  | fuel + 1, bol, s => match findFrom r bol s with
    | none => s
    | some f => if f.matched.isEmpty then s
      else f.pre ++ repl ++ replaceFrom r repl fuel false f.post

/-- `re.ReplaceAllString(s, repl)`. -/
def replaceAll (r : Re) (repl : Str) (s : Str) : Str := replaceFrom r repl (s.length + 1) true s

/-- `re.Split(s, -1)`, from here on (same simplification as `replaceFrom`). -/
def splitFrom (r : Re) : Nat → Bool → Str → List Str
  | 0, _, s => [s]
  | fuel + 1, bol, s => match findFrom r bol s with
    | none => [s]
    | some f => if f.matched.isEmpty then [s]
      else f.pre :: splitFrom r fuel false f.post

/-- `re.Split(s, -1)`. -/
def split (r : Re) (s : Str) : List Str := splitFrom r (s.length + 1) true s

end Re
end Osv
