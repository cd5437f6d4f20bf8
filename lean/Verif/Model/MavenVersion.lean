import Verif.Model.Semantic
/-!
# Versions of Java packages (`github.com/google/osv-scalibr/semantic`, `version-maven.go`)

`pkg/database/osv.go:96-131` compares versions with this library. It is not part of the repository and its source is not available
here: the definitions follow its known behaviour (release 0.4).
-/
namespace Osv.MavenVersion
open Str Semantic

/-- The value of a token. In the library it is a text; numbers lose their leading zeros there, so equal texts are equal values. -/
inductive Value
  | number (n : Nat)
  | word (w : Str)
deriving DecidableEq, Repr

/-- What is before a token. -/
inductive Prefix
  | none | dash | dot
deriving DecidableEq, Repr

/-- `mavenVersionToken`, without `isNull`. -/
structure Token where
  prefix_ : Prefix
  value : Value
deriving DecidableEq, Repr

/-- `mavenFindTransitions`: the runs of digits and of other characters. -/
def runs : Str → List Str
  | [] => []
  | c :: s =>
    match runs s with
    | (d :: r) :: rs => if isDigit c = isDigit d then (c :: d :: r) :: rs else [c] :: (d :: r) :: rs
    | rs => [c] :: rs

/-- The other names of words; `last` says whether the word is the last run. -/
def alias (last : Bool) (w : Str) : Str :=
  if w = g!"cr" then g!"rc"
  else if w = g!"ga" ∨ w = g!"final" ∨ w = g!"release" then []
  else if last = true then w
  else if w = g!"a" then g!"alpha" else if w = g!"b" then g!"beta" else if w = g!"m" then g!"milestone" else w

/-- The value of a run. -/
def value (last : Bool) (run : Str) : Value :=
  match digits? run with
  | some n => .number n
  | none => .word (alias last (toLower run))

/-- The tokens of the runs behind the first one: transitions count as dashes. -/
def later : List Str → List Token
  | [] => []
  | r :: rs => ⟨.dash, value rs.isEmpty r⟩ :: later rs

/-- The tokens of a piece between dots and dashes; an empty piece is a zero. -/
def piece (p : Prefix) (s : Str) : List Token :=
  match runs s with
  | [] => [⟨p, .number 0⟩]
  | r :: rs => ⟨p, value rs.isEmpty r⟩ :: later rs

/-- `splitCharsInclusive(str, "-.")`, with the piece so far. -/
def pieces (p : Prefix) (cur : Str) : Str → List Token
  | [] => piece p cur
  | c :: s =>
    if c = '-' then piece p cur ++ pieces .dash [] s
    else if c = '.' then piece p cur ++ pieces .dot [] s
    else pieces p (cur ++ [c]) s

/-- `shouldTrim`. -/
def isNull (t : Token) : Bool := t.value = .number 0 ∨ t.value = .word []

/-- The loop at the end of `newMavenVersion`, on the tokens from the last to the first. With `skip` it looks for the next dash. -/
def trim : Bool → List Token → List Token
  | _, [] => []
  | _, [t] => [t]
  | false, t :: u :: r =>
    if isNull t = true then trim false (u :: r) else if t.prefix_ = .dash then t :: trim false (u :: r) else t :: trim true (u :: r)
  | true, t :: u :: r => if t.prefix_ = .dash then t :: trim false (u :: r) else t :: trim true (u :: r)

/-- `newMavenVersion`. -/
def parse (s : Str) : List Token := (trim false (pieces .none [] s).reverse).reverse

/-- `qualifierOrder`. -/
def qualifierOrder (t : Token) : Nat :=
  match t.value, t.prefix_ with
  | .number _, .dash => 2
  | .number _, .dot => 3
  | _, .dash => 1
  | _, _ => 0

/-- `findKeywordOrder`. -/
def keywordOrder (w : Str) : Nat :=
  if w = g!"alpha" then 0 else if w = g!"beta" then 1 else if w = g!"milestone" then 2 else if w = g!"rc" then 3
  else if w = g!"snapshot" then 4 else if w = [] then 5 else if w = g!"sp" then 6 else 7

/-- The order of words in `lessThan`. -/
def wordLess (v w : Str) : Bool :=
  if keywordOrder v = 7 ∧ keywordOrder w = 7 then decide (cmpStr v w < 0) else decide (keywordOrder v < keywordOrder w)

/-- The text of a value that is not a word; only used for padded zeros. -/
def text : Value → Str
  | .number n => (Nat.repr n).toList
  | .word w => w

/-- `mavenVersionToken.lessThan`; `nv` and `nw` say whether the tokens are padded. -/
def tokenLess (nv : Bool) (v : Token) (nw : Bool) (w : Token) : Bool :=
  if v.prefix_ = w.prefix_ then
    match v.value, w.value with
    | .number m, .number n => decide (m < n)
    | .number m, .word y => if nv = true then wordLess (text (.number m)) y else false
    | .word x, .number n => if nw = true then wordLess x (text (.number n)) else true
    | .word x, .word y => wordLess x y
  else decide (qualifierOrder v < qualifierOrder w)

/-- `newMavenNullVersionToken`. -/
def nullToken (t : Token) : Token :=
  if t.prefix_ = .dot then ⟨.dot, if t.value = .word g!"sp" then .word [] else .number 0⟩ else ⟨.dash, .word []⟩

/-- `mavenVersion.lessThan` where the first version has ended. -/
def lessLeft : List Token → Bool
  | [] => false
  | w :: ws => if nullToken w = w then lessLeft ws else tokenLess true (nullToken w) false w

/-- The same where the second version has ended. -/
def lessRight : List Token → Bool
  | [] => false
  | v :: vs => if v = nullToken v then lessRight vs else tokenLess false v true (nullToken v)

/-- `mavenVersion.lessThan`. -/
def less : List Token → List Token → Bool
  | [], ws => lessLeft ws
  | v :: vs, [] => lessRight (v :: vs)
  | v :: vs, w :: ws => if v = w then less vs ws else tokenLess false v false w

/-- `MavenVersion.compare`. -/
def compare (v w : List Token) : Int := if v = w then 0 else if less v w = true then -1 else 1

/-- `MavenVersion.CompareStr`. -/
def maven (a b : Str) : Int := compare (parse a) (parse b)

example : maven g!"1.0-rc1" g!"1" = -1 := by decide +kernel
example : maven g!"1.0.Final" g!"1-ga" = 0 := by decide +kernel
example : maven g!"1.0-b2" g!"1.0-SNAPSHOT" = -1 := by decide +kernel

end Osv.MavenVersion
