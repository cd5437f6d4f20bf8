import Verif.Go.Semver
import Verif.Go.Regex
import Verif.Model.LockGoMod
/-!
# Files of Go modules (`golang.org/x/mod/modfile`)

`modfile.Parse` with no version fixer, as `pkg/lockfile/parse-go-lock.go:30` calls it. The library is not part of the
repository. The model follows version v0.30.0, which `go.mod` names. Comments have no effect on the parts that are used, and neither
has the order in which errors are found, because any of them makes the whole fail.
-/
namespace Osv.ModFile
open Str

/-- Tokens of `read.go`; the end of the file is the end of the list. A comment that ends a line contains the newline. -/
inductive Tok where
  | newline
  /-- `_EOLCOMMENT`: a comment after something else on the line -/
  | eolComment
  /-- `_COMMENT`: a comment on its own line -/
  | comment (text : Str)
  | punct (c : Char)
  /-- identifiers and strings -/
  | word (text : Str)
deriving DecidableEq, Repr

/-- `isIdent` of `read.go`. `print` is `unicode.IsPrint` for runes outside of ASCII; no space outside of ASCII is printable. -/
def isIdent (print : Char → Bool) (c : Char) : Bool :=
  if c.toNat < 128 then decide (33 ≤ c.toNat ∧ c.toNat ≤ 126) && !(g!"()[]{},").contains c else print c

/-- An identifier from the current rune on, and what follows it; `none` for `/*`. -/
def scanIdent (print : Char → Bool) : Str → Option (Str × Str)
  | [] => some ([], [])
  | c :: rest =>
    if isIdent print c then
      if hasPrefix (c :: rest) g!"//" then some ([], c :: rest)
      else if hasPrefix (c :: rest) g!"/*" then none
      else (scanIdent print rest).map fun r => (c :: r.1, r.2)
    else some ([], c :: rest)

/-- The rest of a string after the opening quote, with the closing quote, and what follows it; `none` if it does not end on the line. -/
def scanString (quote : Char) : Str → Option (Str × Str)
  | [] => none
  | c :: rest =>
    if c = '\n' then none
    else if c = quote then some ([c], rest)
    else if c = '\\' ∧ quote ≠ '`' then match rest with
      | [] => none
      | d :: rest => (scanString quote rest).map fun r => (c :: d :: r.1, r.2)
    else (scanString quote rest).map fun r => (c :: r.1, r.2)

/-- `readToken` of `read.go`, repeated up to the end of the file. `used`: there is a token on the line already. `fuel` is more than
the number of runes left. -/
def lexFrom (print : Char → Bool) : Nat → Bool → Str → Option (List Tok)
  | 0, _, _ => none
  | _ + 1, _, [] => some []
  | fuel + 1, used, c :: rest =>
    if c = ' ' ∨ c = '\t' ∨ c = '\r' then lexFrom print fuel used rest
    else if hasPrefix (c :: rest) g!"//" then
      let text := (c :: rest).takeWhile (· != '\n')
      let left := ((c :: rest).dropWhile (· != '\n')).drop 1
      (lexFrom print fuel false left).map fun l => (if used then Tok.eolComment else Tok.comment text) :: l
    else if hasPrefix (c :: rest) g!"/*" then none
    else if c = '\n' then (lexFrom print fuel false rest).map fun l => Tok.newline :: l
    else if (g!"()[]{},").contains c then (lexFrom print fuel true rest).map fun l => Tok.punct c :: l
    else if c = '"' ∨ c = '`' then match scanString c rest with
      | none => none
      | some (s, left) => (lexFrom print fuel true left).map fun l => Tok.word (c :: s) :: l
    else if isIdent print c then match scanIdent print rest with
      | none => none
      | some (s, left) => (lexFrom print fuel true left).map fun l => Tok.word (c :: s) :: l
    else none

/-- All tokens of a file. -/
def lex (print : Char → Bool) (s : Str) : Option (List Tok) := lexFrom print (s.length + 1) false s

/-- The text of a token. -/
def Tok.text : Tok → Str
  | .newline => g!"\n"
  | .eolComment => []
  | .comment t => t
  | .punct c => [c]
  | .word t => t

/-- `isEOL` of `read.go`. -/
def Tok.isEOL : Tok → Bool
  | .newline => true
  | .eolComment => true
  | _ => false

/-- `Line` and `LineBlock` of `read.go`. -/
inductive Stmt where
  | line (tokens : List Str)
  | block (tokens : List Str) (lines : List (List Str))
deriving DecidableEq, Repr

/-- Where the parser is: at the top level, in a statement, in a statement after `(` or after `(` and `)`, in a block, in a line of a
block, after the `)` of a block. -/
inductive Place where
  | top
  | stmt (tokens : List Str)
  | open (tokens : List Str)
  | openClose (tokens : List Str)
  | block (tokens : List Str) (lines : List (List Str))
  | blockLine (tokens : List Str) (lines : List (List Str)) (line : List Str)
  | blockEnd (tokens : List Str) (lines : List (List Str))

/-- `parseStmt` on a token within a statement. -/
def inStmt (tokens : List Str) (t : Tok) : Place := if t = .punct '(' then .open tokens else .stmt (tokens ++ [t.text])

/-- `parseFile`, `parseStmt`, `parseLineBlock` and `parseLine` of `read.go`. -/
def stmts : Place → List Tok → Option (List Stmt)
  | .top, [] => some []
  | .stmt ts, [] => some [.line ts]
  | .open _, [] => none
  | .openClose ts, [] => some [.block ts []]
  | .block _ _, [] => none
  | .blockLine _ _ _, [] => none
  | .blockEnd ts ls, [] => some [.block ts ls]
  | .top, t :: rest => match t with
    | .newline => stmts .top rest
    | .comment _ => stmts .top rest
    | t => stmts (.stmt [t.text]) rest
  | .stmt ts, t :: rest => if t.isEOL then (stmts .top rest).map (Stmt.line ts :: ·) else stmts (inStmt ts t) rest
  | .open ts, t :: rest =>
    if t.isEOL then stmts (.block ts []) rest
    else if t = .punct ')' then stmts (.openClose ts) rest
    else stmts (inStmt (ts ++ [g!"("]) t) rest
  | .openClose ts, t :: rest =>
    if t.isEOL then (stmts .top rest).map (Stmt.block ts [] :: ·) else stmts (inStmt (ts ++ [g!"(", g!")"]) t) rest
  | .block ts ls, t :: rest => match t with
    | .newline => stmts (.block ts ls) rest
    | .eolComment => stmts (.block ts ls) rest
    | .comment _ => stmts (.block ts ls) rest
    | .punct c => if c = ')' then stmts (.blockEnd ts ls) rest else stmts (.blockLine ts ls [[c]]) rest
    | .word w => stmts (.blockLine ts ls [w]) rest
  | .blockLine ts ls l, t :: rest =>
    if t.isEOL then stmts (.block ts (ls ++ [l])) rest else stmts (.blockLine ts ls (l ++ [t.text])) rest
  | .blockEnd ts ls, t :: rest => if t.isEOL then (stmts .top rest).map (Stmt.block ts ls :: ·) else none

/-- The value of a hexadecimal digit. -/
def hexValue (c : Char) : Option Nat :=
  if '0' ≤ c ∧ c ≤ '9' then some (c.toNat - 48)
  else if 'a' ≤ c ∧ c ≤ 'f' then some (c.toNat - 87)
  else if 'A' ≤ c ∧ c ≤ 'F' then some (c.toNat - 55)
  else none

/-- The value of digits of a base. -/
def digitsValue (base : Nat) (acc : Nat) : Str → Option Nat
  | [] => some acc
  | c :: rest => match hexValue c with
    | none => none
    | some n => if n < base then digitsValue base (acc * base + n) rest else none

/-- The escapes of one letter in `strconv.Unquote`. -/
def letterEscapes : List (Char × Char) :=
  [('a', '\x07'), ('b', '\x08'), ('f', '\x0c'), ('n', '\n'), ('r', '\r'), ('t', '\t'), ('v', '\x0b'), ('\\', '\\'), ('"', '"')]

/-- The rune for a byte. Simplification: bytes above 7F, which are not valid UTF-8 on their own, are replaced by U+FFFD. -/
def byteChar (n : Nat) : Option Char := if n < 128 then some (Char.ofNat n) else if n < 256 then some '\uFFFD' else none

/-- The rune of a number, unless it is a surrogate or too large. -/
def runeChar (n : Nat) : Option Char := if n.isValidChar then some (Char.ofNat n) else none

/-- An escape of `k` digits: the rune and what follows. -/
def codeEscape (base k : Nat) (rune : Nat → Option Char) (s : Str) : Option (Char × Str) :=
  if s.length < k then none
  else match digitsValue base 0 (s.take k) with
    | none => none
    | some n => (rune n).map fun c => (c, s.drop k)

/-- An escape after the backslash, for `strconv.Unquote` of a string in double quotes: the rune and what follows. -/
def escape : Str → Option (Char × Str)
  | [] => none
  | c :: rest => match letterEscapes.lookup c with
    | some d => some (d, rest)
    | none =>
      if c = 'x' then codeEscape 16 2 byteChar rest
      else if c = 'u' then codeEscape 16 4 runeChar rest
      else if c = 'U' then codeEscape 16 8 runeChar rest
      else codeEscape 8 3 byteChar (c :: rest)

/-- `strconv.Unquote` after the opening double quote. `fuel` is more than the number of runes. -/
def unquoteFrom : Nat → Str → Option Str
  | 0, _ => none
  | _ + 1, [] => none
  | fuel + 1, c :: rest =>
    if c = '"' then if rest = [] then some [] else none
    else if c = '\n' then none
    else if c = '\\' then match escape rest with
      | none => none
      | some (d, left) => (unquoteFrom fuel left).map (d :: ·)
    else (unquoteFrom fuel rest).map (c :: ·)

/-- `parseString` of `rule.go`. -/
def string (t : Str) : Option Str :=
  match t with
  | '"' :: rest => unquoteFrom (rest.length + 1) rest
  | t => if t.any fun c => c == '"' || c == '\'' || c == '`' then none else some t

/-- `parseVersion` of `rule.go`, without a fixer. -/
def version (t : Str) : Option Str :=
  (string t).bind fun v => if Semver.moduleVersion v = [] then none else some (Semver.moduleVersion v)

/-- `IsDirectoryPath` of `rule.go`. -/
def isDirectoryPath (ns : Str) : Bool :=
  ns == g!"." || hasPrefix ns g!"./" || hasPrefix ns g!"/" || hasPrefix ns g!".\\" || hasPrefix ns g!"\\" ||
  ns == g!".." || hasPrefix ns g!"../" || hasPrefix ns g!"..\\" ||
  (match ns with
    | c :: ':' :: _ => ('A' ≤ c && c ≤ 'Z') || ('a' ≤ c && c ≤ 'z')
    | _ => false)

/-- The expression `^([1-9][0-9]*)\.(0|[1-9][0-9]*)(\.(0|[1-9][0-9]*))?([a-z]+[0-9]+)?$` for versions of Go. -/
def reGoVersion : Re :=
  let num : Re := .alt (.ch '0') (.cat [.cls fun c => '1' ≤ c && c ≤ '9', .star true (.cls isDigit)])
  .cat [.bot, .cap 1 (.cat [.cls fun c => '1' ≤ c && c ≤ '9', .star true (.cls isDigit)]), .ch '.', .cap 2 num,
    .opt (.cap 3 (.cat [.ch '.', .cap 4 num])), .opt (.cap 5 (.cat [.plus (.cls fun c => 'a' ≤ c && c ≤ 'z'), .plus (.cls isDigit)])), .eot]

/-- The expression `^default$|^go1($|\.)` for toolchains. -/
def isToolchain (s : Str) : Bool := s == g!"default" || s == g!"go1" || hasPrefix s g!"go1."

/-- `File` of `rule.go`, as far as it matters: the directives that were there, and the modules required and replaced. -/
structure File where
  hasGo : Bool := false
  hasToolchain : Bool := false
  hasModule : Bool := false
  require : List GoModule := []
  replace : List GoReplace := []
deriving DecidableEq, Repr

/-- `rule.go`: a module path and a version, as for `require` and `exclude`. -/
def requirement (path v : Str) : Option GoModule := do
  let p ← string path
  let v ← version v
  let pm ← Semver.pathMajor p
  if Semver.checkPathMajor v pm then some ⟨p, v⟩ else none

/-- `parseReplace` of `rule.go` (not on Windows): what follows the arrow. -/
def replacement (args : List Str) : Option GoModule :=
  match args with
  | [d] => do
    let ns ← string d
    if isDirectoryPath ns && !contains ns g!"\\" then some ⟨ns, []⟩ else none
  | [p, v] => do
    let ns ← string p
    let nv ← version v
    if isDirectoryPath ns then none else some ⟨ns, nv⟩
  | _ => none

/-- `parseReplace` of `rule.go`. -/
def replace (args : List Str) : Option GoReplace :=
  match args with
  | path :: arrow :: rest =>
    if arrow = g!"=>" then do
      let p ← string path
      let _ ← Semver.pathMajor p
      let new ← replacement rest
      some ⟨⟨p, []⟩, new⟩
    else match rest with
      | arrow' :: rest =>
        if arrow' = g!"=>" then do
          let p ← string path
          let pm ← Semver.pathMajor p
          let v ← version arrow
          if Semver.checkPathMajor v pm then do
            let new ← replacement rest
            some ⟨⟨p, v⟩, new⟩
          else none
        else none
      | [] => none
  | _ => none

/-- `parseVersionInterval` of `rule.go`, with a fixer that leaves versions as they are, and the check that nothing follows. -/
def retract (args : List Str) : Option Unit :=
  match args with
  | [v] => if v = g!"(" ∨ v = g!"[" then none else (string v).map fun _ => ()
  | [b, low, comma, high, e] => do
    let _ ← string low
    let _ ← string high
    if b = g!"[" ∧ comma = g!"," ∧ e = g!"]" then some () else none
  | _ => none

/-- `add` of `rule.go` for a strict reading. -/
def add (f : File) (verb : Str) (args : List Str) : Option File :=
  if verb = g!"go" then match args with
    | [v] => if !f.hasGo && reGoVersion.isMatch v then some { f with hasGo := true } else none
    | _ => none
  else if verb = g!"toolchain" then match args with
    | [v] => if !f.hasToolchain && isToolchain v then some { f with hasToolchain := true } else none
    | _ => none
  else if verb = g!"module" then match args with
    | [p] => if f.hasModule then none else (string p).map fun _ => { f with hasModule := true }
    | _ => none
  else if verb = g!"godebug" then match args with
    | [kv] => if (kv.any fun c => c == '"' || c == '`' || c == '\'' || c == ',') || !contains kv g!"=" then none else some f
    | _ => none
  else if verb = g!"require" then match args with
    | [p, v] => (requirement p v).map fun m => { f with require := f.require ++ [m] }
    | _ => none
  else if verb = g!"exclude" then match args with
    | [p, v] => (requirement p v).map fun _ => f
    | _ => none
  else if verb = g!"replace" then (replace args).map fun r => { f with replace := f.replace ++ [r] }
  else if verb = g!"retract" then (retract args).map fun _ => f
  else if verb = g!"tool" then match args with
    | [p] => (string p).map fun _ => f
    | _ => none
  else if verb = g!"ignore" then match args with
    | [p] => (string p).map fun _ => f
    | _ => none
  else none

/-- The directives that may be written as a block. -/
def blockVerbs : List Str := [g!"module", g!"godebug", g!"require", g!"exclude", g!"replace", g!"retract", g!"tool", g!"ignore"]

/-- The lines of a block. -/
def addLines (verb : Str) : File → List (List Str) → Option File
  | f, [] => some f
  | f, l :: rest => (add f verb l).bind fun f => addLines verb f rest

/-- `parseToFile` of `rule.go`: the loop over the statements. -/
def addStmts : File → List Stmt → Option File
  | f, [] => some f
  | f, .line ts :: rest => match ts with
    | [] => none
    | verb :: args => (add f verb args).bind fun f => addStmts f rest
  | f, .block ts ls :: rest => match ts with
    | [verb] => if blockVerbs.contains verb then (addLines verb f ls).bind fun f => addStmts f rest else none
    | _ => none

/-- `modfile.Parse` without a version fixer. -/
def parse (print : Char → Bool) (s : Str) : Option File :=
  (lex print s).bind fun ts => (stmts .top ts).bind (addStmts {})

/-- The decoder of go.mod files as `pkg/lockfile/parse-go-lock.go:30-36` uses it. -/
def decode (print : Char → Bool) (s : Str) : Option GoModFile := (parse print s).map fun f => ⟨f.require, f.replace⟩

example : parse (fun _ => false)
    g!"module example.com/m // main\n\ngo 1.24.6\n\nrequire (\n\tgithub.com/a/b v1.2.3 // indirect\n\t\"gopkg.in/c.v2\" v2.0.0\n)\n\nrequire d/v3 v3.1\nreplace d/v3 => ../d\nretract [v1.0.0, v1.0.5]" =
    some ⟨true, false, true, [⟨g!"github.com/a/b", g!"v1.2.3"⟩, ⟨g!"gopkg.in/c.v2", g!"v2.0.0"⟩, ⟨g!"d/v3", g!"v3.1.0"⟩],
      [⟨⟨g!"d/v3", []⟩, ⟨g!"../d", []⟩⟩]⟩ := by
  decide +kernel
example : parse (fun _ => false) g!"require a v1.0.0\nrequir b v1.0.0\n" = none := by decide +kernel

end Osv.ModFile
