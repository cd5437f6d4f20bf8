import Verif.Go.Yaml
import Verif.Go.TomlText
/-!
# Reading YAML text (`gopkg.in/yaml.v3`, `scannerc.go` and `parserc.go`)

The part of YAML in which lockfiles and configs are written: mappings and sequences by indentation, also begun behind a dash, scalars on
one line without quotes or with quotes, mappings and sequences of scalars in brackets on one line, and comments. Everything else is
outside: the result is then `none`, and the model says nothing about what the library does. Outside are texts over more than one line,
anchors, aliases, tags, merge keys, explicit keys, directives, document markers, tabs, carriage returns, a document that is a
scalar, and brackets inside brackets. Simplification: the limits of the library on the depth of nesting are left out.
-/
namespace Osv.YamlScan
open Str

/-- A character that may be in a text and that does not end a line (`readerc.go`; `is_break` in `yamlprivateh.go`). Tabs and carriage
returns are outside. -/
def okChar (c : Char) : Bool :=
  (0x20 ≤ c.toNat && c.toNat ≤ 0x7E) ||
    (0xA0 ≤ c.toNat && c.toNat ≠ 0x2028 && c.toNat ≠ 0x2029 && c.toNat ≠ 0xFEFF && c.toNat ≠ 0xFFFE && c.toNat ≠ 0xFFFF)

/-- Spaces are skipped. -/
def skip (s : Str) : Str := s.dropWhile (· == ' ')

/-- `is_blankz`, within a line -/
def blankEnd : Str → Bool
  | [] => true
  | c :: _ => c == ' '

/-! ### Scalars -/

/-- The characters with a meaning at the beginning of a token (`yaml_parser_fetch_next_token`). -/
def indicator (c : Char) : Bool := g!"-?:,[]{}#&*!|>'\"%@`".elem c

/-- The characters that end a scalar in brackets (`yaml_parser_scan_plain_scalar`). -/
def flowMark (c : Char) : Bool := g!",[]{}".elem c

/-- Here a scalar without quotes is over. -/
def mark (flow : Bool) : Str → Bool
  | [] => true
  | c :: r => (c == ':' && blankEnd r) || (flow && flowMark c)

/-- Here a scalar without quotes is over, spaces included. -/
def stops (flow : Bool) (s : Str) : Bool :=
  match s with
  | [] => true
  | c :: r => if c = ' ' then (skip r).head? == some '#' || mark flow (skip r) else mark flow s

/-- `yaml_parser_scan_plain_scalar`, on one line -/
def plain (flow : Bool) : Str → Str × Str
  | [] => ([], [])
  | c :: r => if stops flow (c :: r) then ([], c :: r) else ((c :: (plain flow r).1), (plain flow r).2)

/-- A scalar without quotes may begin like this (`yaml_parser_fetch_next_token`). -/
def plainStart (flow : Bool) : Str → Bool
  | [] => false
  | c :: r => if c = '-' then !flow && !blankEnd r else !indicator c && c != ' '

/-- Question marks in brackets, and colons before brackets and commas, are outside. -/
def plainOk (flow : Bool) (t : Str) : Bool :=
  plainStart flow t && t.getLast? != some ':' && !(flow && t.elem '?')

/-- `yaml_parser_scan_flow_scalar` in single quotes, behind the quote. -/
def single : Str → Option (Str × Str)
  | [] => none
  | c :: t =>
    if c = '\'' then match t with
      | [] => some ([], [])
      | d :: u => if d = '\'' then TomlText.put '\'' (single u) else some ([], d :: u)
    else TomlText.put c (single t)

/-- Escapes of one letter. -/
def escapeOf (c : Char) : Option Char :=
  [('0', '\x00'), ('a', '\x07'), ('b', '\x08'), ('t', '\t'), ('n', '\n'), ('v', '\x0b'), ('f', '\x0c'), ('r', '\r'),
   ('e', '\x1b'), (' ', ' '), ('"', '"'), ('\'', '\''), ('/', '/'), ('\\', '\\'), ('N', Char.ofNat 0x85), ('_', Char.ofNat 0xA0),
   ('L', Char.ofNat 0x2028), ('P', Char.ofNat 0x2029)].lookup c

/-- Escapes with hexadecimal digits: how many. -/
def escapeDigits (c : Char) : Option Nat := [('x', 2), ('u', 4), ('U', 8)].lookup c

/-- An escape, behind the backslash: the character and what follows. -/
def escape : Str → Option (Char × Str)
  | [] => none
  | c :: s => match escapeDigits c with
    | some k => if k ≤ s.length then (TomlText.scalar (s.take k)).map fun x => (x, s.drop k) else none
    | none => (escapeOf c).map fun x => (x, s)

/-- `yaml_parser_scan_flow_scalar` in double quotes, behind the quote. -/
def double : Nat → Str → Option (Str × Str)
  | 0, _ => none
  | n + 1, s => match s with
    | [] => none
    | c :: t =>
      if c = '"' then some ([], t)
      else if c = '\\' then (escape t).bind fun p => TomlText.put p.1 (double n p.2)
      else TomlText.put c (double n t)

/-- `resolve.go`: what means null. -/
def isNull (s : Str) : Bool := [g!"~", g!"null", g!"Null", g!"NULL"].elem s

/-- A scalar and what follows it. -/
def scalar (flow : Bool) (s : Str) : Option (YNode × Str) :=
  match s with
  | [] => none
  | c :: r =>
    if c = '\'' then (single r).map fun p => (.scalar p.1 false, p.2)
    else if c = '"' then (double (r.length + 1) r).map fun p => (.scalar p.1 false, p.2)
    else if plainOk flow (plain flow s).1 then some (.scalar (plain flow s).1 (isNull (plain flow s).1), (plain flow s).2)
    else none

/-- The key for merging (`decode.go` `isMerge`). -/
def isMerge : YNode → Bool
  | .scalar v _ => v = g!"<<"
  | _ => false

/-- `yaml_parser_fetch_value`: a key with its colon, and what follows it. A key has to be short (`yaml_simple_key_is_valid`). -/
def key (flow : Bool) (s : Str) : Option (YNode × Str) :=
  (scalar flow s).bind fun p => match skip p.2 with
    | ':' :: t => if blankEnd t && !isMerge p.1 && s.length - (skip p.2).length ≤ 1024 then some (p.1, t) else none
    | _ => none

/-! ### Brackets -/

/-- Items with commas, up to the bracket. -/
def flowItems {α : Type} (item : Str → Option (α × Str)) (close : Char) : Nat → Str → Option (List α × Str)
  | 0, _ => none
  | n + 1, s => (item (skip s)).bind fun p => match skip p.2 with
    | [] => none
    | c :: r =>
      if c = close then some ([p.1], r)
      else if c = ',' then (flowItems item close n r).map fun q => (p.1 :: q.1, q.2)
      else none

/-- The items in brackets, behind the first bracket. -/
def flowOf {α : Type} (item : Str → Option (α × Str)) (close : Char) (s : Str) : Option (List α × Str) :=
  match skip s with
  | [] => none
  | c :: r => if c = close then some ([], r) else flowItems item close s.length s

/-- A key and a value. -/
def pair (s : Str) : Option ((YNode × YNode) × Str) :=
  (key true s).bind fun p => (scalar true (skip p.2)).map fun q => ((p.1, q.1), q.2)

/-- A value on one line. -/
def inline (s : Str) : Option (YNode × Str) :=
  match s with
  | [] => none
  | c :: r =>
    if c = '[' then (flowOf (scalar true) ']' r).map fun p => (.seq p.1, p.2)
    else if c = '{' then (flowOf pair '}' r).map fun p => (.map p.1, p.2)
    else scalar false s

/-! ### Lines -/

/-- What a line says: a dash (`none`) or a key in a column, and the value if it is on the line. A line may have several dashes. -/
structure Tok where
  indent : Nat
  key : Option YNode
  value : Option YNode

/-- The rest of a line has nothing but spaces and a comment. -/
def tail : Str → Bool
  | [] => true
  | c :: r => c == ' ' && ((skip r).isEmpty || (skip r).head? == some '#')

/-- A value that is the rest of a line. -/
def lastOn (s : Str) : Option YNode := (inline s).bind fun p => if tail p.2 then some p.1 else none

/-- A key, with its value if it is there. -/
def keyLine (i : Nat) (s : Str) : Option (List Tok) :=
  (key false s).bind fun p =>
    if tail p.2 then some [⟨i, some p.1, none⟩] else (lastOn (skip p.2)).map fun v => [⟨i, some p.1, some v⟩]

/-- A line from its first character on, which is in column `i`. -/
def body : Nat → Nat → Str → Option (List Tok)
  | 0, _, _ => none
  | n + 1, i, s => match s with
    | [] => none
    | c :: r =>
      if c = '-' ∧ blankEnd r = true then
        if tail r then some [⟨i, none, none⟩]
        else match lastOn (skip r) with
          | some v => some [⟨i, none, some v⟩]
          | none => (body n (i + 1 + (r.length - (skip r).length)) (skip r)).map (⟨i, none, none⟩ :: ·)
      else keyLine i (c :: r)

/-- `---` and `...` in the first column. -/
def docMark (s : Str) : Bool := g!"---".isPrefixOf s || g!"...".isPrefixOf s

/-- A line. -/
def line (s : Str) : Option (List Tok) :=
  if !s.all okChar || docMark s then none
  else match skip s with
    | [] => some []
    | c :: r => if c = '#' then some [] else body (r.length + 1) (s.length - (r.length + 1)) (c :: r)

/-- All lines. -/
def lines : List Str → Option (List Tok)
  | [] => some []
  | l :: ls => (line l).bind fun a => (lines ls).map (a ++ ·)

/-! ### Indentation -/

/-- A mapping or a sequence. -/
def build (isMap : Bool) (es : List (Option YNode × YNode)) : YNode :=
  if isMap then .map (es.map fun e => (e.1.getD Yaml.null, e.2)) else .seq (es.map (·.2))

/-- A value begins with this, for a key or dash in column `i`: it is further to the right, or it is a dash in the column of a key. -/
def nests (i : Nat) (isMap : Bool) (u : Tok) : Bool := i < u.indent || (isMap && u.indent == i && u.key.isNone)

/-- The value for a key or dash in column `i`, and what follows it; `nested` reads the entries in a column. -/
def valueOf (nested : Nat → Bool → List Tok → Option (List (Option YNode × YNode) × List Tok)) (i : Nat) (isMap : Bool) :
    Option YNode → List Tok → Option (YNode × List Tok)
  | some v, rest => some (v, rest)
  | none, [] => some (Yaml.null, [])
  | none, u :: us =>
    if nests i isMap u then (nested u.indent u.key.isSome (u :: us)).map fun q => (build u.key.isSome q.1, q.2)
    else some (Yaml.null, u :: us)

/-- `yaml_parser_parse_block_mapping_key`, `yaml_parser_parse_block_sequence_entry` and `yaml_parser_parse_indentless_sequence_entry`:
the entries in column `i`, as long as there are any, and what follows them. -/
def entries : Nat → Nat → Bool → List Tok → Option (List (Option YNode × YNode) × List Tok)
  | 0, _, _, _ => none
  | _ + 1, _, _, [] => some ([], [])
  | n + 1, i, m, t :: rest =>
    if t.indent = i ∧ t.key.isSome = m then
      (valueOf (entries n) i m t.value rest).bind fun p => (entries n i m p.2).map fun q => ((t.key, p.1) :: q.1, q.2)
    else some ([], t :: rest)

/-- The document of the lines; `some none` is none at all. -/
def document (toks : List Tok) : Option (Option YNode) :=
  match toks with
  | [] => some none
  | t :: ts => (entries (ts.length + 2) t.indent t.key.isSome (t :: ts)).bind fun p =>
    if p.2.isEmpty then some (some (build t.key.isSome p.1)) else none

/-- `yaml.Unmarshal`, up to the tree; `none` is outside. -/
def scan (s : Str) : Option (Option YNode) := (lines (splitChar '\n' s)).bind document

end Osv.YamlScan
