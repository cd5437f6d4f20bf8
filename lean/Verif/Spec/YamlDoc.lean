import Verif.Go.YamlScan
import Verif.Spec.TomlDoc
/-!
# The texts of a YAML document

Mappings and sequences by indentation, scalars on one line, comments, and mappings and sequences of scalars in brackets. Everything that
is written so has one meaning in YAML.
-/
namespace Osv.Spec
open Osv YamlScan

def YmlSpaces (s : Str) : Prop := ∀ c ∈ s, c = ' '

/-- A character of a line: it is printable. -/
def YmlChar (c : Char) : Prop :=
  (0x20 ≤ c.toNat ∧ c.toNat ≤ 0x7E) ∨ (0xA0 ≤ c.toNat ∧ c.toNat ∉ [0x2028, 0x2029, 0xFEFF, 0xFFFE, 0xFFFF])

/-! ### Scalars -/

/-- A scalar without quotes; `flow` says whether it is in brackets. -/
structure YmlPlain (flow : Bool) (t : Str) : Prop where
  start : (∃ c r, t = c :: r ∧ c ≠ ' ' ∧ c ∉ g!"-?:,[]{}#&*!|>'\"%@`") ∨ (flow = false ∧ ∃ c r, t = '-' :: c :: r ∧ c ≠ ' ')
  noKey : ¬ g!": " <:+: t
  noComment : ¬ g!" #" <:+: t
  last : t.getLast? ≠ some ':' ∧ t.getLast? ≠ some ' '
  brackets : flow = true → ∀ c ∈ t, c ∉ g!",[]{}?"

/-- The inside of a string in single quotes: what it says and how it is written. -/
inductive YmlSingle : Str → Str → Prop
  | nil : YmlSingle [] []
  | char {c : Char} {t raw : Str} : c ≠ '\'' → YmlSingle t raw → YmlSingle (c :: t) (c :: raw)
  | quote {t raw : Str} : YmlSingle t raw → YmlSingle ('\'' :: t) ('\'' :: '\'' :: raw)

/-- A character and an escape for it. -/
inductive YmlEscape : Char → Str → Prop
  | short {e c : Char} : (e, c) ∈ [('0', '\x00'), ('a', '\x07'), ('b', '\x08'), ('t', '\t'), ('n', '\n'), ('v', '\x0b'), ('f', '\x0c'),
      ('r', '\r'), ('e', '\x1b'), (' ', ' '), ('"', '"'), ('\'', '\''), ('/', '/'), ('\\', '\\'), ('N', '\u0085'), ('_', ' '),
      ('L', ' '), ('P', ' ')] → YmlEscape c ['\\', e]
  | digits {e : Char} {k n : Nat} {ds : Str} : (e, k) ∈ [('x', 2), ('u', 4), ('U', 8)] → ds.length = k → TomlHex ds n → TomlScalar n →
      YmlEscape (Char.ofNat n) ('\\' :: e :: ds)

/-- The inside of a string in double quotes. -/
inductive YmlDouble : Str → Str → Prop
  | nil : YmlDouble [] []
  | char {c : Char} {t raw : Str} : c ≠ '"' → c ≠ '\\' → YmlDouble t raw → YmlDouble (c :: t) (c :: raw)
  | escape {c : Char} {e t raw : Str} : YmlEscape c e → YmlDouble t raw → YmlDouble (c :: t) (e ++ raw)

/-- What means null, without quotes. -/
def ymlNulls : List Str := [g!"~", g!"null", g!"Null", g!"NULL"]

/-- A scalar: how it is written, and what it is. -/
inductive YmlScalar (flow : Bool) : Str → YNode → Prop
  | plain {t : Str} : YmlPlain flow t → t ∉ ymlNulls → YmlScalar flow t (.scalar t false)
  | null {t : Str} : t ∈ ymlNulls → YmlScalar flow t (.scalar t true)
  | single {v raw : Str} : YmlSingle v raw → YmlScalar flow ('\'' :: (raw ++ ['\''])) (.scalar v false)
  | double {v raw : Str} : YmlDouble v raw → YmlScalar flow ('"' :: (raw ++ ['"'])) (.scalar v false)

/-- A key, with the spaces before its colon. -/
structure YmlKey (flow : Bool) (t : Str) (k : YNode) : Prop where
  spelled : ∃ s b, YmlScalar flow s k ∧ YmlSpaces b ∧ t = s ++ b
  short : t.length ≤ 1024
  noMerge : ∀ b, k ≠ .scalar g!"<<" b

/-! ### Brackets -/

/-- Items with commas. -/
inductive YmlItems {α : Type} (P : Str → α → Prop) : Str → List α → Prop
  | one {a t b : Str} {x : α} : YmlSpaces a → P t x → YmlSpaces b → YmlItems P (a ++ (t ++ b)) [x]
  | more {a t b u : Str} {x : α} {xs : List α} : YmlSpaces a → P t x → YmlSpaces b → YmlItems P u xs →
      YmlItems P (a ++ (t ++ (b ++ ',' :: u))) (x :: xs)

/-- A key and a value in brackets. -/
def YmlPair (t : Str) (p : YNode × YNode) : Prop :=
  ∃ k b v, YmlKey true k p.1 ∧ b ≠ [] ∧ YmlSpaces b ∧ YmlScalar true v p.2 ∧ t = k ++ ':' :: (b ++ v)

/-- A value on one line. -/
inductive YmlInline : Str → YNode → Prop
  | scalar {t : Str} {n : YNode} : YmlScalar false t n → YmlInline t n
  | emptySeq {b : Str} : YmlSpaces b → YmlInline ('[' :: (b ++ [']'])) (.seq [])
  | seq {t : Str} {l : List YNode} : YmlItems (YmlScalar true) t l → YmlInline ('[' :: (t ++ [']'])) (.seq l)
  | emptyMap {b : Str} : YmlSpaces b → YmlInline ('{' :: (b ++ ['}'])) (.map [])
  | map {t : Str} {l : List (YNode × YNode)} : YmlItems YmlPair t l → YmlInline ('{' :: (t ++ ['}'])) (.map l)

/-! ### Lines -/

/-- The rest of a line: spaces, and a comment behind a space. -/
def YmlTail (s : Str) : Prop := ∃ b c, YmlSpaces b ∧ s = b ++ c ∧ (c = [] ∨ (b ≠ [] ∧ ∃ t, c = '#' :: t))

/-- A line from column `i` on: dashes and keys in their columns, each with its value if it is on the line. -/
inductive YmlBody : Nat → Str → List Tok → Prop
  | dash {i : Nat} {r : Str} : YmlTail r → YmlBody i ('-' :: r) [⟨i, none, none⟩]
  | dashValue {i : Nat} {b v r : Str} {n : YNode} : b ≠ [] → YmlSpaces b → YmlInline v n → YmlTail r →
      YmlBody i ('-' :: (b ++ (v ++ r))) [⟨i, none, some n⟩]
  | dashMore {i : Nat} {b t : Str} {toks : List Tok} : b ≠ [] → YmlSpaces b → YmlBody (i + 1 + b.length) t toks →
      YmlBody i ('-' :: (b ++ t)) (⟨i, none, none⟩ :: toks)
  | key {i : Nat} {k r : Str} {n : YNode} : YmlKey false k n → YmlTail r → YmlBody i (k ++ ':' :: r) [⟨i, some n, none⟩]
  | keyValue {i : Nat} {k b v r : Str} {n w : YNode} : YmlKey false k n → b ≠ [] → YmlSpaces b → YmlInline v w → YmlTail r →
      YmlBody i (k ++ ':' :: (b ++ (v ++ r))) [⟨i, some n, some w⟩]

/-- A line. -/
inductive YmlLine : Str → List Tok → Prop
  | blank {b : Str} : YmlSpaces b → YmlLine b []
  | comment {b t : Str} : YmlSpaces b → YmlLine (b ++ '#' :: t) []
  | body {b t : Str} {toks : List Tok} : YmlSpaces b → YmlBody b.length t toks → YmlLine (b ++ t) toks

/-- A line of printable characters that is not a document marker. -/
def YmlFullLine (l : Str) (toks : List Tok) : Prop :=
  YmlLine l toks ∧ (∀ c ∈ l, YmlChar c) ∧ ¬ g!"---" <+: l ∧ ¬ g!"..." <+: l

/-- The lines of a text. -/
inductive YmlLines : Str → List Tok → Prop
  | last {l : Str} {toks : List Tok} : YmlFullLine l toks → YmlLines l toks
  | line {l u : Str} {a b : List Tok} : YmlFullLine l a → YmlLines u b → YmlLines (l ++ '\n' :: u) (a ++ b)

/-! ### Indentation -/

/-- Entries make a mapping or a sequence. -/
inductive YmlTree : Bool → List (Option YNode × YNode) → YNode → Prop
  | map (es : List (YNode × YNode)) : YmlTree true (es.map fun e => (some e.1, e.2)) (.map es)
  | seq (l : List YNode) : YmlTree false (l.map fun v => (none, v)) (.seq l)

/-- The entries in column `i`, of a mapping (`true`) or a sequence. A value that is not on the line of its key or dash is null or is
further to the right; a sequence may be in the column of its key. -/
inductive YmlBlock : Nat → Bool → List Tok → List (Option YNode × YNode) → Prop
  | nil {i : Nat} {m : Bool} : YmlBlock i m [] []
  | inline {i : Nat} {m : Bool} {k : Option YNode} {v : YNode} {ts : List Tok} {es : List (Option YNode × YNode)} :
      k.isSome = m → YmlBlock i m ts es → YmlBlock i m (⟨i, k, some v⟩ :: ts) ((k, v) :: es)
  | null {i : Nat} {m : Bool} {k : Option YNode} {ts : List Tok} {es : List (Option YNode × YNode)} :
      k.isSome = m → YmlBlock i m ts es → YmlBlock i m (⟨i, k, none⟩ :: ts) ((k, .scalar [] true) :: es)
  | nested {i j : Nat} {m m' : Bool} {k : Option YNode} {v : YNode} {ts ts' : List Tok} {es es' : List (Option YNode × YNode)} :
      k.isSome = m → (i < j ∨ (i = j ∧ m = true ∧ m' = false)) → ts' ≠ [] → YmlBlock j m' ts' es' → YmlTree m' es' v →
      YmlBlock i m ts es → YmlBlock i m (⟨i, k, none⟩ :: (ts' ++ ts)) ((k, v) :: es)

/-- The text of a document; `none` is a text without one. -/
inductive YmlDoc : Str → Option YNode → Prop
  | none {s : Str} : YmlLines s [] → YmlDoc s none
  | some {s : Str} {toks : List Tok} {i : Nat} {m : Bool} {es : List (Option YNode × YNode)} {n : YNode} :
      YmlLines s toks → toks ≠ [] → YmlBlock i m toks es → YmlTree m es n → YmlDoc s (some n)

end Osv.Spec
