import Verif.Go.TomlText
import Verif.Spec.JsonText
import Verif.Go.JsonEncode
/-!
# The texts of a TOML document (TOML 1.0)

Tables may be written in all ways that TOML has, if the parts of a table follow each other. Dates and times and floats are values
without an inside.
-/
namespace Osv.Spec
open Osv TomlText

/-! ### Lines -/

def TomlBlank (s : Str) : Prop := ∀ c ∈ s, c = ' ' ∨ c = '\t'

/-- A character of a comment or of a string. -/
def TomlChar (c : Char) : Prop := c = '\t' ∨ (0x20 ≤ c.toNat ∧ c.toNat ≠ 0x7f)

def TomlNewline (s : Str) : Prop := s = g!"\n" ∨ s = g!"\r\n"

/-- Nothing, or a comment. -/
def TomlComment (s : Str) : Prop := s = [] ∨ ∃ t, s = '#' :: t ∧ ∀ c ∈ t, TomlChar c

/-- A line is over: what follows is blanks, a comment and a line end with `u` behind it, or the end of the text. -/
def TomlEnd (u s : Str) : Prop :=
  ∃ b c, TomlBlank b ∧ TomlComment c ∧ ((∃ n, TomlNewline n ∧ s = b ++ (c ++ (n ++ u))) ∨ (u = [] ∧ s = b ++ c))

/-- What may stand between the items of an array. -/
inductive TomlGap : Str → Prop
  | nil : TomlGap []
  | blank {c : Char} {s : Str} : c = ' ' ∨ c = '\t' → TomlGap s → TomlGap (c :: s)
  | newline {n s : Str} : TomlNewline n → TomlGap s → TomlGap (n ++ s)
  | comment {t n s : Str} : (∀ c ∈ t, TomlChar c) → TomlNewline n → TomlGap s → TomlGap ('#' :: (t ++ (n ++ s)))

/-! ### Strings -/

/-- The number that hexadecimal digits stand for. -/
def TomlHex (ds : Str) (n : Nat) : Prop := ∃ vs, Each HexDigit ds vs ∧ n = vs.foldl (fun a d => a * 16 + d) 0

/-- A character that has a number: no surrogate, and not too big. -/
def TomlScalar (n : Nat) : Prop := n < 0xD800 ∨ (0xDFFF < n ∧ n < 0x110000)

/-- A character and an escape for it. -/
inductive TomlEscape : Char → Str → Prop
  | short {e c : Char} : (e, c) ∈ [('b', '\x08'), ('t', '\t'), ('n', '\n'), ('f', '\x0c'), ('r', '\r'), ('"', '"'), ('\\', '\\')] →
      TomlEscape c ['\\', e]
  | four {ds : Str} {n : Nat} : ds.length = 4 → TomlHex ds n → TomlScalar n → TomlEscape (Char.ofNat n) ('\\' :: 'u' :: ds)
  | eight {ds : Str} {n : Nat} : ds.length = 8 → TomlHex ds n → TomlScalar n → TomlEscape (Char.ofNat n) ('\\' :: 'U' :: ds)

/-- The inside of a string in double quotes: what it says and how it is written. -/
inductive TomlBasic : Str → Str → Prop
  | nil : TomlBasic [] []
  | char {c : Char} {t raw : Str} : TomlChar c → c ≠ '"' → c ≠ '\\' → TomlBasic t raw → TomlBasic (c :: t) (c :: raw)
  | escape {c : Char} {e t raw : Str} : TomlEscape c e → TomlBasic t raw → TomlBasic (c :: t) (e ++ raw)

/-- The inside of a string in single quotes. -/
def TomlLiteral (t : Str) : Prop := ∀ c ∈ t, TomlChar c ∧ c ≠ '\''

/-- A string of many lines in double quotes, behind the first quotes and with the last ones. -/
inductive TomlLines : Str → Str → Prop
  | close : TomlLines [] g!"\"\"\""
  | close1 : TomlLines g!"\"" g!"\"\"\"\""
  | close2 : TomlLines g!"\"\"" g!"\"\"\"\"\""
  | char {c : Char} {t raw : Str} : TomlChar c → c ≠ '"' → c ≠ '\\' → TomlLines t raw → TomlLines (c :: t) (c :: raw)
  | quote {t raw : Str} : TomlLines t raw → raw.head? ≠ some '"' → TomlLines ('"' :: t) ('"' :: raw)
  | quote2 {t raw : Str} : TomlLines t raw → raw.head? ≠ some '"' → TomlLines ('"' :: '"' :: t) ('"' :: '"' :: raw)
  | newline {n t raw : Str} : TomlNewline n → TomlLines t raw → TomlLines (n ++ t) (n ++ raw)
  | escape {c : Char} {e t raw : Str} : TomlEscape c e → TomlLines t raw → TomlLines (c :: t) (e ++ raw)
  /-- a backslash at the end of a line, and the white space up to the next text -/
  | trim {b n w t raw : Str} : TomlBlank b → TomlNewline n → (∀ c ∈ w, c = ' ' ∨ c = '\t' ∨ c = '\n' ∨ c = '\r') →
      TomlLines t raw → raw.head? ≠ some ' ' → raw.head? ≠ some '\t' → raw.head? ≠ some '\n' → raw.head? ≠ some '\r' →
      TomlLines t ('\\' :: (b ++ (n ++ (w ++ raw))))

/-- A string of many lines in single quotes, behind the first quotes and with the last ones. -/
inductive TomlRawLines : Str → Str → Prop
  | close : TomlRawLines [] g!"'''"
  | close1 : TomlRawLines g!"'" g!"''''"
  | close2 : TomlRawLines g!"''" g!"'''''"
  | char {c : Char} {t raw : Str} : TomlChar c → c ≠ '\'' → TomlRawLines t raw → TomlRawLines (c :: t) (c :: raw)
  | quote {t raw : Str} : TomlRawLines t raw → raw.head? ≠ some '\'' → TomlRawLines ('\'' :: t) ('\'' :: raw)
  | quote2 {t raw : Str} : TomlRawLines t raw → raw.head? ≠ some '\'' → TomlRawLines ('\'' :: '\'' :: t) ('\'' :: '\'' :: raw)
  | newline {n t raw : Str} : TomlNewline n → TomlRawLines t raw → TomlRawLines (n ++ t) (n ++ raw)

/-- The line end behind the first quotes does not belong to the text. -/
def TomlFirst (first raw : Str) : Prop := TomlNewline first ∨ (first = [] ∧ raw.head? ≠ some '\n' ∧ raw.head? ≠ some '\r')

/-! ### Keys -/

def TomlWordChar (c : Char) : Prop :=
  ('a' ≤ c ∧ c ≤ 'z') ∨ ('A' ≤ c ∧ c ≤ 'Z') ∨ ('0' ≤ c ∧ c ≤ '9') ∨ c = '_' ∨ c = '-'

/-- A part of a key. -/
inductive TomlWord : Str → Str → Prop
  | bare {t : Str} : t ≠ [] → (∀ c ∈ t, TomlWordChar c) → TomlWord t t
  | basic {t raw : Str} : TomlBasic t raw → TomlWord t ('"' :: (raw ++ g!"\""))
  | literal {t : Str} : TomlLiteral t → TomlWord t ('\'' :: (t ++ g!"'"))

/-- A key: parts with dots between them. -/
inductive TomlKey : List Str → Str → Prop
  | one {k t : Str} : TomlWord k t → TomlKey [k] t
  | dot {k t b b' u : Str} {ks : List Str} : TomlWord k t → TomlBlank b → TomlBlank b' → TomlKey ks u →
      TomlKey (k :: ks) (t ++ (b ++ '.' :: (b' ++ u)))

/-! ### Integers and other values without an inside -/

/-- Digits with single underscores between them, without the underscores. -/
inductive TomlDigits (P : Char → Prop) : Str → Str → Prop
  | one {c : Char} : P c → TomlDigits P [c] [c]
  | next {c : Char} {ds t : Str} : P c → TomlDigits P ds t → TomlDigits P (c :: ds) (c :: t)
  | under {c : Char} {ds t : Str} : P c → TomlDigits P ds t → TomlDigits P (c :: ds) (c :: '_' :: t)

/-- The number that digits stand for. -/
def TomlNumber (base : Nat) (ds : Str) (n : Nat) : Prop := ∃ vs, Each HexDigit ds vs ∧ n = vs.foldl (fun a d => a * base + d) 0

/-- The value of a digit is below a bound. -/
def TomlDigit (base : Nat) (c : Char) : Prop := ∃ v, HexDigit c v ∧ v < base

/-- A decimal number does not start with 0 unless it is 0. -/
def TomlDecimal (t : Str) (n : Nat) : Prop :=
  (t = g!"0" ∧ n = 0) ∨ ∃ ds, TomlDigits (TomlDigit 10) ds t ∧ t.head? ≠ some '0' ∧ TomlNumber 10 ds n

/-- An integer of 64 bits. -/
def TomlInt (i : Int) (t : Str) : Prop :=
  ((∃ n : Nat, TomlDecimal t n ∧ i = n) ∨ (∃ (n : Nat) (u : Str), t = '+' :: u ∧ TomlDecimal u n ∧ i = n) ∨
    (∃ (n : Nat) (u : Str), t = '-' :: u ∧ TomlDecimal u n ∧ i = -n) ∨
    (∃ (n : Nat) (u ds : Str) (p : Char × Nat), p ∈ [('x', 16), ('o', 8), ('b', 2)] ∧ t = '0' :: p.1 :: u ∧
      TomlDigits (TomlDigit p.2) ds u ∧ TomlNumber p.2 ds n ∧ i = n)) ∧ -2^63 ≤ i ∧ i < 2^63

/-- A sign, or none. -/
def TomlSign (s : Str) : Prop := s = [] ∨ s = g!"+" ∨ s = g!"-"

/-- Digits behind a dot. -/
def TomlFraction (t : Str) : Prop := ∃ ds u, TomlDigits (TomlDigit 10) ds u ∧ t = '.' :: u

def TomlExponent (t : Str) : Prop :=
  ∃ e s ds u, (e = 'e' ∨ e = 'E') ∧ TomlSign s ∧ TomlDigits (TomlDigit 10) ds u ∧ t = e :: (s ++ u)

/-- A floating point number. -/
def TomlFloat (t : Str) : Prop :=
  ∃ s u, TomlSign s ∧ t = s ++ u ∧
    (u = g!"inf" ∨ u = g!"nan" ∨
      ∃ a b, (∃ n, TomlDecimal a n) ∧ u = a ++ b ∧
        (TomlFraction b ∨ TomlExponent b ∨ ∃ f e, TomlFraction f ∧ TomlExponent e ∧ b = f ++ e))

/-- A number that is written with so many digits. -/
def TomlPadded (width : Nat) (t : Str) (n : Nat) : Prop := t.length = width ∧ (∀ c ∈ t, TomlDigit 10 c) ∧ TomlNumber 10 t n

/-- Days of a month. -/
def tomlDays (year month : Nat) : Nat :=
  if month = 2 then if year % 4 = 0 ∧ (year % 100 ≠ 0 ∨ year % 400 = 0) then 29 else 28
  else if month = 4 ∨ month = 6 ∨ month = 9 ∨ month = 11 then 30 else 31

def TomlDate (t : Str) : Prop :=
  ∃ a b c y m d, TomlPadded 4 a y ∧ TomlPadded 2 b m ∧ TomlPadded 2 c d ∧ 1 ≤ m ∧ m ≤ 12 ∧ 1 ≤ d ∧ d ≤ tomlDays y m ∧
    t = a ++ '-' :: (b ++ '-' :: c)

def TomlTime (t : Str) : Prop :=
  ∃ a b c f h m s, TomlPadded 2 a h ∧ TomlPadded 2 b m ∧ TomlPadded 2 c s ∧ h < 24 ∧ m < 60 ∧ s < 60 ∧
    (f = [] ∨ ∃ ds, ds ≠ [] ∧ ds.length ≤ 9 ∧ (∀ c ∈ ds, TomlDigit 10 c) ∧ f = '.' :: ds) ∧ t = a ++ ':' :: (b ++ ':' :: (c ++ f))

/-- A time zone. -/
def TomlZone (t : Str) : Prop :=
  t = g!"Z" ∨ t = g!"z" ∨ ∃ s a b h m, (s = '+' ∨ s = '-') ∧ TomlPadded 2 a h ∧ TomlPadded 2 b m ∧ h < 24 ∧ m < 60 ∧
    t = s :: (a ++ ':' :: b)

/-- A boolean, floating point number, date or time. -/
def TomlOther (t : Str) : Prop :=
  t = g!"true" ∨ t = g!"false" ∨ TomlFloat t ∨ TomlDate t ∨ TomlTime t ∨
    ∃ d s u z, TomlDate d ∧ (s = 'T' ∨ s = 't') ∧ TomlTime u ∧ (z = [] ∨ TomlZone z) ∧ t = d ++ s :: (u ++ z)

/-! ### Values -/

/-- The entries of a table and the pairs that give them: a table in it may be given by keys with dots. No key is given twice. -/
inductive TomlPairs : List Str → List (Str × TNode) → List (List Str × TNode) → Prop
  | nil {p : List Str} : TomlPairs p [] []
  | value {p : List Str} {k : Str} {v : TNode} {es : List (Str × TNode)} {l : List (List Str × TNode)} :
      k ∉ es.map Prod.fst → TomlPairs p es l → TomlPairs p ((k, v) :: es) ((p ++ [k], v) :: l)
  | dotted {p : List Str} {k : Str} {sub es : List (Str × TNode)} {l l' : List (List Str × TNode)} :
      k ∉ es.map Prod.fst → sub ≠ [] → TomlPairs (p ++ [k]) sub l → TomlPairs p es l' →
      TomlPairs p ((k, .table sub) :: es) (l ++ l')

mutual
/-- A value and how it is written. -/
inductive TomlValue : TNode → Str → Prop
  | basic {t raw : Str} : TomlBasic t raw → TomlValue (.str t) ('"' :: (raw ++ g!"\""))
  | literal {t : Str} : TomlLiteral t → TomlValue (.str t) ('\'' :: (t ++ g!"'"))
  | lines {first t raw : Str} : TomlFirst first raw → TomlLines t raw → TomlValue (.str t) (g!"\"\"\"" ++ (first ++ raw))
  | rawLines {first t raw : Str} : TomlFirst first raw → TomlRawLines t raw → TomlValue (.str t) (g!"'''" ++ (first ++ raw))
  | int {i : Int} {t : Str} : TomlInt i t → TomlValue (.int i) t
  | other {t : Str} : TomlOther t → TomlValue .other t
  | arr {l : List TNode} {t : Str} : TomlItems l t → TomlValue (.arr l) ('[' :: t)
  | empty {b : Str} : TomlBlank b → TomlValue (.table []) ('{' :: (b ++ g!"}"))
  | table {b t : Str} {l : List (List Str × TNode)} {es : List (Str × TNode)} : TomlBlank b → TomlInline l t → TomlPairs [] es l →
      TomlValue (.table es) ('{' :: (b ++ t))
/-- The items of an array with the bracket that ends it; a comma may stand behind the last item. -/
inductive TomlItems : List TNode → Str → Prop
  | nil {g : Str} : TomlGap g → TomlItems [] (g ++ g!"]")
  | last {g t g' : Str} {v : TNode} : TomlGap g → TomlValue v t → TomlGap g' → TomlItems [v] (g ++ (t ++ (g' ++ g!"]")))
  | cons {g t g' u : Str} {v : TNode} {l : List TNode} : TomlGap g → TomlValue v t → TomlGap g' → TomlItems l u →
      TomlItems (v :: l) (g ++ (t ++ (g' ++ ',' :: u)))
/-- The pairs of a table in braces with the brace that ends it; all in one line, apart from the values. -/
inductive TomlInline : List (List Str × TNode) → Str → Prop
  | last {k : List Str} {v : TNode} {t a b u c : Str} : TomlKey k t → TomlBlank a → TomlBlank b → TomlValue v u → TomlBlank c →
      TomlInline [(k, v)] (t ++ (a ++ '=' :: (b ++ (u ++ (c ++ g!"}")))))
  | cons {k : List Str} {v : TNode} {t a b u c d w : Str} {l : List (List Str × TNode)} : TomlKey k t → TomlBlank a → TomlBlank b →
      TomlValue v u → TomlBlank c → TomlBlank d → TomlInline l w →
      TomlInline ((k, v) :: l) (t ++ (a ++ '=' :: (b ++ (u ++ (c ++ ',' :: (d ++ w))))))
end

/-! ### Documents -/

/-- The statements of a document and its text. -/
inductive TomlStmts : List Stmt → Str → Prop
  | nil : TomlStmts [] []
  | empty {l : List Stmt} {u s : Str} : TomlEnd u s → s ≠ [] → TomlStmts l u → TomlStmts l s
  | set {l : List Stmt} {k : List Str} {v : TNode} {a t b c w u s : Str} : TomlBlank a → TomlKey k t → TomlBlank b → TomlBlank c →
      TomlValue v w → TomlEnd u s → TomlStmts l u → TomlStmts (.set k v :: l) (a ++ (t ++ (b ++ '=' :: (c ++ (w ++ s)))))
  | table {l : List Stmt} {k : List Str} {a b t c u s : Str} : TomlBlank a → TomlBlank b → TomlKey k t → TomlBlank c → TomlEnd u s →
      TomlStmts l u → TomlStmts (.table k :: l) (a ++ '[' :: (b ++ (t ++ (c ++ ']' :: s))))
  | item {l : List Stmt} {k : List Str} {a b t c u s : Str} : TomlBlank a → TomlBlank b → TomlKey k t → TomlBlank c → TomlEnd u s →
      TomlStmts l u → TomlStmts (.item k :: l) (a ++ '[' :: '[' :: (b ++ (t ++ (c ++ ']' :: ']' :: s))))

mutual
/-- The entries of the table with a key and the statements behind its header. -/
inductive TomlBody : List Str → List (Str × TNode) → List Stmt → Prop
  | mk {p : List Str} {own subs : List (Str × TNode)} {l : List (List Str × TNode)} {s : List Stmt} :
      (∀ e ∈ own, e.1 ∉ subs.map Prod.fst) → TomlPairs [] own l → TomlSubs p subs s →
      TomlBody p (own ++ subs) (l.map (fun x => .set x.1 x.2) ++ s)
/-- The tables in the table with a key, and the statements that give them. -/
inductive TomlSubs : List Str → List (Str × TNode) → List Stmt → Prop
  | nil {p : List Str} : TomlSubs p [] []
  | table {p : List Str} {k : Str} {sub es : List (Str × TNode)} {s s' : List Stmt} : k ∉ es.map Prod.fst →
      TomlBody (p ++ [k]) sub s → TomlSubs p es s' → TomlSubs p ((k, .table sub) :: es) (.table (p ++ [k]) :: (s ++ s'))
  /-- a table that only has tables needs no header -/
  | inner {p : List Str} {k : Str} {sub es : List (Str × TNode)} {s s' : List Stmt} : k ∉ es.map Prod.fst → sub ≠ [] →
      TomlSubs (p ++ [k]) sub s → TomlSubs p es s' → TomlSubs p ((k, .table sub) :: es) (s ++ s')
  | list {p : List Str} {k : Str} {l : List TNode} {es : List (Str × TNode)} {s s' : List Stmt} : k ∉ es.map Prod.fst → l ≠ [] →
      TomlElems (p ++ [k]) l s → TomlSubs p es s' → TomlSubs p ((k, .arr l) :: es) (s ++ s')
/-- The tables of an array, each with its header. -/
inductive TomlElems : List Str → List TNode → List Stmt → Prop
  | nil {p : List Str} : TomlElems p [] []
  | cons {p : List Str} {es : List (Str × TNode)} {l : List TNode} {s s' : List Stmt} : TomlBody p es s → TomlElems p l s' →
      TomlElems p (.table es :: l) (.item p :: (s ++ s'))
end

/-- A text of a TOML document, and the table that it stands for. -/
def TomlDoc (n : TNode) (text : Str) : Prop := ∃ es l, n = .table es ∧ TomlBody [] es l ∧ TomlStmts l text

/-- A tree that can be written: no table has a key twice, and integers have 64 bits. -/
inductive TomlTree : TNode → Prop
  | str (t : Str) : TomlTree (.str t)
  | int {i : Int} : -2^63 ≤ i → i < 2^63 → TomlTree (.int i)
  | other : TomlTree .other
  | arr {l : List TNode} : (∀ v ∈ l, TomlTree v) → TomlTree (.arr l)
  | table {es : List (Str × TNode)} : (es.map Prod.fst).Nodup → (∀ e ∈ es, TomlTree e.2) → TomlTree (.table es)

end Osv.Spec
