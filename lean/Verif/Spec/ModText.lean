import Verif.Spec.Lines
import Verif.Spec.JsonText
import Verif.Model.LockGoMod
/-!
# The text of a go.mod

The grammar of <https://go.dev/ref/mod#go-mod-file>, with what the library accepts beyond it.
-/
namespace Osv.Spec.ModText
open Osv

/-! ## Words of a line -/

/-- A character of a bare word: visible and not a bracket or a comma. `print` tells which characters outside of ASCII are visible. -/
def BareChar (print : Char → Bool) (c : Char) : Prop :=
  (33 ≤ c.toNat ∧ c.toNat ≤ 126 ∧ c ∉ g!"()[]{},") ∨ (128 ≤ c.toNat ∧ print c = true)

/-- White space within a line. -/
def Gap (s : Str) : Prop := ∀ c ∈ s, c ∈ [' ', '\t', '\r']

/-- `w` is a bare word that `rest` follows: it goes up to a character that does not belong to such words or to a comment. -/
structure Bare (print : Char → Bool) (w rest : Str) : Prop where
  nonempty : w ≠ []
  chars : ∀ c ∈ w, BareChar print c
  unquoted : ∀ t, w ≠ '"' :: t ∧ w ≠ '`' :: t
  noComment : ∀ a b d, w ++ rest = a ++ '/' :: d :: b → d = '/' ∨ d = '*' → w.length ≤ a.length
  ends : (∀ c t, rest = c :: t → ¬ BareChar print c) ∨ ∃ t, rest = '/' :: '/' :: t

/-- What follows the opening quote `q` of a word, with the closing one. -/
inductive Enclosed (q : Char) : Str → Prop
  | close : Enclosed q [q]
  | plain {c : Char} {t : Str} : c ≠ q → (c = '\\' → q = '`') → Enclosed q t → Enclosed q (c :: t)
  | escaped {c : Char} {t : Str} : q ≠ '`' → Enclosed q t → Enclosed q ('\\' :: c :: t)

/-- The words of a line. -/
inductive LineWords (print : Char → Bool) : Str → List Str → Prop
  | nil {gap : Str} : Gap gap → LineWords print gap []
  | comment {gap body : Str} : Gap gap → LineWords print (gap ++ '/' :: '/' :: body) []
  | bare {gap w rest : Str} {ws : List Str} : Gap gap → Bare print w rest → LineWords print rest ws →
      LineWords print (gap ++ (w ++ rest)) (w :: ws)
  | quoted {gap t rest : Str} {q : Char} {ws : List Str} : Gap gap → q = '"' ∨ q = '`' → Enclosed q t → LineWords print rest ws →
      LineWords print (gap ++ q :: (t ++ rest)) ((q :: t) :: ws)
  | punct {gap rest : Str} {c : Char} {ws : List Str} : Gap gap → c ∈ g!"()[]{}," → LineWords print rest ws →
      LineWords print (gap ++ c :: rest) ([c] :: ws)

/-! ## Lines and blocks -/

/-- The directives that may be written as a block. -/
def IsBlock (verb : Str) : Prop :=
  verb ∈ [g!"module", g!"godebug", g!"require", g!"exclude", g!"replace", g!"retract", g!"tool", g!"ignore"]

/-- The lines of a block with something in them. -/
inductive BlockLines : List (List Str) → List (List Str) → Prop
  | nil : BlockLines [] []
  | blank {ls es : List (List Str)} : BlockLines ls es → BlockLines ([] :: ls) es
  | entry {w : Str} {ws : List Str} {ls es : List (List Str)} : w ≠ g!")" → BlockLines ls es →
      BlockLines ((w :: ws) :: ls) ((w :: ws) :: es)

/-- The directives of a file, given the words of its lines. -/
inductive Directives : List (List Str) → List (Str × List Str) → Prop
  | nil : Directives [] []
  | blank {ls : List (List Str)} {ds : List (Str × List Str)} : Directives ls ds → Directives ([] :: ls) ds
  | line {verb : Str} {args : List Str} {ls : List (List Str)} {ds : List (Str × List Str)} : (∀ a, args ≠ a ++ [g!"("]) →
      (∀ a, args ≠ a ++ [g!"(", g!")"]) → Directives ls ds → Directives ((verb :: args) :: ls) ((verb, args) :: ds)
  | empty {verb : Str} {ls : List (List Str)} {ds : List (Str × List Str)} : IsBlock verb → Directives ls ds →
      Directives ([verb, g!"(", g!")"] :: ls) ds
  | block {verb : Str} {body es ls : List (List Str)} {ds : List (Str × List Str)} : IsBlock verb → BlockLines body es →
      Directives ls ds → Directives ([verb, g!"("] :: (body ++ [g!")"] :: ls)) (es.map (fun e => (verb, e)) ++ ds)

/-! ## Values of words -/

/-- The number that digits stand for in a base. -/
inductive Numeral (base : Nat) : Str → Nat → Prop
  | nil : Numeral base [] 0
  | snoc {s : Str} {m n : Nat} {c : Char} : Numeral base s m → HexDigit c n → n < base → Numeral base (s ++ [c]) (base * m + n)

/-- Escapes of one letter. -/
def simpleEscapes : List (Char × Char) :=
  [('a', '\x07'), ('b', '\x08'), ('f', '\x0c'), ('n', '\n'), ('r', '\r'), ('t', '\t'), ('v', '\x0b'), ('\\', '\\'), ('"', '"')]

/-- The character for a byte; bytes that are no characters of their own become replacement characters. -/
def ByteChar (n : Nat) (c : Char) : Prop := (n < 128 ∧ c.toNat = n) ∨ (128 ≤ n ∧ n < 256 ∧ c.toNat = 0xFFFD)

/-- The text that the inside of double quotes stands for. -/
inductive Escapes : Str → Str → Prop
  | nil : Escapes [] []
  | plain {c : Char} {t s : Str} : c ≠ '"' → c ≠ '\\' → c ≠ '\n' → Escapes t s → Escapes (c :: t) (c :: s)
  | simple {e c : Char} {t s : Str} : (e, c) ∈ simpleEscapes → Escapes t s → Escapes ('\\' :: e :: t) (c :: s)
  | hex {ds t s : Str} {n : Nat} {c : Char} : ds.length = 2 → Numeral 16 ds n → ByteChar n c → Escapes t s →
      Escapes ('\\' :: 'x' :: (ds ++ t)) (c :: s)
  | short {ds t s : Str} {n : Nat} {c : Char} : ds.length = 4 → Numeral 16 ds n → c.toNat = n → Escapes t s →
      Escapes ('\\' :: 'u' :: (ds ++ t)) (c :: s)
  | long {ds t s : Str} {n : Nat} {c : Char} : ds.length = 8 → Numeral 16 ds n → c.toNat = n → Escapes t s →
      Escapes ('\\' :: 'U' :: (ds ++ t)) (c :: s)
  | octal {ds t s : Str} {n : Nat} {c : Char} : ds.length = 3 → Numeral 8 ds n → ByteChar n c → Escapes t s →
      Escapes ('\\' :: (ds ++ t)) (c :: s)

/-- The text that a word stands for. -/
inductive Value : Str → Str → Prop
  | quoted {t s : Str} : Escapes t s → Value ('"' :: (t ++ ['"'])) s
  | bare {w : Str} : (∀ c ∈ w, c ≠ '"' ∧ c ≠ '\'' ∧ c ≠ '`') → Value w w

/-! ## Versions -/

/-- A decimal digit. -/
def Digit (c : Char) : Prop := '0' ≤ c ∧ c ≤ '9'

/-- A decimal number without leading zeros. -/
def Number (t : Str) : Prop := t ≠ [] ∧ (∀ c ∈ t, Digit c) ∧ ∀ r, t = '0' :: r → r = []

/-- An identifier in a version. -/
def Ident (t : Str) : Prop :=
  t ≠ [] ∧ ∀ c ∈ t, Digit c ∨ ('A' ≤ c ∧ c ≤ 'Z') ∨ ('a' ≤ c ∧ c ≤ 'z') ∨ c = '-'

/-- Nothing, or identifiers with dots between them after a sign. -/
inductive Labels (sign : Char) (ok : Str → Prop) : Str → Prop
  | none : Labels sign ok []
  | some {i : Str} {ids : List Str} : (∀ j ∈ i :: ids, Ident j ∧ ok j) → Labels sign ok (sign :: (i ++ ids.flatMap ('.' :: ·)))

/-- A semantic version: its major number, the version without the build, in full, and the build. -/
inductive Release : Str → Str → Str → Str → Prop
  | major {m : Str} : Number m → Release ('v' :: m) m ('v' :: m ++ g!".0.0") []
  | minor {m n : Str} : Number m → Number n → Release ('v' :: m ++ '.' :: n) m ('v' :: m ++ '.' :: n ++ g!".0") []
  | full {m n p pre build : Str} : Number m → Number n → Number p →
      Labels '-' (fun i => (∀ c ∈ i, Digit c) → Number i) pre → Labels '+' (fun _ => True) build →
      Release ('v' :: m ++ '.' :: n ++ '.' :: p ++ pre ++ build) m ('v' :: m ++ '.' :: n ++ '.' :: p ++ pre) build

/-- The version of a module that a text names, with its major number: in full, and without a build other than `+incompatible`. -/
inductive Canonical : Str → Str → Str → Prop
  | plain {t m v b : Str} : Release t m v b → b ≠ g!"+incompatible" → Canonical t m v
  | incompatible {t m v : Str} : Release t m v g!"+incompatible" → Canonical t m (v ++ g!"+incompatible")

/-- The major version in a module path. -/
inductive Major where
  | none
  | slash (n : Str)
  | dot (n : Str)

/-- The major version in a path, for valid paths. -/
inductive PathMajor : Str → Major → Prop
  | gopkg {path rest pre n : Str} : path = g!"gopkg.in/" ++ rest → path = pre ++ g!".v" ++ n → Number n → PathMajor path (.dot n)
  | unstable {path rest pre n : Str} : path = g!"gopkg.in/" ++ rest → path = pre ++ g!".v" ++ n ++ g!"-unstable" →
      (∀ c ∈ n, Digit c) → (∀ r, n ≠ '0' :: r) → PathMajor path (.dot n)
  | slash {path pre n : Str} : (∀ rest, path ≠ g!"gopkg.in/" ++ rest) → path = pre ++ g!"/v" ++ n → Number n → n ≠ g!"0" →
      n ≠ g!"1" → PathMajor path (.slash n)
  | none {path : Str} : (∀ rest, path ≠ g!"gopkg.in/" ++ rest) →
      (∀ pre n, path = pre ++ g!"/v" ++ n → n ≠ [] → ∃ c ∈ n, ¬ Digit c ∧ c ≠ '.') → PathMajor path .none

/-- Version `v` with major number `m` may be one of a module with the major version in its path. -/
inductive Belongs (v m : Str) : Major → Prop
  | unversioned : m = g!"0" ∨ m = g!"1" ∨ (∃ u, v = u ++ g!"+incompatible") → Belongs v m .none
  | slash : Belongs v m (.slash m)
  | dot : Belongs v m (.dot m)
  | old {u : Str} : v = g!"v0.0.0-" ++ u → Belongs v m (.dot g!"1")

/-! ## Directives -/

/-- A module path and one of its versions, in two words. -/
inductive Module : Str → Str → GoModule → Prop
  | mk {p v path t ver m : Str} {pm : Major} : Value p path → Value v t → Canonical t m ver → PathMajor path pm → Belongs ver m pm →
      Module p v ⟨path, ver⟩

/-- A path of a directory. -/
inductive DirPath : Str → Prop
  | dot : DirPath g!"."
  | dotdot : DirPath g!".."
  | here {t : Str} {c : Char} : c = '/' ∨ c = '\\' → DirPath ('.' :: c :: t)
  | up {t : Str} {c : Char} : c = '/' ∨ c = '\\' → DirPath ('.' :: '.' :: c :: t)
  | root {t : Str} {c : Char} : c = '/' ∨ c = '\\' → DirPath (c :: t)
  | drive {t : Str} {c : Char} : ('A' ≤ c ∧ c ≤ 'Z') ∨ ('a' ≤ c ∧ c ≤ 'z') → DirPath (c :: ':' :: t)

/-- What follows the arrow of a `replace` directive. -/
inductive Replacement : List Str → GoModule → Prop
  | dir {d path : Str} : Value d path → DirPath path → '\\' ∉ path → Replacement [d] ⟨path, []⟩
  | mod {p v path t m ver : Str} : Value p path → Value v t → Canonical t m ver → ¬ DirPath path → Replacement [p, v] ⟨path, ver⟩

/-- A version of Go. -/
inductive GoVersion : Str → Prop
  | mk {m n p s : Str} : Number m → m ≠ g!"0" → Number n → p = [] ∨ (∃ q, p = '.' :: q ∧ Number q) →
      s = [] ∨ (∃ a b, s = a ++ b ∧ a ≠ [] ∧ (∀ c ∈ a, 'a' ≤ c ∧ c ≤ 'z') ∧ b ≠ [] ∧ ∀ c ∈ b, Digit c) →
      GoVersion (m ++ '.' :: n ++ p ++ s)

/-- What a directive says: the modules it requires and those it replaces. -/
inductive Says : Str × List Str → List GoModule → List GoReplace → Prop
  | module {p path : Str} : Value p path → Says (g!"module", [p]) [] []
  | go {v : Str} : GoVersion v → Says (g!"go", [v]) [] []
  | toolchain {v : Str} : v = g!"default" ∨ v = g!"go1" ∨ (∃ t, v = g!"go1." ++ t) → Says (g!"toolchain", [v]) [] []
  | godebug {kv : Str} : '=' ∈ kv → (∀ c ∈ kv, c ∉ ['"', '`', '\'', ',']) → Says (g!"godebug", [kv]) [] []
  | require {p v : Str} {m : GoModule} : Module p v m → Says (g!"require", [p, v]) [m] []
  | exclude {p v : Str} {m : GoModule} : Module p v m → Says (g!"exclude", [p, v]) [] []
  | replaceAll {p path : Str} {rest : List Str} {pm : Major} {m : GoModule} : Value p path → PathMajor path pm → Replacement rest m →
      Says (g!"replace", p :: g!"=>" :: rest) [] [⟨⟨path, []⟩, m⟩]
  | replaceOne {p v : Str} {rest : List Str} {old m : GoModule} : Module p v old → Replacement rest m →
      Says (g!"replace", p :: v :: g!"=>" :: rest) [] [⟨old, m⟩]
  | retract {v t : Str} : Value v t → v ≠ g!"(" → v ≠ g!"[" → Says (g!"retract", [v]) [] []
  | retractRange {v w t u : Str} : Value v t → Value w u → Says (g!"retract", [g!"[", v, g!",", w, g!"]"]) [] []
  | tool {p path : Str} : Value p path → Says (g!"tool", [p]) [] []
  | ignore {p path : Str} : Value p path → Says (g!"ignore", [p]) [] []

/-- What the directives of a file say, in order. -/
inductive SayAll : List (Str × List Str) → List GoModule → List GoReplace → Prop
  | nil : SayAll [] [] []
  | cons {d : Str × List Str} {ds : List (Str × List Str)} {ms ms' : List GoModule} {rs rs' : List GoReplace} : Says d ms rs →
      SayAll ds ms' rs' → SayAll (d :: ds) (ms ++ ms') (rs ++ rs')

/-- A file with directives, the modules it requires and the ones it replaces, in the order of the file. -/
inductive Reads (print : Char → Bool) (content : Str) : GoModFile → Prop
  | mk {lines : List Str} {words : List (List Str)} {ds : List (Str × List Str)} {ms : List GoModule} {rs : List GoReplace} :
      LinesOf content lines → Each (LineWords print) lines words → Directives words ds → SayAll ds ms rs →
      (∀ verb ∈ [g!"module", g!"go", g!"toolchain"], (ds.map Prod.fst).count verb ≤ 1) → Reads print content ⟨ms, rs⟩

end Osv.Spec.ModText
