import Verif.Go.Json
import Verif.Model.MemDB
/-!
# Decoding into Go values (`encoding/json`, `Unmarshal`)

Decoding continues after a value of the wrong type but the error is returned in the end, so an error is `none`.
Simplification: when a field that is a slice occurs twice in an object, Go decodes the second array over the memory of the
first; here the second array replaces the first.
-/
namespace Osv.Json
open Osv Str

/-- `foldRune` of `encoding/json/fold.go`. Only ASCII letters and the two other runes that fold to one of them matter, as
the names of all fields are ASCII. -/
def foldRune (c : Char) : Char :=
  if 'a' ≤ c && c ≤ 'z' then c.toUpper else if c == 'ſ' then 'S' else if c == '\u212A' then 'K' else c

/-- `foldName` of `encoding/json/fold.go`. -/
def foldName (s : Str) : Str := s.map foldRune

/-- The field that the member `key` is decoded into: by exact name, or else by folded name. -/
def fieldOf (fields : List Str) (key : Str) : Option Str :=
  if fields.contains key then some key else fields.find? fun f => foldName f == foldName key

/-- Into a `string` that holds `old`. -/
def decStr (v : JVal) (old : Str) : Option Str :=
  match v with
  | .str s => some s
  | .null => some old
  | _ => none

/-- `strconv.ParseInt(lit, 10, 64)` succeeds on a number literal. -/
def isInt64 (lit : Str) : Bool :=
  let s := if hasPrefix lit g!"-" then lit.drop 1 else lit
  let n := s.foldl (fun n c => 10 * n + (c.toNat - 48)) 0
  s ≠ [] && s.all isDigit && (if hasPrefix lit g!"-" then n ≤ 2 ^ 63 else n < 2 ^ 63)

/-- Into an `int` whose value is never read. -/
def decInt (v : JVal) : Option Unit :=
  match v with
  | .num lit => if isInt64 lit then some () else none
  | .null => some ()
  | _ => none

/-- The members of an object into a struct, one after the other. -/
def decMembers {σ : Type} (fields : List Str) (step : Str → JVal → σ → Option σ) : List (Str × JVal) → σ → Option σ
  | [], old => some old
  | (k, v) :: rest, old =>
    match fieldOf fields k with
    | none => decMembers fields step rest old
    | some f => (step f v old).bind fun new => decMembers fields step rest new

/-- Into a struct that holds `old`. -/
def decStruct {σ : Type} (fields : List Str) (step : Str → JVal → σ → Option σ) (v : JVal) (old : σ) : Option σ :=
  match v with
  | .obj m => decMembers fields step m.toList old
  | .null => some old
  | _ => none

/-- The members of an object into a map, one after the other; every value is decoded into a zero value. -/
def decEntries {α : Type} (dec : JVal → Option α) : List (Str × JVal) → SMap α → Option (SMap α)
  | [], old => some old
  | (k, v) :: rest, old => (dec v).bind fun x => decEntries dec rest (old.set k x)

/-- Into a map with string keys; `none` inside is the nil map. -/
def decMap {α : Type} (dec : JVal → Option α) (v : JVal) (old : Option (SMap α)) : Option (Option (SMap α)) :=
  match v with
  | .obj m => (decEntries dec m.toList (old.getD [])).map some
  | .null => some none
  | _ => none

/-- The elements of an array. -/
def decElems {α : Type} (dec : JVal → Option α) : List JVal → Option (List α)
  | [] => some []
  | v :: rest => (dec v).bind fun x => (decElems dec rest).map fun l => x :: l

/-- Into a slice; nil is the empty list. -/
def decSlice {α : Type} (dec : JVal → Option α) (v : JVal) : Option (List α) :=
  match v with
  | .arr l => decElems dec l.toList
  | .null => some []
  | _ => none

end Osv.Json
