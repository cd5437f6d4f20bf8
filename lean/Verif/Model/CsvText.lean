import Verif.Model.Csv
import Verif.Model.Main
/-!
# CSV text (`encoding/csv` of the standard library as used by `pkg/lockfile/csv.go:58-62`)

The reader has its default settings: fields are separated by commas, quotes must be balanced, and every record has as many fields as
the first one.
-/
namespace Osv
open Str

/-- `readLine` of `encoding/csv`: `\r\n` at the end of a line is read as `\n`, and a `\r` at the end of the text is dropped.
Simplification: all lines are read at once, so that the rest of the reader works on one text. -/
def csvNormal : Str → Str
  | [] => []
  | '\r' :: [] => []
  | '\r' :: '\n' :: r => '\n' :: csvNormal r
  | c :: r => c :: csvNormal r

/-- What comes after a field: another field, or the next record. -/
inductive CsvAfter where
  | field (rest : Str)
  | record (rest : Str)
deriving DecidableEq, Repr

/-- The text that is left. -/
def CsvAfter.rest : CsvAfter → Str
  | .field r => r
  | .record r => r

/-- The branch of `readRecord` for a field without quotes; `none` is `ErrBareQuote`. -/
def csvPlain (acc : Str) : Str → Option (Str × CsvAfter)
  | [] => some (acc, .record [])
  | ',' :: r => some (acc, .field r)
  | '\n' :: r => some (acc, .record r)
  | '"' :: _ => none
  | c :: r => csvPlain (acc ++ [c]) r

/-- The branch of `readRecord` for a field with quotes, after the first one; `none` is `ErrQuote`. -/
def csvQuoted (acc : Str) : Str → Option (Str × CsvAfter)
  | [] => none
  | '"' :: '"' :: r => csvQuoted (acc ++ ['"']) r
  | '"' :: ',' :: r => some (acc, .field r)
  | '"' :: '\n' :: r => some (acc, .record r)
  | '"' :: [] => some (acc, .record [])
  | '"' :: _ => none
  | c :: r => csvQuoted (acc ++ [c]) r

/-- One field, by its first character. -/
def csvField : Str → Option (Str × CsvAfter)
  | '"' :: r => csvQuoted [] r
  | s => csvPlain [] s

/-- The loop `parseField` of `readRecord`: the fields of a record and the text after it. `fuel` bounds the number of fields; with the
length of the text it is never used up. -/
def csvRecord : Nat → Str → Option (List Str × Str)
  | 0, _ => none
  | fuel + 1, s => match csvField s with
    | none => none
    | some (f, .record r) => some ([f], r)
    | some (f, .field r) => (csvRecord fuel r).map fun p => (f :: p.1, p.2)

/-- `Read` until the end: the records, and whether the end was reached without an error. Empty lines are skipped. `want` is the
number of fields of the first record. `fuel` as above. -/
def csvAll (want : Option Nat) : Nat → Str → List (List Str) × Bool
  | 0, _ => ([], true)
  | _ + 1, [] => ([], true)
  | fuel + 1, c :: r =>
    if c = '\n' then csvAll want fuel r
    else match csvRecord ((c :: r).length + 1) (c :: r) with
      | none => ([], false)
      | some (fs, rest) =>
        if want = none ∨ want = some fs.length then
          let t := csvAll (some fs.length) fuel rest
          (fs :: t.1, t.2)
        else ([], false)

/-- All records of a text. -/
def csvRecords (text : Str) : List (List Str) × Bool :=
  let t := csvNormal text
  csvAll none (t.length + 1) t

/-- The environment with CSV read from text: `pkg/lockfile/csv.go:89-97` `FromCSVRows` joins the arguments,
`pkg/lockfile/csv.go:99-117` `FromCSVFile` reads a file. -/
def Env.withCsv (env : Env) (file : Str → Option Str) : Env :=
  { env with
    csvFile := fun p => (file p).map csvRecords
    csvRows := fun rows => csvRecords (join g!"\n" rows) }

example : csvRecords g!"npm,,a,1\r\n\r\n\"Go\",,\"b\"\"c\",\"1\n2\"" = ([[g!"npm", [], g!"a", g!"1"], [g!"Go", [], g!"b\"c", g!"1\n2"]], true) := by
  decide +kernel
example : csvRecords g!"a,b\nc" = ([[g!"a", g!"b"]], false) ∧ csvRecords g!"a\"b" = ([], false) ∧ csvRecords g!"\"a" = ([], false) := by
  decide +kernel

end Osv
