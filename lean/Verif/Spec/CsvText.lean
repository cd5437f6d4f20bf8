import Verif.Go.Str
/-! # How records are written as CSV (RFC 4180, with lines that end in a line feed) -/
namespace Osv.Spec
open Osv Str

/-- Quotes are written twice. -/
def doubled (f : Str) : Str := f.flatMap fun c => if c = '"' then g!"\"\"" else [c]

/-- A field, and how it may be written. -/
inductive FieldText : Str → Str → Prop
  | plain (f : Str) : ',' ∉ f → '"' ∉ f → '\n' ∉ f → FieldText f f
  | quoted (f : Str) : FieldText f (g!"\"" ++ doubled f ++ g!"\"")

/-- The fields of a record are separated by commas. -/
inductive RecordText : List Str → Str → Prop
  | one {f t : Str} : FieldText f t → RecordText [f] t
  | more {f t : Str} {fs : List Str} {u : Str} : FieldText f t → RecordText fs u → RecordText (f :: fs) (t ++ g!"," ++ u)

/-- Records are on lines of their own, between them there may be empty lines. The last line need not be ended. -/
inductive CsvDoc : List (List Str) → Str → Prop
  | empty : CsvDoc [] []
  | blank {rs : List (List Str)} {t : Str} : CsvDoc rs t → CsvDoc rs (g!"\n" ++ t)
  | last {r : List Str} {t : Str} : RecordText r t → t ≠ [] → CsvDoc [r] t
  | line {r : List Str} {t : Str} {rs : List (List Str)} {u : Str} :
      RecordText r t → t ≠ [] → CsvDoc rs u → CsvDoc (r :: rs) (t ++ g!"\n" ++ u)

/-- All records have the same number of fields. -/
def SameLength (rs : List (List Str)) : Prop := ∃ n, ∀ r ∈ rs, r.length = n

/-- The text with other line ends: a carriage return before every line feed. -/
def crlf (t : Str) : Str := t.flatMap fun c => if c = '\n' then g!"\r\n" else [c]

/-- A text and the same with all line ends being line feeds: `\r\n` is a line end, and so is a `\r` at the very end, which is
dropped. Other carriage returns are ordinary characters. -/
inductive LineEnds : Str → Str → Prop
  | nil : LineEnds [] []
  | last : LineEnds g!"\r" []
  | crlf {t u : Str} : LineEnds t u → LineEnds (g!"\r\n" ++ t) (g!"\n" ++ u)
  | other {c : Char} {t u : Str} : (c = '\r' → ∃ d r, t = d :: r ∧ d ≠ '\n') → LineEnds t u → LineEnds (c :: t) (c :: u)

end Osv.Spec
