import Verif.Model.Osv
/-!
# Descriptions of advisories (`pkg/database/osv.go:218-269`)

Lengths and slices of Go strings count bytes, so the results are bytes here. Details come out of a JSON decoder, which only
yields valid UTF-8, so arguments are lists of characters.
-/
namespace Osv
open Str

/-- The bytes of a Go string. -/
def utf8Bytes (s : Str) : List UInt8 := s.flatMap String.utf8EncodeChar

/-- `b[:n]`; `none` is the panic when there are fewer bytes. -/
def takeBytes (n : Nat) (b : List UInt8) : Option (List UInt8) := if n ≤ b.length then some (b.take n) else none

/-- `pkg/database/osv.go:222-238`: the loop, with `i` the position in bytes, and `spaceAt` for `truncateAt` where `none` is -1.
The result is where to cut, `none` if the end is reached. -/
def truncateLoop (limit : Nat) : Str → (i count : Nat) → (spaceAt : Option Nat) → Option Nat
  | [], _, _, _ => none
  | c :: rest, i, count, spaceAt =>
    let spaceAt := if isSpace c then some i else spaceAt
    let count := count + 1
    if count ≥ limit then some (spaceAt.getD limit)
    else truncateLoop limit rest (i + c.utf8Size) count spaceAt

/-- `pkg/database/osv.go:218-241` `truncate`, for limits that are not negative; `none` is a panic. -/
def truncate (str : Str) (limit : Nat) : Option (List UInt8) :=
  match truncateLoop limit str 0 0 none with
  | none => some (utf8Bytes str)
  | some n => (takeBytes n (utf8Bytes str)).map (· ++ utf8Bytes g!"...")

/-- `pkg/database/osv.go:263-269` `Link`. -/
def OSV.link (o : OSV) : Str := if hasPrefix o.id g!"GHSA" then g!"https://github.com/advisories/" ++ o.id else []

/-- `pkg/database/osv.go:243-259` `Describe`; `none` is a panic. -/
def OSV.describe (o : OSV) : Option (List UInt8) :=
  let description := if o.summary = [] then truncate o.details 80 else some (utf8Bytes o.summary)
  description.map fun d =>
    let d := if d = [] then utf8Bytes g!"(no details available)" else d
    if o.link ≠ [] then d ++ utf8Bytes g!" (" ++ utf8Bytes o.link ++ utf8Bytes g!")" else d

end Osv
