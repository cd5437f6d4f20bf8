import Verif.Go.Str
/-!
# `bufio.Scanner` with the default line splitting
-/
namespace Osv.Scanner
open Osv Str

/-- `dropCR` of `bufio.ScanLines`. -/
def dropCR (l : Str) : Str := trimSuffix l ['\r']

/-- Number of bytes of a text in UTF-8. -/
def byteLen (s : Str) : Nat := (s.map Char.utf8Size).sum

/-- `bufio.MaxScanTokenSize`. -/
def maxToken : Nat := 65536

/-- Raw lines of a file: split at `\n`, without the empty piece after a final newline. -/
def rawLines (s : Str) : List Str :=
  let ps := splitChar '\n' s
  if ps.getLast? = some [] then ps.dropLast else ps

/-- The lines a `bufio.Scanner` yields, and whether it stopped with `ErrTooLong`:
a line that does not fit the 64 KiB buffer ends the scan with an error. -/
def scanRaw : List Str → List Str × Bool
  | [] => ([], false)
  | l :: ls =>
    if byteLen l ≥ maxToken then ([], true)
    else let r := scanRaw ls; (dropCR l :: r.1, r.2)

/-- All tokens of `bufio.NewScanner(file)` over the given content. -/
def scan (content : Str) : List Str × Bool := scanRaw (rawLines content)

example : scan g!"a\r\n\nb" = ([g!"a", [], g!"b"], false) := by decide
example : scan g!"a\n" = ([g!"a"], false) := by decide
example : scan [] = ([], false) := by decide

end Osv.Scanner
