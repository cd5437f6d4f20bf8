import Verif.Spec.Precedence
import Verif.Spec.Pep440
/-!
# Order of gem versions

`Gem::Version` of RubyGems: a version is the runs of digits and of letters in its text; zeros at the end of the numbers, and at the end
of what is behind them, do not count; the first difference decides, with zeros for what is missing, and words are older than numbers.
-/
namespace Osv.Spec.GemVersion
open Osv Osv.Spec.Precedence Osv.Spec.Pep440 Osv.Spec.ModText

/-- A run of digits or letters. A zero is written with one digit. -/
inductive Piece : Str → Seg → Prop
  | number {d : Str} {n : Nat} : Decimal d n → (n = 0 → d = g!"0") → Piece d (.number n)
  | text {t : Str} : t ≠ [] → (∀ c ∈ t, ('a' ≤ c ∧ c ≤ 'z') ∨ ('A' ≤ c ∧ c ≤ 'Z')) → Piece t (.text t)

/-- A run of digits or letters, where zeros may have more digits. -/
inductive AnyPiece : Str → Seg → Prop
  | number {d : Str} {n : Nat} : Decimal d n → AnyPiece d (.number n)
  | text {t : Str} : t ≠ [] → (∀ c ∈ t, ('a' ≤ c ∧ c ≤ 'z') ∨ ('A' ≤ c ∧ c ≤ 'Z')) → AnyPiece t (.text t)

/-- One of the two is a number. -/
inductive Unlike : Seg → Seg → Prop
  | left {n : Nat} {t : Str} : Unlike (.number n) (.text t)
  | right {n : Nat} {t : Str} : Unlike (.text t) (.number n)

/-- The text of a version and its runs, with dots between them or none where digits and letters meet. -/
inductive Text (piece : Str → Seg → Prop) : Str → List Seg → Prop
  | one {p : Str} {x : Seg} : piece p x → Text piece p [x]
  | dot {p r : Str} {x : Seg} {xs : List Seg} : piece p x → Text piece r xs → Text piece (p ++ '.' :: r) (x :: xs)
  | touch {p r : Str} {x y : Seg} {xs : List Seg} : piece p x → Text piece r (y :: xs) → Unlike x y → Text piece (p ++ r) (x :: y :: xs)

def zero : Seg := .number 0

/-- The runs that count: without zeros at the end of the numbers and at the end of the others, which begin with a word. -/
inductive Canonical : List Seg → List Seg → Prop
  | numbers {ns : List Seg} {k : Nat} : (∀ x ∈ ns, ∃ n, x = .number n) → ns.getLast? ≠ some zero → Canonical (ns ++ List.replicate k zero) ns
  | both {ns ts : List Seg} {t : Str} {k l : Nat} : (∀ x ∈ ns, ∃ n, x = .number n) → ns.getLast? ≠ some zero →
      (.text t :: ts).getLast? ≠ some zero →
      Canonical (ns ++ List.replicate k zero ++ (.text t :: ts ++ List.replicate l zero)) (ns ++ .text t :: ts)

/-- The first difference decides. -/
def Precedes (a b : List Seg) : Prop := ∃ i, (∀ j, j < i → a.getD j zero = b.getD j zero) ∧ SegBefore (a.getD i zero) (b.getD i zero)

def Same (a b : List Seg) : Prop := ∀ i, a.getD i zero = b.getD i zero

/-- The text of a version. -/
def Good (s : Str) : Prop := ∃ xs, Text Piece s xs

/-- The version that `s` is the text of is older than that of `t`. -/
def Older (s t : Str) : Prop := ∃ xs ys a b, Text Piece s xs ∧ Text Piece t ys ∧ Canonical xs a ∧ Canonical ys b ∧ Precedes a b

end Osv.Spec.GemVersion
