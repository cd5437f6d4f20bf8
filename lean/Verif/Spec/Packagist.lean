import Verif.Spec.Precedence
/-!
# Order of the versions of PHP packages

`version_compare` of PHP: a version is a list of numbers and phases; at the first difference development versions come first, then
alpha, beta and release candidates, then versions that end there, then numbers by their value, then patches.
-/
namespace Osv.Spec.Packagist
open Osv Osv.Spec.Precedence

inductive Elem
  | dev | alpha | beta | rc
  | number (n : Nat)
  | patch
deriving DecidableEq, Repr

/-- The words for the phases, and numbers. -/
inductive Piece : Str → Elem → Prop
  | number {d : Str} {n : Nat} : Decimal d n → Piece d (.number n)
  | dev : Piece g!"dev" .dev
  | a : Piece g!"a" .alpha
  | alpha : Piece g!"alpha" .alpha
  | b : Piece g!"b" .beta
  | beta : Piece g!"beta" .beta
  | rc : Piece g!"rc" .rc
  | RC : Piece g!"RC" .rc
  | p : Piece g!"p" .patch
  | pl : Piece g!"pl" .patch
  | patch : Piece g!"patch" .patch

/-- One of the two is a number. -/
inductive Unlike : Elem → Elem → Prop
  | left {n : Nat} {x : Elem} : (∀ m, x ≠ .number m) → Unlike (.number n) x
  | right {n : Nat} {x : Elem} : (∀ m, x ≠ .number m) → Unlike x (.number n)

def SepChar (c : Char) : Prop := c = '.' ∨ c = '-' ∨ c = '_' ∨ c = '+'

/-- Separators between the elements may be left out where a number meets a word. -/
inductive Text : Str → List Elem → Prop
  | one {p : Str} {x : Elem} : Piece p x → Text p [x]
  | sep {p r : Str} {c : Char} {x : Elem} {xs : List Elem} : Piece p x → SepChar c → Text r xs → Text (p ++ c :: r) (x :: xs)
  | touch {p r : Str} {x y : Elem} {xs : List Elem} : Piece p x → Text r (y :: xs) → Unlike x y → Text (p ++ r) (x :: y :: xs)

/-- The text of a version, which may start with a `v`. -/
inductive Written : Str → List Elem → Prop
  | plain {s : Str} {v : List Elem} : Text s v → Written s v
  | v {s : Str} {v : List Elem} : Text s v → Written ('v' :: s) v
  | V {s : Str} {v : List Elem} : Text s v → Written ('V' :: s) v

/-- What makes a version older than the one that ends there. -/
inductive Early : Elem → Prop
  | dev : Early .dev
  | alpha : Early .alpha
  | beta : Early .beta
  | rc : Early .rc

inductive ElemBefore : Elem → Elem → Prop
  | devAlpha : ElemBefore .dev .alpha
  | devBeta : ElemBefore .dev .beta
  | devRc : ElemBefore .dev .rc
  | alphaBeta : ElemBefore .alpha .beta
  | alphaRc : ElemBefore .alpha .rc
  | betaRc : ElemBefore .beta .rc
  | early {x y : Elem} : Early x → ¬ Early y → ElemBefore x y
  | numbers {m n : Nat} : m < n → ElemBefore (.number m) (.number n)
  | patch {n : Nat} : ElemBefore (.number n) .patch

inductive Precedes : List Elem → List Elem → Prop
  | differ {p s t : List Elem} {x y : Elem} : ElemBefore x y → Precedes (p ++ x :: s) (p ++ y :: t)
  | early {p t : List Elem} {x : Elem} : Early x → Precedes (p ++ x :: t) p
  | late {p t : List Elem} {x : Elem} : ¬ Early x → Precedes p (p ++ x :: t)

def Good (s : Str) : Prop := ∃ v, Written s v

/-- The version that `s` is the text of is older than that of `t`. -/
def Older (s t : Str) : Prop := ∃ v w, Written s v ∧ Written t w ∧ Precedes v w

end Osv.Spec.Packagist
