import Verif.Spec.Precedence
/-!
# Versions of Python packages

PEP 440, <https://peps.python.org/pep-0440/>: the texts of versions with the spellings that the section "Normalization" lists, and their
order as the section "Summary of permitted suffixes and relative ordering" has it.
-/
namespace Osv.Spec.Pep440
open Osv Osv.Spec.ModText Osv.Spec.Precedence

inductive Phase
  | alpha
  | beta
  | candidate
deriving DecidableEq, Repr

/-- A segment of a local version. -/
inductive Seg
  | number (n : Nat)
  | text (s : Str)
deriving DecidableEq, Repr

structure Version where
  epoch : Nat
  release : List Nat
  pre : Option (Phase × Nat)
  post : Option Nat
  dev : Option Nat
  loc : List Seg
deriving DecidableEq, Repr

/-! ### Order -/

inductive Suffix
  | pre (p : Phase) (n : Nat)
  | post (n : Nat)
  | dev (n : Nat)
deriving DecidableEq, Repr

/-- What is behind the release, in the order in which it is written. -/
def Version.suffixes (v : Version) : List Suffix :=
  v.pre.toList.map (fun p => .pre p.1 p.2) ++ v.post.toList.map .post ++ v.dev.toList.map .dev

/-- `.devN`, `aN`, `bN`, `rcN`, no suffix, `.postN` -/
def place : Option Suffix → Nat
  | some (.dev _) => 0
  | some (.pre .alpha _) => 1
  | some (.pre .beta _) => 2
  | some (.pre .candidate _) => 3
  | none => 4
  | some (.post _) => 5

def number : Option Suffix → Nat
  | some (.dev n) => n
  | some (.pre _ n) => n
  | some (.post n) => n
  | none => 0

/-- The first suffix that is different decides. -/
inductive SuffixBefore : List Suffix → List Suffix → Prop
  | kind {s t : List Suffix} : place s.head? < place t.head? → SuffixBefore s t
  | number {s t : List Suffix} : place s.head? = place t.head? → number s.head? < number t.head? → SuffixBefore s t
  | next {x : Suffix} {s t : List Suffix} : SuffixBefore s t → SuffixBefore (x :: s) (x :: t)

/-- Releases are filled up with zeros. -/
def ReleaseBefore (a b : List Nat) : Prop := ∃ i, (∀ j, j < i → a.getD j 0 = b.getD j 0) ∧ a.getD i 0 < b.getD i 0

def SameRelease (a b : List Nat) : Prop := ∀ i, a.getD i 0 = b.getD i 0

/-- Numbers come after texts. -/
inductive SegBefore : Seg → Seg → Prop
  | numbers {m n : Nat} : m < n → SegBefore (.number m) (.number n)
  | texts {s t : Str} : Before (fun c d => c.toNat < d.toNat) s t → SegBefore (.text s) (.text t)
  | mixed {s : Str} {n : Nat} : SegBefore (.text s) (.number n)

inductive Precedes : Version → Version → Prop
  | epoch {v w : Version} : v.epoch < w.epoch → Precedes v w
  | release {v w : Version} : v.epoch = w.epoch → ReleaseBefore v.release w.release → Precedes v w
  | suffix {v w : Version} : v.epoch = w.epoch → SameRelease v.release w.release → SuffixBefore v.suffixes w.suffixes → Precedes v w
  | loc {v w : Version} : v.epoch = w.epoch → SameRelease v.release w.release → v.suffixes = w.suffixes → Before SegBefore v.loc w.loc →
      Precedes v w

/-- The same version, up to zeros at the end of the release. -/
def Same (v w : Version) : Prop :=
  v.epoch = w.epoch ∧ SameRelease v.release w.release ∧ v.pre = w.pre ∧ v.post = w.post ∧ v.dev = w.dev ∧ v.loc = w.loc

/-! ### Texts -/

def SepChar (c : Char) : Prop := c = '.' ∨ c = '-' ∨ c = '_'

/-- A separator that may be left out. -/
def Sep (t : Str) : Prop := t = [] ∨ ∃ c, SepChar c ∧ t = [c]

inductive PhaseWord : Str → Phase → Prop
  | a : PhaseWord g!"a" .alpha
  | alpha : PhaseWord g!"alpha" .alpha
  | b : PhaseWord g!"b" .beta
  | beta : PhaseWord g!"beta" .beta
  | c : PhaseWord g!"c" .candidate
  | rc : PhaseWord g!"rc" .candidate
  | pre : PhaseWord g!"pre" .candidate
  | preview : PhaseWord g!"preview" .candidate

/-- A word and a number, which is 0 if it is left out. -/
inductive Tagged (word : Str) : Str → Nat → Prop
  | number {s s' d : Str} {n : Nat} : Sep s → Sep s' → Decimal d n → Tagged word (s ++ (word ++ (s' ++ d))) n
  | plain {s : Str} : Sep s → Tagged word (s ++ word) 0

inductive PreText : Str → Option (Phase × Nat) → Prop
  | none : PreText [] none
  | some {w t : Str} {p : Phase} {n : Nat} : PhaseWord w p → Tagged w t n → PreText t (some (p, n))

inductive PostText : Str → Option Nat → Prop
  | none : PostText [] none
  | dash {d : Str} {n : Nat} : Decimal d n → PostText ('-' :: d) (some n)
  | some {w t : Str} {n : Nat} : w = g!"post" ∨ w = g!"rev" ∨ w = g!"r" → Tagged w t n → PostText t (some n)

inductive DevText : Str → Option Nat → Prop
  | none : DevText [] none
  | some {t : Str} {n : Nat} : Tagged g!"dev" t n → DevText t (some n)

/-- The number of a post release without a word is not that of a pre-release without a number. -/
def Clear (pre post : Str) : Prop := (∃ d, post = '-' :: d ∧ ∃ n, Decimal d n) → pre = [] ∨ ∃ t c, pre = t ++ [c] ∧ Digit c

inductive SegText : Str → Seg → Prop
  | number {d : Str} {n : Nat} : Decimal d n → SegText d (.number n)
  | text {s : Str} : (∀ c ∈ s, Digit c ∨ ('a' ≤ c ∧ c ≤ 'z')) → (∃ c ∈ s, ¬ Digit c) → SegText s (.text s)

inductive SegsText : Str → List Seg → Prop
  | nil : SegsText [] []
  | cons {c : Char} {t r : Str} {s : Seg} {ss : List Seg} : SepChar c → SegText t s → SegsText r ss → SegsText (c :: (t ++ r)) (s :: ss)

inductive LocalText : Str → List Seg → Prop
  | none : LocalText [] []
  | some {t r : Str} {s : Seg} {ss : List Seg} : SegText t s → SegsText r ss → LocalText ('+' :: (t ++ r)) (s :: ss)

inductive DotsText : Str → List Nat → Prop
  | nil : DotsText [] []
  | cons {d r : Str} {n : Nat} {ns : List Nat} : Decimal d n → DotsText r ns → DotsText ('.' :: (d ++ r)) (n :: ns)

inductive EpochText : Str → Nat → Prop
  | none : EpochText [] 0
  | some {d : Str} {n : Nat} : Decimal d n → EpochText (d ++ ['!']) n

def Blank (t : Str) : Prop := ∀ c ∈ t, c = ' ' ∨ c = '\t' ∨ c = '\n' ∨ c = '\x0c' ∨ c = '\r'

/-- A version in lower case. -/
inductive Text : Str → Version → Prop
  | intro {b b' v e r r' p q d l : Str} {x : Version} {n : Nat} {ns : List Nat} : Blank b → Blank b' → v = [] ∨ v = g!"v" → EpochText e x.epoch →
      Decimal r n → DotsText r' ns → x.release = n :: ns → PreText p x.pre → PostText q x.post → Clear p q → DevText d x.dev →
      LocalText l x.loc → Text (b ++ (v ++ (e ++ (r ++ (r' ++ (p ++ (q ++ (d ++ (l ++ b'))))))))) x

/-- Capital letters make no difference. -/
def Written (s : Str) (v : Version) : Prop := Text (s.map Char.toLower) v

def Good (s : Str) : Prop := ∃ v, Written s v

/-- The version that `s` is the text of precedes that of `t`. -/
def Older (s t : Str) : Prop := ∃ v w, Written s v ∧ Written t w ∧ Precedes v w

end Osv.Spec.Pep440
