import Verif.Spec.Precedence
/-!
# Order of the versions of Java packages

`ComparableVersion` of Maven, for numbers with an optional qualifier that may be counted: `1.2.3`, `1.0-rc1`, `2.0.Final`, `1.0-alpha-2`,
`3.1-jre`, `9.4-1201`. Numbers are filled up with zeros; then come the phases alpha, beta, milestone, release candidate and snapshot, the release,
service packs, other qualifiers by the alphabet, and numbers behind a dash; then the count, or that number.
-/
namespace Osv.Spec.MavenVersion
open Osv Osv.Spec.Precedence

inductive Phase
  | alpha | beta | milestone | rc | snapshot | release | sp | revision
  | other (w : Str)
deriving DecidableEq, Repr

structure Version where
  numbers : List Nat
  phase : Phase
  count : Nat
deriving DecidableEq, Repr

/-- The words for phases, in any case of the letters. -/
inductive Word : Str → Phase → Prop
  | alpha {w : Str} : w.map Char.toLower = g!"alpha" → Word w .alpha
  | beta {w : Str} : w.map Char.toLower = g!"beta" → Word w .beta
  | milestone {w : Str} : w.map Char.toLower = g!"milestone" → Word w .milestone
  | rc {w : Str} : w.map Char.toLower = g!"rc" → Word w .rc
  | cr {w : Str} : w.map Char.toLower = g!"cr" → Word w .rc
  | snapshot {w : Str} : w.map Char.toLower = g!"snapshot" → Word w .snapshot
  | sp {w : Str} : w.map Char.toLower = g!"sp" → Word w .sp
  | other {w : Str} : w ≠ [] → w.map Char.toLower ∉ [g!"alpha", g!"beta", g!"milestone", g!"rc", g!"cr", g!"snapshot", g!"sp",
      g!"ga", g!"final", g!"release"] → Word w (.other (w.map Char.toLower))

/-- Short words, which need a number right behind them. -/
inductive Short : Str → Phase → Prop
  | a {w : Str} : w.map Char.toLower = g!"a" → Short w .alpha
  | b {w : Str} : w.map Char.toLower = g!"b" → Short w .beta
  | m {w : Str} : w.map Char.toLower = g!"m" → Short w .milestone

def Letters (w : Str) : Prop := ∀ c ∈ w, ('a' ≤ c ∧ c ≤ 'z') ∨ ('A' ≤ c ∧ c ≤ 'Z')

/-- What is written behind the numbers. A dash between a number and a word can be left out. -/
inductive Tail : Str → Phase → Nat → Prop
  | none : Tail [] .release 0
  | release {sep w : Str} : sep = [] ∨ sep = g!"-" ∨ sep = g!"." → Letters w → w.map Char.toLower ∈ [g!"ga", g!"final", g!"release"] →
      Tail (sep ++ w) .release 0
  | zero {d : Str} : Decimal d 0 → Tail ('-' :: d) .release 0
  | revision {d : Str} {n : Nat} : n ≠ 0 → Decimal d n → Tail ('-' :: d) .revision n
  | word {sep w : Str} {p : Phase} : sep = [] ∨ sep = g!"-" → Letters w → Word w p → Tail (sep ++ w) p 0
  | counted {sep w d : Str} {p : Phase} {n : Nat} : sep = [] ∨ sep = g!"-" → Letters w → Word w p → (∀ q, ¬ Short w q) → Decimal d n →
      Tail (sep ++ (w ++ d)) p n
  | short {sep w d : Str} {p : Phase} {n : Nat} : sep = [] ∨ sep = g!"-" → Letters w → Short w p → Decimal d n → Tail (sep ++ (w ++ d)) p n
  | dashed {sep w d : Str} {p : Phase} {n : Nat} : sep = [] ∨ sep = g!"-" → Letters w → Word w p → Decimal d n →
      Tail (sep ++ (w ++ '-' :: d)) p n

/-- A word for a phase, with or without a count right behind it. -/
def DottedTail (w t : Str) (p : Phase) : Prop :=
  (t = [] ∧ Word w p) ∨ ∃ n, Decimal t n ∧ ((Word w p ∧ ∀ q, ¬ Short w q) ∨ Short w p)

/-- The text of a version. -/
inductive Written : Str → Version → Prop
  | mk {s t : Str} {ns : List Nat} {p : Phase} {n : Nat} : NumbersText s ns → Tail t p n → Written (s ++ t) ⟨ns, p, n⟩

def rank : Phase → Nat
  | .alpha => 0 | .beta => 1 | .milestone => 2 | .rc => 3 | .snapshot => 4 | .release => 5 | .sp => 6 | .other _ => 7 | .revision => 8

inductive PhaseBefore : Phase → Phase → Prop
  | ranked {x y : Phase} : rank x < rank y → PhaseBefore x y
  | words {v w : Str} : Before (fun c d => c.toNat < d.toNat) v w → PhaseBefore (.other v) (.other w)

/-- The numbers are the same, with zeros for missing ones. -/
def SameNumbers (v w : Version) : Prop := ∀ i, v.numbers.getD i 0 = w.numbers.getD i 0

inductive Precedes (v w : Version) : Prop
  | number (i : Nat) : (∀ j, j < i → v.numbers.getD j 0 = w.numbers.getD j 0) → v.numbers.getD i 0 < w.numbers.getD i 0 → Precedes v w
  | phase : SameNumbers v w → PhaseBefore v.phase w.phase → Precedes v w
  | count : SameNumbers v w → v.phase = w.phase → v.count < w.count → Precedes v w

/-- The same version. -/
def Same (v w : Version) : Prop := SameNumbers v w ∧ v.phase = w.phase ∧ v.count = w.count

def Good (s : Str) : Prop := ∃ v, Written s v

/-- The version that `s` is the text of is older than that of `t`. -/
def Older (s t : Str) : Prop := ∃ v w, Written s v ∧ Written t w ∧ Precedes v w

end Osv.Spec.MavenVersion
