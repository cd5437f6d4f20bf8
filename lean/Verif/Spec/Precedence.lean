import Verif.Spec.ModText
import Verif.Spec.Version
/-!
# Precedence of semantic versions

Sections 2, 9, 10 and 11 of <https://semver.org/spec/v2.0.0.html>.
-/
namespace Osv.Spec.Precedence
open Osv Osv.Spec.ModText

/-- A semantic version without its build metadata. -/
structure Version where
  major : Nat
  minor : Nat
  patch : Nat
  pre : List Str
deriving DecidableEq, Repr

/-- An identifier of a pre-release: letters, digits and hyphens, without leading zeros when it is a number. -/
def PreId (i : Str) : Prop := Ident i ∧ ((∀ c ∈ i, Digit c) → Number i)

/-- A decimal number and its value. -/
def Decimal (t : Str) (n : Nat) : Prop := t ≠ [] ∧ Numeral 10 t n

/-- The pre-release and the build metadata as they are written behind the numbers. -/
inductive Ending : Str → List Str → Prop
  | none : Ending [] []
  | build {b : Str} : Ending ('+' :: b) []
  | pre {i : Str} {ids : List Str} : (∀ j ∈ i :: ids, PreId j) → Ending ('-' :: (i ++ ids.flatMap ('.' :: ·))) (i :: ids)
  | preBuild {i b : Str} {ids : List Str} : (∀ j ∈ i :: ids, PreId j) →
      Ending ('-' :: (i ++ ids.flatMap ('.' :: ·)) ++ '+' :: b) (i :: ids)

/-- The text of a semantic version, which may start with a `v`. -/
inductive Written : Str → Version → Prop
  | plain {a b c t : Str} {x y z : Nat} {pre : List Str} : Decimal a x → Decimal b y → Decimal c z → Ending t pre →
      Written (a ++ '.' :: b ++ '.' :: c ++ t) ⟨x, y, z, pre⟩
  | v {a b c t : Str} {x y z : Nat} {pre : List Str} : Decimal a x → Decimal b y → Decimal c z → Ending t pre →
      Written ('v' :: (a ++ '.' :: b ++ '.' :: c ++ t)) ⟨x, y, z, pre⟩

/-- The first difference decides; where there is none, the longer list is the later one. -/
inductive Before {α : Type} (lt : α → α → Prop) : List α → List α → Prop
  | longer {p t : List α} {x : α} : Before lt p (p ++ x :: t)
  | differ {p s t : List α} {x y : α} : lt x y → Before lt (p ++ x :: s) (p ++ y :: t)

/-- Precedence of identifiers: numbers by their value, others by the characters, and numbers before others. -/
inductive IdBefore : Str → Str → Prop
  | numbers {a b : Str} {m n : Nat} : Decimal a m → Decimal b n → m < n → IdBefore a b
  | texts {a b : Str} : (∃ c ∈ a, ¬ Digit c) → (∃ c ∈ b, ¬ Digit c) → Before (fun c d => c.toNat < d.toNat) a b → IdBefore a b
  | mixed {a b : Str} {m : Nat} : Decimal a m → (∃ c ∈ b, ¬ Digit c) → IdBefore a b

/-- `v` has lower precedence than `w`. -/
inductive Precedes : Version → Version → Prop
  | major {v w : Version} : v.major < w.major → Precedes v w
  | minor {v w : Version} : v.major = w.major → v.minor < w.minor → Precedes v w
  | patch {v w : Version} : v.major = w.major → v.minor = w.minor → v.patch < w.patch → Precedes v w
  | release {v w : Version} : v.major = w.major → v.minor = w.minor → v.patch = w.patch → v.pre ≠ [] → w.pre = [] → Precedes v w
  | pre {v w : Version} : v.major = w.major → v.minor = w.minor → v.patch = w.patch → v.pre ≠ [] → Before IdBefore v.pre w.pre →
      Precedes v w

/-- No identifier is a hyphen with a number behind it. -/
def Plain (v : Version) : Prop := ∀ i ∈ v.pre, ∀ t, i = '-' :: t → t = [] ∨ ∃ c ∈ t, ¬ Digit c

/-- A text that is a semantic version, with plain identifiers only. -/
def Good (s : Str) : Prop := ∃ v, Written s v ∧ Plain v

/-- The version that `s` is the text of precedes that of `t`. -/
def Older (s t : Str) : Prop := ∃ v w, Written s v ∧ Written t w ∧ Precedes v w

/-- The version `x` is in the range that the (unordered) events describe: some introduction that is not newer is not cut off by a
fix or a last affected version. -/
def InInterval (evs : List RangeEvent) (x : Str) : Prop :=
  ∃ i ∈ evs, i.introduced ≠ [] ∧ (i.introduced = g!"0" ∨ ¬ Older x i.introduced) ∧
    (∀ f ∈ evs, f.fixed ≠ [] → i.introduced = g!"0" ∨ Older i.introduced f.fixed → Older x f.fixed) ∧
    (∀ l ∈ evs, l.lastAffected ≠ [] → i.introduced = g!"0" ∨ ¬ Older l.lastAffected i.introduced → ¬ Older l.lastAffected x)

/-- Two events that may stand together: not twice the beginning of all versions, nor an introduction beside a fix or a last affected
version of the same precedence. -/
def Apart (a b : RangeEvent) : Prop :=
  ¬ (a.introduced = g!"0" ∧ b.introduced = g!"0") ∧
  (a.introduced ≠ g!"0" → b.introduced ≠ g!"0" → Older a.version b.version ∨ Older b.version a.version ∨
    (a.introduced ≠ [] ↔ b.introduced ≠ []))

/-- Numbers with dots between them. -/
inductive NumbersText : Str → List Nat → Prop
  | one {d : Str} {n : Nat} : Decimal d n → NumbersText d [n]
  | dot {d r : Str} {n : Nat} {ns : List Nat} : Decimal d n → NumbersText r ns → NumbersText (d ++ '.' :: r) (n :: ns)

end Osv.Spec.Precedence
