import Verif.Spec.Text
import Verif.Model.Osv
/-! # What a yarn.lock stands for -/
namespace Osv.Spec
open Osv Str

/-- The line is indented. -/
def Indented (l : Str) : Prop := ∃ u, l = ' ' :: u

/-- Lines that are not blank and not comments. -/
def yarnKept (lines : List Str) : List Str := lines.filter fun l => l ≠ [] && l.head? ≠ some '#'

/-- The blocks of a yarn.lock: the kept lines in order, where every block is a line followed by indented lines, and every
block but possibly the first starts with an unindented line. -/
def Blocks (lines : List Str) (groups : List (List Str)) : Prop :=
  groups.flatten = yarnKept lines ∧
  (∀ g ∈ groups, ∃ h t, g = h :: t ∧ ∀ l ∈ t, Indented l) ∧
  (∀ g ∈ groups.tail, ∃ h t, g = h :: t ∧ ¬ Indented h)

/-- An optional piece of text. -/
def Maybe (q s : Str) : Prop := s = [] ∨ s = q

/-- A line `  version "1.2.3"` (yarn 1) or `  version: 1.2.3` (yarn 2). -/
def VersionLine (l v : Str) : Prop :=
  ∃ a b c d e, Maybe ['"'] a ∧ Maybe ['"'] b ∧ Maybe [':'] c ∧ Maybe ['"'] d ∧ Maybe ['"'] e ∧
    v ≠ [] ∧ (∀ x ∈ v, isWord x = true ∨ x = '-' ∨ x = '.' ∨ x = '+') ∧
    l = g!"  " ++ a ++ g!"version" ++ b ++ c ++ g!" " ++ d ++ v ++ e

/-- A line `  resolved "…"` (yarn 1) or `  resolution: "…"` (yarn 2). -/
def ResolutionLine (l v : Str) : Prop :=
  ∃ a w b, Maybe ['"'] a ∧ (w = g!"resolution:" ∨ w = g!"resolved") ∧ Maybe ['"'] b ∧
    v ≠ [] ∧ ' ' ∉ v ∧ '\'' ∉ v ∧ '"' ∉ v ∧ l = g!"  " ++ a ++ w ++ b ++ g!" \"" ++ v ++ g!"\""

/-- The value of the first line that has one, or nothing. -/
def FirstValue (R : Str → Str → Prop) (lines : List Str) (v : Str) : Prop :=
  (∃ pre l post, lines = pre ++ l :: post ∧ R l v ∧ ∀ x ∈ pre, ∀ w, ¬ R x w) ∨
  ((∀ x ∈ lines, ∀ w, ¬ R x w) ∧ v = [])

/-- The block is not the metadata and not the root workspace. -/
def YarnBlockOfPackage (g : List Str) : Prop :=
  ∃ h t, g = h :: t ∧ h ≠ g!"__metadata:" ∧ ∀ u, h ≠ u ++ g!"@workspace:.\":"

/-- A package name: an optional scope mark, then text without `@`, comma or leading quote. -/
def YarnName (n : Str) : Prop :=
  ∃ base, (n = base ∨ n = '@' :: base) ∧ base ≠ [] ∧ '@' ∉ base ∧ ',' ∉ base ∧ ∀ t, n ≠ '"' :: t

/-- `Describes d n`: the descriptor `d`, `name@range` or `alias@npm:descriptor`, is of the package `n`. -/
inductive Describes : Str → Str → Prop
  | range (n r : Str) : YarnName n → ',' ∉ r → (∀ t, r = g!"npm:" ++ t → '@' ∉ t) → Describes (n ++ '@' :: r) n
  | alias (a d n : Str) : YarnName a → Describes d n → Describes (a ++ g!"@npm:" ++ d) n

/-- A block header that starts with the descriptor `d`: quoted or not, followed by the end of the header or by further
descriptors. -/
def YarnHeader (h d : Str) : Prop :=
  ∃ q e more, Maybe ['"'] q ∧ (e = [] ∨ e = g!"\"" ∨ e = g!":" ∨ e = g!"\":") ∧ (more = [] ∨ ∃ u, more = ',' :: u) ∧
    h = q ++ d ++ e ++ more

end Osv.Spec
