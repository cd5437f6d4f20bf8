import Verif.Spec.Text
import Verif.Model.Osv
/-! # What the lines of a Gemfile.lock stand for -/
namespace Osv.Spec
open Osv Str

/-- The lines of a text that are not empty; a line ends with `\n` or `\r\n`. -/
inductive NonEmptyLines : Str → List Str → Prop
  /-- the rest of the text after the last line break -/
  | last (t : Str) : '\n' ∉ t → NonEmptyLines t (if t = [] then [] else [t])
  /-- a line that ends with a newline only -/
  | lf (l t : Str) (ls : List Str) : '\n' ∉ l → (∀ u, l ≠ u ++ ['\r']) → NonEmptyLines t ls →
      NonEmptyLines (l ++ '\n' :: t) (if l = [] then ls else l :: ls)
  /-- a line that ends with a carriage return and a newline -/
  | crlf (l t : Str) (ls : List Str) : '\n' ∉ l → NonEmptyLines t ls →
      NonEmptyLines (l ++ '\r' :: '\n' :: t) (if l = [] then ls else l :: ls)

/-- The line contains the name of a kind of source. -/
def SourceWord (l : Str) : Prop :=
  ∃ a w b, l = a ++ w ++ b ∧ (w = g!"GIT" ∨ w = g!"GEM" ∨ w = g!"PATH" ∨ w = g!"PLUGIN SOURCE")

/-- The line starts with something other than a space, tab, form feed or line break. -/
def Unindented (l : Str) : Prop := ∃ c t, l = c :: t ∧ isReSpace c = false

/-- After the lines `pre` we are inside of a source section: some line named a source and since then no other line was
unindented. -/
def InSource (pre : List Str) : Prop :=
  ∃ a h b, pre = a ++ h :: b ∧ SourceWord h ∧ ∀ l ∈ b, SourceWord l ∨ ¬ Unindented l

/-- The line gives the revision of a git source. -/
def Revision (l c : Str) : Prop := l = g!"  revision: " ++ c

/-- The commit known after the lines `pre`: that of the last revision inside of a source section, if no source was
named since then. -/
inductive SectionCommit : List Str → Str → Prop
  | none : SectionCommit [] []
  | revision (pre l c) : (SourceWord l ∨ InSource pre) → Revision l c → SectionCommit (pre ++ [l]) c
  | source (pre l) : SourceWord l → (∀ c, ¬ Revision l c) → SectionCommit (pre ++ [l]) []
  | other (pre l c) : ¬ SourceWord l → ¬ (InSource pre ∧ ∃ r, Revision l r) → SectionCommit pre c →
      SectionCommit (pre ++ [l]) c

/-- What may follow the name of a gem: nothing, or the version in parentheses with or without a platform, each with an
optional exclamation mark. -/
inductive GemTail : Str → Str → Prop
  | bare (bang : Str) : (bang = [] ∨ bang = g!"!") → GemTail bang []
  | version (v bang : Str) : '-' ∉ v → (bang = [] ∨ bang = g!"!") → GemTail (g!" (" ++ v ++ g!")" ++ bang) v
  | platform (v pl bang : Str) : '-' ∉ v → (bang = [] ∨ bang = g!"!") →
      GemTail (g!" (" ++ v ++ g!"-" ++ pl ++ g!")" ++ bang) v

/-- The line is a gem at spec level: four spaces, a name and what follows it. The name ends as early as possible. -/
def GemSpecLine (l name v : Str) : Prop :=
  ∃ tail, l = g!"    " ++ name ++ tail ∧ (∀ t, name ++ tail ≠ ' ' :: t) ∧ GemTail tail v ∧
    ∀ a b w, name = a ++ b → b ≠ [] → ¬ GemTail (b ++ tail) w

/-- The package of a line, given the lines before it. -/
def GemEntry (x : List Str × Str) (p : PackageDetails) : Prop :=
  ∃ name v c, (SourceWord x.2 ∨ InSource x.1) ∧ GemSpecLine x.2 name v ∧ SectionCommit (x.1 ++ [x.2]) c ∧
    p = ⟨name, v, c, g!"RubyGems", g!"RubyGems"⟩

/-- The lines, each with the lines before it. -/
def withPrefixes (pre : List Str) : List Str → List (List Str × Str)
  | [] => []
  | l :: ls => (pre, l) :: withPrefixes (pre ++ [l]) ls

end Osv.Spec
