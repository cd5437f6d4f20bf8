import Verif.Spec.Lists
import Verif.Model.LockMaven
/-! # Versions of a pom.xml -/
namespace Osv.Spec
open Osv Str

/-- The text up to a comma or closing bracket; `0` if it is empty. -/
def LowerPart (s v : Str) : Prop := ∃ body rest, s = body ++ rest ∧ (∀ c ∈ body, c ≠ ',' ∧ c ≠ ')' ∧ c ≠ ']') ∧
  (rest = [] ∨ ∃ c r, rest = c :: r ∧ (c = ',' ∨ c = ')' ∨ c = ']')) ∧ ((body = [] ∧ v = g!"0") ∨ (body ≠ [] ∧ v = body))

/-- The lower bound of a version requirement: `1.0`, `[1.0,2.0)`, `(,2.0]`. -/
def LowerBound (s v : Str) : Prop :=
  (∃ c r, s = c :: r ∧ (c = '[' ∨ c = '(') ∧ LowerPart r v) ∨ ((∀ c r, s = c :: r → c ≠ '[' ∧ c ≠ '(') ∧ LowerPart s v)

/-- `${name}` with a name in it. -/
def Reference (name : Str) : Str := g!"${" ++ name ++ g!"}"

/-- The reference in a version, from the first `${` to the last `}`. -/
def GreedyReference (s name : Str) : Prop :=
  ∃ pre post, s = pre ++ Reference name ++ post ∧ name ≠ [] ∧ '}' ∉ post ∧ ¬ g!"${" <:+: pre ++ g!"$"

/-- The text with all references replaced, nothing if there is no such property. -/
inductive Interpolated (properties : SMap Str) : Str → Option Str → Prop
  | nil : Interpolated properties [] (some [])
  | char (c : Char) (s : Str) (o : Option Str) : (∀ name rest, name ≠ [] → '}' ∉ name → c :: s ≠ Reference name ++ rest) →
      Interpolated properties s o → Interpolated properties (c :: s) (o.map (c :: ·))
  | found (name rest v : Str) (o : Option Str) : name ≠ [] → '}' ∉ name → properties.get? name = some v →
      Interpolated properties rest o → Interpolated properties (Reference name ++ rest) (o.map (v ++ ·))
  | missing (name rest : Str) (o : Option Str) : name ≠ [] → '}' ∉ name → properties.get? name = none →
      Interpolated properties rest o → Interpolated properties (Reference name ++ rest) none

/-- The version that is reported for what is written in the pom. -/
def MavenVersion (properties : SMap Str) (written v : Str) : Prop :=
  (∃ s, Interpolated properties written (some s) ∧ LowerBound s v) ∨ (Interpolated properties written none ∧ v = g!"0")

/-- What the parser makes of a version with no line break: the reference from the first `${` to the last `}` stands for the whole. -/
def MavenReported (properties : SMap Str) (written v : Str) : Prop :=
  ((∀ name, ¬ GreedyReference written name) ∧ LowerBound written v) ∨
  ∃ name, GreedyReference written name ∧ ((∃ s, properties.get? name = some s ∧ LowerBound s v) ∨ (properties.get? name = none ∧ v = g!"0"))

def mavenName (d : MavenLockDependency) : Str := d.groupID ++ g!":" ++ d.artifactID

/-- `d` is the last dependency of its name. -/
def LastNamed (l : List MavenLockDependency) (d : MavenLockDependency) : Prop :=
  ∃ a b, l = a ++ d :: b ∧ ∀ e ∈ b, mavenName e ≠ mavenName d

/-- A direct dependency, or a managed one that is not overridden; of several the last. -/
def MavenEffective (f : MavenLockFile) (d : MavenLockDependency) : Prop :=
  LastNamed f.dependencies d ∨ (LastNamed f.managedDependencies d ∧ ∀ e ∈ f.dependencies, mavenName e ≠ mavenName d)

end Osv.Spec
