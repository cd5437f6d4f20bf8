import Verif.Model.ParserDiags
import Verif.Spec.Gradle
import Verif.Spec.Maven
import Verif.Spec.Mix
import Verif.Spec.Yarn
/-! # What the parsers should say something about -/
namespace Osv.Spec
open Osv Str

/-- A line of a gradle.lockfile that is neither a comment nor the list of empty configurations. -/
def GradleContent (line body : Str) : Prop := Trimmed line body ∧ (∀ t, body ≠ '#' :: t) ∧ ∀ t, body ≠ g!"empty=" ++ t

/-- It is no entry. -/
def GradleSkipped (line : Str) (d : ParseDiag) : Prop :=
  ∃ body, GradleContent line body ∧ (∀ p, ¬ GradleEntry line p) ∧ d = .gradleLine body

/-- A line of a mix.lock that begins like an entry and is none. -/
def MixSkipped (line : Str) (d : ParseDiag) : Prop := (∃ name, MixHead line name) ∧ (∀ p, ¬ MixEntry line p) ∧ d = .mixFields

/-- The version of a dependency refers to a property that is not there. -/
def MavenUnresolved (properties : SMap Str) (d : MavenLockDependency) (m : ParseDiag) : Prop :=
  ∃ name, GreedyReference d.version name ∧ properties.get? name = none ∧ m = .mavenProperty (mavenName d) name

end Osv.Spec
