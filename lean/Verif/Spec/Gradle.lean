import Verif.Spec.Text
import Verif.Model.Osv
/-! # What a line of a gradle.lockfile stands for -/
namespace Osv.Spec
open Osv Str

/-- The line reads `group:artifact:version` or `group:artifact:version=configurations`, up to white space around it,
and it is neither a comment nor the list of empty configurations. -/
def GradleEntry (line : Str) (p : PackageDetails) : Prop :=
  ∃ body group artifact rest version, Trimmed line body ∧
    (∀ t, body ≠ '#' :: t) ∧ (∀ t, body ≠ g!"empty=" ++ t) ∧
    body = group ++ ':' :: (artifact ++ ':' :: rest) ∧ ':' ∉ group ∧ ':' ∉ artifact ∧ Before '=' rest version ∧
    p = ⟨group ++ ':' :: artifact, version, [], g!"Maven", g!"Maven"⟩

end Osv.Spec
