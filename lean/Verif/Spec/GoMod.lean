import Verif.Spec.Lists
import Verif.Model.LockGoMod
/-! # Modules selected by a go.mod -/
namespace Osv.Spec
open Osv Str

/-- A version without its leading `v`. -/
def BareVersion (v t : Str) : Prop := v = 'v' :: t ∨ (t = v ∧ ∀ r, v ≠ 'v' :: r)

/-- How module `m` is reported. -/
def GoReported (m : GoModule) (p : PackageDetails) : Prop := ∃ t, BareVersion m.version t ∧ p = pkg g!"Go" m.path t []

/-- The module that is used for the required module `m`: a directive for its version has priority over one for all versions, and
the result is not replaced again. -/
inductive GoSelected (replaces : List GoReplace) (m : GoModule) : GoModule → Prop
  | version (r : GoReplace) : r ∈ replaces → r.old.version ≠ [] → r.old = m → GoSelected replaces m r.new
  | all (r : GoReplace) : (∀ s ∈ replaces, s.old.version ≠ [] → s.old ≠ m) → r ∈ replaces → r.old = ⟨m.path, []⟩ →
      GoSelected replaces m r.new
  | kept : (∀ s ∈ replaces, s.old.version ≠ [] → s.old ≠ m) → (∀ s ∈ replaces, s.old ≠ ⟨m.path, []⟩) → GoSelected replaces m m

/-- What the directives make of the required module `m` when applied in the order of the file: one for a version replaces
whatever has taken the place of that version, one for all versions whatever has that path by then. -/
inductive GoApplied (m : GoModule) : GoModule → List GoReplace → GoModule → Prop
  | done (n : GoModule) : GoApplied m n [] n
  | version (r : GoReplace) {c n : GoModule} {rs : List GoReplace} : r.old.version ≠ [] → r.old = m → GoApplied m r.new rs n →
      GoApplied m c (r :: rs) n
  | all (r : GoReplace) {c n : GoModule} {rs : List GoReplace} : r.old.version = [] → r.old.path = c.path →
      GoApplied m r.new rs n → GoApplied m c (r :: rs) n
  | skip (r : GoReplace) {c n : GoModule} {rs : List GoReplace} : (r.old.version ≠ [] → r.old ≠ m) →
      (r.old.version = [] → r.old.path ≠ c.path) → GoApplied m c rs n → GoApplied m c (r :: rs) n

end Osv.Spec
