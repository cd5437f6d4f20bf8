import Verif.Model.Osv
/-!
# Specification of version ranges

Independent of the sorting and of the loop in the code: a version is in a range when some introduction
at or below it is not cut off by a fix or a last affected version.
-/
namespace Osv.Spec
open Osv

/-- The laws of a three-way comparison of a total preorder. -/
structure CmpLaws (cmp : Str → Str → Int) : Prop where
  refl : ∀ a, cmp a a = 0
  flip : ∀ a b, cmp a b < 0 ↔ 0 < cmp b a
  trans : ∀ a b c, cmp a b ≤ 0 → cmp b c ≤ 0 → cmp a c ≤ 0

/-- `i ≤ x` for an introduction `i`; the introduction `"0"` is below every version. -/
def introLe (cmp : Str → Str → Int) (i x : Str) : Prop := i = g!"0" ∨ cmp i x ≤ 0
/-- `i < x` for an introduction `i`; the introduction `"0"` is below every version. -/
def introLt (cmp : Str → Str → Int) (i x : Str) : Prop := i = g!"0" ∨ cmp i x < 0

/-- The version `v` is in the range described by the (unordered) events. -/
def InRange (cmp : Str → Str → Int) (evs : List RangeEvent) (v : Str) : Prop :=
  ∃ i ∈ evs, i.introduced ≠ [] ∧ introLe cmp i.introduced v ∧
    (∀ f ∈ evs, f.fixed ≠ [] → introLt cmp i.introduced f.fixed → cmp v f.fixed < 0) ∧
    (∀ l ∈ evs, l.lastAffected ≠ [] → introLe cmp i.introduced l.lastAffected →
      cmp v l.lastAffected ≤ 0)

instance (cmp : Str → Str → Int) (i x : Str) : Decidable (introLe cmp i x) := by
  unfold introLe; infer_instance
instance (cmp : Str → Str → Int) (i x : Str) : Decidable (introLt cmp i x) := by
  unfold introLt; infer_instance
instance (cmp : Str → Str → Int) (evs : List RangeEvent) (v : Str) : Decidable (InRange cmp evs v) := by
  unfold InRange; infer_instance

/-- Every event has exactly one purpose (required by the OSV schema). -/
inductive Single : RangeEvent → Prop
  | introduced (v : Str) : v ≠ [] → Single { introduced := v }
  | fixed (v : Str) : v ≠ [] → Single { fixed := v }
  | last (v : Str) : v ≠ [] → Single { lastAffected := v }

/-- Two events of a range that may stand together: they are not both the introduction `"0"`, and an
introduction is not at the same version as a fix or last affected version. Events at pairwise different
versions always satisfy this (`separated_of_ne`). -/
def Separated (cmp : Str → Str → Int) (a b : RangeEvent) : Prop :=
  ¬ (a.introduced = g!"0" ∧ b.introduced = g!"0") ∧
  (a.introduced ≠ g!"0" → b.introduced ≠ g!"0" → cmp a.version b.version = 0 →
    (a.introduced ≠ [] ↔ b.introduced ≠ []))

/-- The two events are at different versions (`"0"` as an introduction is different from all versions, but
not from another such introduction). -/
def DifferentVersions (cmp : Str → Str → Int) (a b : RangeEvent) : Prop :=
  if a.introduced = g!"0" then b.introduced ≠ g!"0"
  else b.introduced = g!"0" ∨ cmp a.version b.version ≠ 0

theorem separated_of_ne (cmp : Str → Str → Int) (a b : RangeEvent) (h : DifferentVersions cmp a b) :
    Separated cmp a b := by
  unfold DifferentVersions at h
  split at h
  · rename_i ha
    exact ⟨fun hh => h hh.2, fun h1 => absurd ha h1⟩
  · rename_i ha
    refine ⟨fun hh => ha hh.1, fun _ hb hc => ?_⟩
    rcases h with h | h
    · exact absurd h hb
    · exact absurd hc h

/-- Well-formed list of events: single-purpose and pairwise separated. -/
structure WellFormed (cmp : Str → Str → Int) (evs : List RangeEvent) : Prop where
  single : ∀ e ∈ evs, Single e
  separated : evs.Pairwise (Separated cmp)

end Osv.Spec
