import Verif.Lemmas.Ecosystem
/-! # C10 Ecosystem suffixes only matter when both sides have one -/
namespace Osv
open Spec

/-- An advisory ecosystem matches a package ecosystem exactly when the parts before the first `:` are equal
and the suffixes are equal if both are non-empty. -/
theorem C10_ecosystem_match (a b : Ecosystem) : areEcosystemsEqual a b = true ↔ EcoMatch a b :=
  areEcosystemsEqual_iff a b

theorem C10_reflexive (a : Ecosystem) : areEcosystemsEqual a a = true :=
  (areEcosystemsEqual_iff a a).mpr ⟨rfl, fun _ _ => rfl⟩

theorem C10_symmetric (a b : Ecosystem) : areEcosystemsEqual a b = areEcosystemsEqual b a := by
  rw [Bool.eq_iff_iff, areEcosystemsEqual_iff, areEcosystemsEqual_iff]
  constructor
  · rintro ⟨h1, h2⟩; exact ⟨h1.symm, fun h3 h4 => (h2 h4 h3).symm⟩
  · rintro ⟨h1, h2⟩; exact ⟨h1.symm, fun h3 h4 => (h2 h4 h3).symm⟩

/-- Ecosystems written as base and suffix. -/
theorem C10_with_suffixes (a b s t : Str) (ha : ':' ∉ a) (hb : ':' ∉ b) (hs : s ≠ []) (ht : t ≠ []) :
    (areEcosystemsEqual (a ++ ':' :: s) (b ++ ':' :: t) = true ↔ a = b ∧ s = t) ∧
    (areEcosystemsEqual (a ++ ':' :: s) b = true ↔ a = b) ∧
    (areEcosystemsEqual a b = true ↔ a = b) := by
  simp only [areEcosystemsEqual, Str.cut_char _ _ _ ha, Str.cut_char _ _ _ hb, Str.cut_char_none _ _ ha,
    Str.cut_char_none _ _ hb]
  simp [hs, ht]

/-- Asking an advisory for an ecosystem compares with the suffix, unlike the checks. -/
theorem C10_affects_ecosystem (o : OSV) (e : Ecosystem) :
    o.affectsEcosystem e = true ↔ ∃ a ∈ o.affected, a.package.ecosystem = e := by
  unfold OSV.affectsEcosystem
  simp

/-- The relation is deliberately not transitive. -/
theorem C10_not_transitive : ∃ a b c : Ecosystem, areEcosystemsEqual a b = true ∧
    areEcosystemsEqual b c = true ∧ areEcosystemsEqual a c = false :=
  ⟨g!"Debian:11", g!"Debian", g!"Debian:12", by decide⟩

example : ':' ∉ g!"Debian" ∧ g!"11" ≠ [] ∧ areEcosystemsEqual g!"Debian:11" g!"Debian:12" = false := by
  decide

end Osv
