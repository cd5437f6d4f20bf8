import Verif.Props.C108
import Verif.Props.C113
import Verif.Lemmas.Packagist
/-!
# C114: versions of PHP packages are compared as `version_compare` orders them

`pkg/database/osv.go:85-131`, with the comparison of `github.com/google/osv-scalibr/semantic`.
-/
namespace Osv
open Spec.Packagist

/-- The claim that the comparison is one of a total preorder on all texts. -/
def C114_full : Prop := Spec.CmpLaws Packagist.packagist

/-- It is not: `1.1` and `1.#` are equal, so are `1.#` and `1.0`, but `1.1` is newer than `1.0`. -/
theorem C114_counterexample : ¬ C114_full := by
  intro h
  exact absurd (h.trans g!"1.1" g!"1.#" g!"1.0" (by decide +kernel) (by decide +kernel)) (by decide +kernel)

/-- Versions of numbers and phases are ordered as PHP has it, and only texts of the same version are equal. -/
theorem C114_order (s t : Str) (v w : List Elem) (hs : Written s v) (ht : Written t w) :
    (Packagist.packagist s t < 0 ↔ Precedes v w) ∧ (Packagist.packagist s t = 0 ↔ v = w) := by
  rw [Packagist.packagist_code hs ht]
  exact Packagist.code_spec v w

/-- On their texts the comparison is one of a total preorder. Missing for the full claim: other texts. -/
theorem C114_laws_partial : Spec.CmpLawsOn Good Packagist.packagist := by
  have T := Semantic.cmpList_total Packagist.cmpKey_total
  refine ⟨fun a ⟨v, hv⟩ => ?_, fun a b ⟨v, hv⟩ ⟨w, hw⟩ => ?_, fun a b c ⟨v, hv⟩ ⟨w, hw⟩ ⟨x, hx⟩ => ?_⟩
  · rw [Packagist.packagist_code hv hv]; exact T.refl _
  · rw [Packagist.packagist_code hv hw, Packagist.packagist_code hw hv]; exact T.flip _ _
  · rw [Packagist.packagist_code hv hw, Packagist.packagist_code hw hx, Packagist.packagist_code hv hx]; exact T.trans _ _ _

theorem packagist_agrees : AgreesOn Packagist.packagist Good Older := by
  refine ⟨C114_laws_partial, fun {s t} hs ht => ?_⟩
  obtain ⟨v, hv⟩ := hs
  obtain ⟨w, hw⟩ := ht
  refine ⟨fun h => ⟨v, w, hv, hw, (C114_order s t v w hv hw).1.mp h⟩, fun ⟨v', w', hv', hw', h⟩ => ?_⟩
  exact (C114_order s t v' w' hv' hw').1.mpr h

/-- A PHP package is in a range exactly when its version is in one of the intervals by this order, whatever the order of the events. -/
theorem C114_range (S : Sorter) (sem : Sem) (hsem : sem g!"Packagist" = Packagist.packagist) (r : AffectsRange)
    (pkg : PackageDetails) (hp : pkg.compareAs = g!"Packagist") (hv : Good pkg.version) (he : ∀ e ∈ r.events, Spec.EventBy Good e)
    (hs : ∀ e ∈ r.events, Spec.Single e) (ha : r.events.Pairwise (Spec.ApartBy Older)) :
    r.containsVersion S sem pkg = true ↔ (r.type = g!"ECOSYSTEM" ∨ r.type = g!"SEMVER") ∧ Spec.IntervalBy Older r.events pkg.version :=
  C113_range S sem r pkg Good Older (by rw [hp, hsem]; exact packagist_agrees) hv he hs ha

/-- An advisory is one for a PHP package exactly if it affects it by this order. -/
theorem C114_affected (S : Sorter) (sem : Sem) (hsem : sem g!"Packagist" = Packagist.packagist) (pkg : PackageDetails)
    (hp : pkg.compareAs = g!"Packagist") (hv : Good pkg.version) (o : OSV) (ho : Spec.RangesBy Good Older o) :
    o.isAffected S sem pkg = true ↔ Spec.AffectsBy Older o pkg :=
  C113_affected S sem pkg Good Older (by rw [hp, hsem]; exact packagist_agrees) hv o ho

/-! ### Samples -/

theorem C114_sample_number (c : Char) (n : Nat) (h : Spec.HexDigit c n) (hn : n < 10) : Piece [c] (.number n) :=
  .number (C108_sample_digit c n h hn)

theorem C114_sample_rc : Written g!"v1.0-RC1" [.number 1, .number 0, .rc, .number 1] := by
  have d0 := C114_sample_number '0' 0 (.inl rfl) (by decide)
  have d1 := C114_sample_number '1' 1 (.inl rfl) (by decide)
  exact .v (s := g!"1.0-RC1") (.sep (p := g!"1") (r := g!"0-RC1") d1 (.inl rfl) (.sep (p := g!"0") (r := g!"RC1") d0 (.inr (.inl rfl))
    (.touch (p := g!"RC") (r := g!"1") .RC (.one d1) (.right fun m h => by cases h))))

theorem C114_sample_release : Written g!"1.0" [.number 1, .number 0] := by
  have d0 := C114_sample_number '0' 0 (.inl rfl) (by decide)
  have d1 := C114_sample_number '1' 1 (.inl rfl) (by decide)
  exact .plain (.sep (p := g!"1") (r := g!"0") d1 (.inl rfl) (.one d0))

/-- A release candidate is older than the release. -/
example : Packagist.packagist g!"v1.0-RC1" g!"1.0" < 0 :=
  (C114_order _ _ _ _ C114_sample_rc C114_sample_release).1.mpr (.early (p := [.number 1, .number 0]) .rc)

/-- A range and a package that meet the hypotheses. -/
example : ∃ (sem : Sem) (r : AffectsRange) (pkg : PackageDetails), sem g!"Packagist" = Packagist.packagist ∧ pkg.compareAs = g!"Packagist" ∧
    Good pkg.version ∧ (∀ e ∈ r.events, Spec.EventBy Good e) ∧ (∀ e ∈ r.events, Spec.Single e) ∧ r.events.Pairwise (Spec.ApartBy Older) ∧
    r.containsVersion Sorter.pdq sem pkg = true := by
  refine ⟨fun _ => Packagist.packagist, ⟨g!"ECOSYSTEM", [{ introduced := g!"0" }, { fixed := g!"1.0" }]⟩,
    { name := g!"a", version := g!"v1.0-RC1", ecosystem := g!"Packagist", compareAs := g!"Packagist" }, rfl, rfl, ⟨_, C114_sample_rc⟩, ?_, ?_, ?_,
    by decide +kernel⟩
  · simp only [List.mem_cons, List.not_mem_nil, or_false, forall_eq_or_imp, forall_eq]
    exact ⟨⟨.inr (.inl rfl), .inl rfl, .inl rfl⟩, .inl rfl, .inr ⟨_, C114_sample_release⟩, .inl rfl⟩
  · simp only [List.mem_cons, List.not_mem_nil, or_false, forall_eq_or_imp, forall_eq]
    exact ⟨.introduced _ (by decide), .fixed _ (by decide)⟩
  · refine List.Pairwise.cons ?_ (List.pairwise_singleton ..)
    intro b hb
    rw [List.mem_singleton.mp hb]
    exact ⟨by decide, fun h => absurd rfl h⟩

/-- C113 covers a comparison that C01 does not. -/
example : ∃ cmp good older, AgreesOn cmp good older ∧ ¬ Spec.CmpLaws cmp := ⟨_, _, _, packagist_agrees, C114_counterexample⟩

#print axioms C114_counterexample
#print axioms C114_order
#print axioms C114_laws_partial
#print axioms C114_range
#print axioms C114_affected

end Osv
