import Verif.Props.C108
import Verif.Lemmas.CranVersion
/-!
# C112: versions of R packages are compared as R orders them

`pkg/database/osv.go:85-131`, with the comparison of `github.com/google/osv-scalibr/semantic`.
-/
namespace Osv
open Spec.CranVersion

/-- The comparison is one of a total preorder, whatever is made of parts that are no numbers. -/
theorem C112_laws (other : Str → Nat) : Spec.CmpLaws (CranVersion.cran other) := (CranVersion.parts_total.comap _).laws

/-- Versions are ordered as R has it, and only texts of the same version are equal. -/
theorem C112_order (other : Str → Nat) (s t : Str) (v w : List Nat) (hs : Written s v) (ht : Written t w) :
    (CranVersion.cran other s t < 0 ↔ Precedes v w) ∧ (CranVersion.cran other s t = 0 ↔ v = w) := by
  unfold CranVersion.cran
  rw [CranVersion.written_parse_cran other hs, CranVersion.written_parse_cran other ht]
  exact CranVersion.parts_before v w

theorem cran_agrees (other : Str → Nat) : Agrees (CranVersion.cran other) Good Older := by
  refine ⟨C112_laws other, fun {s t} hs ht => ?_⟩
  obtain ⟨v, hv⟩ := hs
  obtain ⟨w, hw⟩ := ht
  refine ⟨fun h => ⟨v, w, hv, hw, (C112_order other s t v w hv hw).1.mp h⟩, fun ⟨v', w', hv', hw', h⟩ => ?_⟩
  exact (C112_order other s t v' w' hv' hw').1.mpr h

/-- A package from CRAN is in a range exactly when its version is in one of the intervals by this order, whatever the order of the
events. -/
theorem C112_range (S : Sorter) (sem : Sem) (other : Str → Nat) (hsem : sem g!"CRAN" = CranVersion.cran other) (r : AffectsRange)
    (pkg : PackageDetails) (hp : pkg.compareAs = g!"CRAN") (hv : Good pkg.version) (he : ∀ e ∈ r.events, Spec.EventBy Good e)
    (hs : ∀ e ∈ r.events, Spec.Single e) (ha : r.events.Pairwise (Spec.ApartBy Older)) :
    r.containsVersion S sem pkg = true ↔ (r.type = g!"ECOSYSTEM" ∨ r.type = g!"SEMVER") ∧ Spec.IntervalBy Older r.events pkg.version := by
  have H := cran_agrees other
  rw [C01_range_intervals S sem r pkg (by rw [hp, hsem]; exact H.laws) (by rw [hp, hsem]; exact H.wellFormed he hs ha), hp, hsem,
    H.inRange hv he]

/-- `1-2` is the version 1.2, which is older than 1.2.0. -/
example : ∃ v w, Written g!"1-2" v ∧ Written g!"1.2.0" w ∧ Precedes v w ∧ v = [1, 2] := by
  have d0 := C108_sample_digit '0' 0 (.inl rfl) (by decide)
  have d1 := C108_sample_digit '1' 1 (.inl rfl) (by decide)
  have d2 := C108_sample_digit '2' 2 (.inl rfl) (by decide)
  exact ⟨[1, 2], [1, 2, 0], .sep (d := g!"1") (r := g!"2") d1 (.inr rfl) (.one d2),
    .sep (d := g!"1") (r := g!"2.0") d1 (.inl rfl) (.sep (d := g!"2") (r := g!"0") d2 (.inl rfl) (.one d0)),
    Spec.Precedence.Before.longer (p := [1, 2]) (t := []), rfl⟩

#print axioms C112_laws
#print axioms C112_order
#print axioms C112_range

end Osv
