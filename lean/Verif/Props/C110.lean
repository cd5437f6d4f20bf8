import Verif.Props.C96
import Verif.Props.C108
import Verif.Lemmas.NuGetOrder
/-!
# C110: versions of NuGet packages are compared as NuGet orders them

`pkg/database/osv.go:85-131`, with the comparison of `github.com/google/osv-scalibr/semantic`.
-/
namespace Osv
open Spec.NuGetOrder

/-- The claim for all versions. -/
def C110_full : Prop := ∀ (s t : Str) (v w : Version), Written s v → Written t w →
  (Semantic.nuget s t < 0 ↔ Precedes v w) ∧ (Semantic.nuget s t = 0 ↔ Same v w)

theorem C110_sample_digit (c : Char) (n : Nat) (h : Spec.HexDigit c n) (hn : n < 10) : Spec.Precedence.NumbersText [c] [n] :=
  .one (C108_sample_digit c n h hn)

theorem C110_sample_pre (i : Str) (h : Spec.Precedence.PreId (i.map Char.toLower)) : Written ('1' :: '-' :: i) ⟨[1], [i.map Char.toLower]⟩ := by
  have e : Spec.Precedence.Ending (('-' :: i).map Char.toLower) [i.map Char.toLower] := by
    have := Spec.Precedence.Ending.pre (i := i.map Char.toLower) (ids := []) (by simpa using h)
    simpa using this
  exact .plain (s := g!"1") (t := '-' :: i) (C110_sample_digit '1' 1 (.inl rfl) (by decide)) (by decide) e

/-- A hyphen with digits behind it is read as a negative number: `1--01` and `1--1` are different versions, but they are equal for the
program. -/
theorem C110_counterexample : ¬ C110_full := by
  intro h
  have a := C110_sample_pre g!"-01" ⟨⟨by decide, by unfold Spec.ModText.Digit; decide⟩, fun h => absurd (h '-' (by decide)) (by unfold Spec.ModText.Digit; decide)⟩
  have b := C110_sample_pre g!"-1" ⟨⟨by decide, by unfold Spec.ModText.Digit; decide⟩, fun h => absurd (h '-' (by decide)) (by unfold Spec.ModText.Digit; decide)⟩
  have := ((h _ _ _ _ a b).2.mp (by decide +kernel)).2
  exact absurd this (by decide)

/-- With one to four numbers, in capital or small letters, with or without `v`, pre-release and build metadata: versions are ordered as
NuGet has it and only texts of the same version are equal. Missing for the full claim: identifiers that are a hyphen with digits. -/
theorem C110_order_partial (s t : Str) (v w : Version) (hs : Written s v) (ht : Written t w) (hv : Plain v) (hw : Plain w) :
    (Semantic.nuget s t < 0 ↔ Precedes v w) ∧ (Semantic.nuget s t = 0 ↔ Same v w) := Semantic.nuget_spec hs ht hv hw

theorem nuget_agrees : Agrees Semantic.nuget Good Older := by
  refine ⟨C96_nuget_laws, fun {s t} hs ht => ?_⟩
  obtain ⟨v, hv, pv⟩ := hs
  obtain ⟨w, hw, pw⟩ := ht
  refine ⟨fun h => ⟨v, w, hv, hw, (C110_order_partial s t v w hv hw pv pw).1.mp h⟩, fun ⟨v', w', hv', hw', h⟩ => ?_⟩
  obtain ⟨a, ea, pa⟩ := Semantic.nuget_parse hv
  obtain ⟨a', ea', pa'⟩ := Semantic.nuget_parse hv'
  obtain ⟨b, eb, pb⟩ := Semantic.nuget_parse hw
  obtain ⟨b', eb', pb'⟩ := Semantic.nuget_parse hw'
  have same : ∀ {x y : Version} {a a' : Str} {s : Str}, Spec.Precedence.Ending (Str.toLower a) x.pre → Spec.Precedence.Ending (Str.toLower a') y.pre →
      Semantic.parseLike 4 s = ⟨x.numbers, a⟩ → Semantic.parseLike 4 s = ⟨y.numbers, a'⟩ → x = y := by
    intro x y a a' s e1 e2 h1 h2
    rw [h1] at h2
    obtain ⟨h3, h4⟩ := Semantic.Like.mk.inj h2
    subst h4
    have r1 := Semantic.ending_prerelease e1
    have r2 := Semantic.ending_prerelease e2
    have : x.pre = y.pre := by
      by_cases h5 : x.pre = []
      · by_cases h6 : y.pre = []
        · rw [h5, h6]
        · exact absurd (r1.1 h5) (r2.2.1 h6).1
      · by_cases h6 : y.pre = []
        · exact absurd (r2.1 h6) (r1.2.1 h5).1
        · rw [← (r1.2.1 h5).2, ← (r2.2.1 h6).2]
    cases x; cases y; simp_all
  obtain rfl := same ea ea' pa pa'
  obtain rfl := same eb eb' pb pb'
  exact (C110_order_partial s t _ _ hv hw pv pw).1.mpr h

/-- A package from NuGet is in a range exactly when its version is in one of the intervals by this order, whatever the order of the
events. -/
theorem C110_range_partial (S : Sorter) (sem : Sem) (hsem : sem g!"NuGet" = Semantic.nuget) (r : AffectsRange)
    (pkg : PackageDetails) (hp : pkg.compareAs = g!"NuGet") (hv : Good pkg.version) (he : ∀ e ∈ r.events, Spec.EventBy Good e)
    (hs : ∀ e ∈ r.events, Spec.Single e) (ha : r.events.Pairwise (Spec.ApartBy Older)) :
    r.containsVersion S sem pkg = true ↔ (r.type = g!"ECOSYSTEM" ∨ r.type = g!"SEMVER") ∧ Spec.IntervalBy Older r.events pkg.version := by
  have H := nuget_agrees
  rw [C01_range_intervals S sem r pkg (by rw [hp, hsem]; exact H.laws) (by rw [hp, hsem]; exact H.wellFormed he hs ha), hp, hsem,
    H.inRange hv he]

/-! ### Samples -/

/-- `1-RC` is older than `v1.0.0.0` and than `2`, and the same as `1-rc`. -/
example : ∃ v w x y, Written g!"1-RC" v ∧ Written g!"v1.0.0.0" w ∧ Written g!"2" x ∧ Written g!"1-rc" y ∧ Plain v ∧ Plain w ∧ Plain x ∧
    Precedes v w ∧ Precedes w x ∧ v = y := by
  have d0 := C108_sample_digit '0' 0 (.inl rfl) (by decide)
  have d1 := C108_sample_digit '1' 1 (.inl rfl) (by decide)
  have pid : Spec.Precedence.PreId g!"rc" :=
    ⟨⟨by decide, by unfold Spec.ModText.Digit; decide⟩, fun h => absurd (h 'r' (by decide)) (by unfold Spec.ModText.Digit; decide)⟩
  have a := C110_sample_pre g!"RC" pid
  have a' := C110_sample_pre g!"rc" pid
  have b : Written g!"v1.0.0.0" ⟨[1, 0, 0, 0], []⟩ :=
    .v (s := g!"1.0.0.0") (t := []) (.dot (r := g!"0.0.0") d1 (.dot (r := g!"0.0") d0 (.dot (r := g!"0") d0 (.one d0)))) (by decide) .none
  have c : Written g!"2" ⟨[2], []⟩ := .plain (s := g!"2") (t := []) (C110_sample_digit '2' 2 (.inl rfl) (by decide)) (by decide) .none
  have pa : Plain ⟨[1], [g!"rc"]⟩ := by
    intro i hi t e
    rw [List.mem_singleton.mp hi] at e
    exact absurd (List.cons.inj e).1 (by decide)
  have pb : ∀ ns, Plain ⟨ns, []⟩ := fun ns i hi => absurd hi (by simp)
  exact ⟨_, _, _, _, a, b, c, a', pa, pb _, pb _, (C110_order_partial _ _ _ _ a b pa (pb _)).1.mp (by decide +kernel),
    (C110_order_partial _ _ _ _ b c (pb _) (pb _)).1.mp (by decide +kernel), rfl⟩

#print axioms C110_counterexample
#print axioms C110_order_partial
#print axioms C110_range_partial

end Osv
