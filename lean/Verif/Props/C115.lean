import Verif.Props.C108
import Verif.Props.C113
import Verif.Lemmas.MavenVersion
/-!
# C115: versions of Java packages are compared as Maven orders them

`pkg/database/osv.go:85-131`, with the comparison of `github.com/google/osv-scalibr/semantic`.
-/
namespace Osv
open Spec.MavenVersion

/-- The claim that the comparison is one of a total preorder on all texts. -/
def C115_full : Prop := Spec.CmpLaws MavenVersion.maven

/-- It is not: `1` is older than `1.a`, which is older than `1a1`, but `1a1` is the alpha version of `1`. -/
theorem C115_counterexample : ¬ C115_full := by
  intro h
  exact absurd (h.trans g!"1" g!"1.a" g!"1a1" (by decide +kernel) (by decide +kernel)) (by decide +kernel)

/-- Numbers with a qualifier that may be counted, or with a number behind a dash, are ordered as Maven has it, and only texts of the same version are equal. -/
theorem C115_order (s t : Str) (v w : Version) (hs : Written s v) (ht : Written t w) :
    (MavenVersion.maven s t < 0 ↔ Precedes v w) ∧ (MavenVersion.maven s t = 0 ↔ Same v w) := by
  rw [MavenVersion.maven_version hs ht]
  exact MavenVersion.version_order v w

/-- A qualifier behind a dot (`5.0.0.RC1`, `1.2.SP1`) makes a version older than its numbers if its phase is before the release, and
newer otherwise. -/
theorem C115_dotted (s w t : Str) (ns : List Nat) (p : Phase) (hs : Spec.Precedence.NumbersText s ns) (hl : Letters w)
    (ht : DottedTail w t p) :
    (rank p < rank .release → MavenVersion.maven (s ++ '.' :: (w ++ t)) s < 0 ∧ 0 < MavenVersion.maven s (s ++ '.' :: (w ++ t))) ∧
      (rank .release ≤ rank p → 0 < MavenVersion.maven (s ++ '.' :: (w ++ t)) s ∧ MavenVersion.maven s (s ++ '.' :: (w ++ t)) < 0) := by
  obtain ⟨h1, h2⟩ := MavenVersion.dotted_compare hs hl ht
  rw [h1, h2]
  refine ⟨fun h => ?_, fun h => ?_⟩
  · rw [if_pos h, if_pos h]; decide
  · rw [if_neg (by omega), if_neg (by omega)]; decide

/-- A dot or dash behind the numbers makes no difference to any comparison. -/
theorem C115_trailing (s t : Str) (ns : List Nat) (c : Char) (hs : Spec.Precedence.NumbersText s ns) (hc : c = '.' ∨ c = '-') :
    MavenVersion.maven (s ++ [c]) t = MavenVersion.maven s t ∧ MavenVersion.maven t (s ++ [c]) = MavenVersion.maven t s := by
  unfold MavenVersion.maven
  rw [MavenVersion.parse_trailing hs hc]
  exact ⟨rfl, rfl⟩

/-- On their texts the comparison is one of a total preorder. Missing for the full claim: other texts. -/
theorem C115_laws_partial : Spec.CmpLawsOn Good MavenVersion.maven := by
  have T := MavenVersion.cmpVersion_total
  refine ⟨fun a ⟨v, hv⟩ => ?_, fun a b ⟨v, hv⟩ ⟨w, hw⟩ => ?_, fun a b c ⟨v, hv⟩ ⟨w, hw⟩ ⟨x, hx⟩ => ?_⟩
  · rw [MavenVersion.maven_version hv hv]; exact T.refl _
  · rw [MavenVersion.maven_version hv hw, MavenVersion.maven_version hw hv]; exact T.flip _ _
  · rw [MavenVersion.maven_version hv hw, MavenVersion.maven_version hw hx, MavenVersion.maven_version hv hx]; exact T.trans _ _ _

theorem maven_agrees : AgreesOn MavenVersion.maven Good Older := by
  refine ⟨C115_laws_partial, fun {s t} hs ht => ?_⟩
  obtain ⟨v, hv⟩ := hs
  obtain ⟨w, hw⟩ := ht
  refine ⟨fun h => ⟨v, w, hv, hw, (C115_order s t v w hv hw).1.mp h⟩, fun ⟨v', w', hv', hw', h⟩ => ?_⟩
  exact (C115_order s t v' w' hv' hw').1.mpr h

/-- A Java package is in a range exactly when its version is in one of the intervals by this order, whatever the order of the events. -/
theorem C115_range (S : Sorter) (sem : Sem) (hsem : sem g!"Maven" = MavenVersion.maven) (r : AffectsRange)
    (pkg : PackageDetails) (hp : pkg.compareAs = g!"Maven") (hv : Good pkg.version) (he : ∀ e ∈ r.events, Spec.EventBy Good e)
    (hs : ∀ e ∈ r.events, Spec.Single e) (ha : r.events.Pairwise (Spec.ApartBy Older)) :
    r.containsVersion S sem pkg = true ↔ (r.type = g!"ECOSYSTEM" ∨ r.type = g!"SEMVER") ∧ Spec.IntervalBy Older r.events pkg.version :=
  C113_range S sem r pkg Good Older (by rw [hp, hsem]; exact maven_agrees) hv he hs ha

/-- An advisory is one for a Java package exactly if it affects it by this order. -/
theorem C115_affected (S : Sorter) (sem : Sem) (hsem : sem g!"Maven" = MavenVersion.maven) (pkg : PackageDetails)
    (hp : pkg.compareAs = g!"Maven") (hv : Good pkg.version) (o : OSV) (ho : Spec.RangesBy Good Older o) :
    o.isAffected S sem pkg = true ↔ Spec.AffectsBy Older o pkg :=
  C113_affected S sem pkg Good Older (by rw [hp, hsem]; exact maven_agrees) hv o ho

/-! ### Samples -/

theorem C115_sample_numbers : Spec.Precedence.NumbersText g!"1.0" [1, 0] :=
  .dot (d := g!"1") (r := g!"0") (C108_sample_digit '1' 1 (.inl rfl) (by decide)) (.one (C108_sample_digit '0' 0 (.inl rfl) (by decide)))

theorem C115_sample_rc : Written g!"1.0-RC1" ⟨[1, 0], .rc, 1⟩ := by
  refine .mk (t := g!"-RC1") C115_sample_numbers (.counted (sep := g!"-") (w := g!"RC") (d := g!"1") (.inr rfl) ?_ (.rc (by decide)) ?_
    (C108_sample_digit '1' 1 (.inl rfl) (by decide)))
  · unfold Letters; decide
  · rintro q (h | h | h) <;> exact absurd h (by decide)

theorem C115_sample_final : Written g!"1.0.Final" ⟨[1, 0], .release, 0⟩ := by
  refine .mk (t := g!".Final") C115_sample_numbers (.release (sep := g!".") (w := g!"Final") (.inr (.inr rfl)) ?_ (by decide))
  unfold Letters; decide

/-- A release candidate is older than the release. -/
example : MavenVersion.maven g!"1.0-RC1" g!"1.0.Final" < 0 :=
  (C115_order _ _ _ _ C115_sample_rc C115_sample_final).1.mpr (.phase (fun _ => rfl) (.ranked (by decide)))

theorem C115_sample_revision : Written g!"1.0-1" ⟨[1, 0], .revision, 1⟩ :=
  .mk (t := g!"-1") C115_sample_numbers (.revision (by decide) (C108_sample_digit '1' 1 (.inl rfl) (by decide)))

/-- A number behind a dash is newer than the release. -/
example : MavenVersion.maven g!"1.0.Final" g!"1.0-1" < 0 :=
  (C115_order _ _ _ _ C115_sample_final C115_sample_revision).1.mpr (.phase (fun _ => rfl) (.ranked (by decide)))

/-- A milestone behind a dot is older. -/
example : MavenVersion.maven g!"1.0.M1" g!"1.0" < 0 :=
  ((C115_dotted g!"1.0" g!"M" g!"1" _ .milestone C115_sample_numbers (by unfold Letters; decide)
    (.inr ⟨1, C108_sample_digit '1' 1 (.inl rfl) (by decide), .inr (.m (by decide))⟩)).1 (by decide)).1

example : MavenVersion.maven g!"1.0-" g!"1.0-RC1" = MavenVersion.maven g!"1.0" g!"1.0-RC1" :=
  (C115_trailing g!"1.0" _ _ '-' C115_sample_numbers (.inr rfl)).1

/-- A range and a package that meet the hypotheses. -/
example : ∃ (sem : Sem) (r : AffectsRange) (pkg : PackageDetails), sem g!"Maven" = MavenVersion.maven ∧ pkg.compareAs = g!"Maven" ∧
    Good pkg.version ∧ (∀ e ∈ r.events, Spec.EventBy Good e) ∧ (∀ e ∈ r.events, Spec.Single e) ∧ r.events.Pairwise (Spec.ApartBy Older) ∧
    r.containsVersion Sorter.pdq sem pkg = true := by
  refine ⟨fun _ => MavenVersion.maven, ⟨g!"ECOSYSTEM", [{ introduced := g!"0" }, { fixed := g!"1.0.Final" }]⟩,
    { name := g!"a:b", version := g!"1.0-RC1", ecosystem := g!"Maven", compareAs := g!"Maven" }, rfl, rfl, ⟨_, C115_sample_rc⟩, ?_, ?_, ?_,
    by decide +kernel⟩
  · simp only [List.mem_cons, List.not_mem_nil, or_false, forall_eq_or_imp, forall_eq]
    exact ⟨⟨.inr (.inl rfl), .inl rfl, .inl rfl⟩, .inl rfl, .inr ⟨_, C115_sample_final⟩, .inl rfl⟩
  · simp only [List.mem_cons, List.not_mem_nil, or_false, forall_eq_or_imp, forall_eq]
    exact ⟨.introduced _ (by decide), .fixed _ (by decide)⟩
  · refine List.Pairwise.cons ?_ (List.pairwise_singleton ..)
    intro b hb
    rw [List.mem_singleton.mp hb]
    exact ⟨by decide, fun h => absurd rfl h⟩

#print axioms C115_counterexample
#print axioms C115_order
#print axioms C115_dotted
#print axioms C115_trailing
#print axioms C115_laws_partial
#print axioms C115_range
#print axioms C115_affected

end Osv
