import Verif.Props.C107
import Verif.Lemmas.Intervals
import Verif.Lemmas.PypiRead
/-!
# C108: versions of Python packages are compared as PEP 440 orders them

`pkg/database/osv.go:85-131`, with the comparison of `github.com/google/osv-scalibr/semantic`.
-/
namespace Osv
open Spec.Pep440

/-- The comparison of PyPI versions, on all texts, is one of a total preorder, whatever is made of texts that are no versions. -/
theorem C108_laws (legacy : Str → Str) : Spec.CmpLaws (Pypi.pypi legacy) := (Pypi.pypi_total legacy).laws

/-- Versions are ordered as PEP 440 has it, in all spellings that it permits, and only texts of the same version are equal. -/
theorem C108_order (legacy : Str → Str) (s t : Str) (v w : Version) (hs : Written s v) (ht : Written t w) :
    (Pypi.pypi legacy s t < 0 ↔ Precedes v w) ∧ (Pypi.pypi legacy s t = 0 ↔ Same v w) :=
  Pypi.compare_spec (Pypi.written_read legacy hs) (Pypi.written_read legacy ht)

/-- A text is that of one version at most, up to zeros at the end of the release. -/
theorem C108_unique (s : Str) (v w : Version) (hv : Written s v) (hw : Written s w) : Same v w := by
  rw [← (C108_order id s s v w hv hw).2]
  exact (Pypi.pypi_total id).refl s

/-- All texts that are no versions come before all versions. -/
theorem C108_others (legacy : Str → Str) (s t : Str) (hs : ∃ x, (Pypi.parse legacy s).legacy = some x) (ht : Good t) : Pypi.pypi legacy s t < 0 := by
  obtain ⟨x, hx⟩ := hs
  obtain ⟨w, hw⟩ := ht
  have h2 := (Pypi.written_read legacy hw).legacy
  simp [Pypi.pypi, Pypi.compare, Pypi.first, Pypi.cmpLegacy, hx, h2]

theorem pypi_agrees (legacy : Str → Str) : Agrees (Pypi.pypi legacy) Good Older := by
  refine ⟨C108_laws legacy, fun {s t} hs ht => ?_⟩
  obtain ⟨v, hv⟩ := hs
  obtain ⟨w, hw⟩ := ht
  refine ⟨fun h => ⟨v, w, hv, hw, (C108_order legacy s t v w hv hw).1.mp h⟩, fun ⟨v', w', hv', hw', h⟩ => ?_⟩
  exact (C108_order legacy s t v' w' hv' hw').1.mpr h

/-- A package from PyPI is in a range exactly when its version is in one of the intervals by the order of PEP 440, whatever the order
of the events. -/
theorem C108_range (S : Sorter) (sem : Sem) (legacy : Str → Str) (hsem : sem g!"PyPI" = Pypi.pypi legacy) (r : AffectsRange)
    (pkg : PackageDetails) (hp : pkg.compareAs = g!"PyPI") (hv : Good pkg.version) (he : ∀ e ∈ r.events, Spec.EventBy Good e)
    (hs : ∀ e ∈ r.events, Spec.Single e) (ha : r.events.Pairwise (Spec.ApartBy Older)) :
    r.containsVersion S sem pkg = true ↔ (r.type = g!"ECOSYSTEM" ∨ r.type = g!"SEMVER") ∧ Spec.IntervalBy Older r.events pkg.version := by
  have H := pypi_agrees legacy
  rw [C01_range_intervals S sem r pkg (by rw [hp, hsem]; exact H.laws) (by rw [hp, hsem]; exact H.wellFormed he hs ha), hp, hsem,
    H.inRange hv he]

/-! ### Samples -/

theorem C108_sample_digit (c : Char) (n : Nat) (h : Spec.HexDigit c n) (hn : n < 10) : Spec.Precedence.Decimal [c] n := ⟨by simp, by
  have := Spec.ModText.Numeral.snoc (base := 10) .nil h hn
  simpa using this⟩

/-- Releases with one or two numbers. -/
theorem C108_sample_release (c d : Char) (m n : Nat) (hc : Spec.HexDigit c m) (hm : m < 10) (hd : Spec.HexDigit d n) (hn : n < 10)
    (he : [c, '.', d].map Char.toLower = [c, '.', d]) : Good [c, '.', d] := by
  refine ⟨⟨0, [m, n], none, none, none, []⟩, ?_⟩
  show Text _ _
  rw [he]
  exact Text.intro (b := []) (b' := []) (v := []) (e := []) (r := [c]) (r' := ['.', d]) (p := []) (q := []) (d := []) (l := [])
    (fun _ h => absurd h (by simp)) (fun _ h => absurd h (by simp)) (.inl rfl) .none (C108_sample_digit c m hc hm)
    (.cons (d := [d]) (r := []) (C108_sample_digit d n hd hn) .nil) rfl .none .none (fun _ => .inl rfl) .none .none

/-- ` v1!1.0-ALPHA.1-2.dev+U.1` is the text of a version. -/
theorem C108_sample_text : Written g!" v1!1.0-ALPHA.1-2.dev+U.1" ⟨1, [1, 0], some (.alpha, 1), some 2, some 0, [.text g!"u", .number 1]⟩ := by
  have d1 := C108_sample_digit '1' 1 (.inl rfl) (by decide)
  have d0 := C108_sample_digit '0' 0 (.inl rfl) (by decide)
  have d2 := C108_sample_digit '2' 2 (.inl rfl) (by decide)
  show Text _ _
  exact Text.intro (b := g!" ") (b' := []) (v := g!"v") (e := g!"1!") (r := g!"1") (r' := g!".0") (p := g!"-alpha.1") (q := g!"-2") (d := g!".dev")
    (l := g!"+u.1") (by unfold Blank; decide) (fun _ h => absurd h (by simp)) (.inr rfl) (.some d1) d1 (.cons (r := []) d0 .nil) rfl
    (.some (w := g!"alpha") .alpha (.number (s := g!"-") (s' := g!".") (.inr ⟨'-', .inr (.inl rfl), rfl⟩) (.inr ⟨'.', .inl rfl, rfl⟩) d1))
    (.dash d2) (fun _ => .inr ⟨g!"-alpha.", '1', rfl, by unfold Spec.ModText.Digit; decide⟩)
    (.some (.plain (s := g!".") (.inr ⟨'.', .inl rfl, rfl⟩)))
    (.some (t := g!"u") (r := g!".1") (.text (by unfold Spec.ModText.Digit; decide) ⟨'u', by decide, by unfold Spec.ModText.Digit; decide⟩)
      (.cons (t := g!"1") (r := []) (.inl rfl) (.number d1) .nil))

example : ∃ v w, Written g!" v1!1.0-ALPHA.1-2.dev+U.1" v ∧ Written g!"2.0" w ∧ Precedes w v := by
  obtain ⟨w, hw⟩ := C108_sample_release '2' '0' 2 0 (.inl rfl) (by decide) (.inl rfl) (by decide) (by decide)
  exact ⟨_, w, C108_sample_text, hw, (C108_order id _ _ _ _ hw C108_sample_text).1.mp (by decide +kernel)⟩

/-- A range and a package that meet the hypotheses. -/
example : ∃ (sem : Sem) (r : AffectsRange) (pkg : PackageDetails), sem g!"PyPI" = Pypi.pypi id ∧ pkg.compareAs = g!"PyPI" ∧
    Good pkg.version ∧ (∀ e ∈ r.events, Spec.EventBy Good e) ∧ (∀ e ∈ r.events, Spec.Single e) ∧ r.events.Pairwise (Spec.ApartBy Older) ∧
    r.containsVersion Sorter.pdq sem pkg = true := by
  have g := C108_sample_release '2' '0' 2 0 (.inl rfl) (by decide) (.inl rfl) (by decide) (by decide)
  refine ⟨fun _ => Pypi.pypi id, ⟨g!"ECOSYSTEM", [{ introduced := g!"0" }, { fixed := g!"2.0" }]⟩,
    { name := g!"a", version := g!"1.1", ecosystem := g!"PyPI", compareAs := g!"PyPI" }, rfl, rfl,
    C108_sample_release '1' '1' 1 1 (.inl rfl) (by decide) (.inl rfl) (by decide) (by decide), ?_, ?_, ?_, by decide +kernel⟩
  · simp only [List.mem_cons, List.not_mem_nil, or_false, forall_eq_or_imp, forall_eq]
    exact ⟨⟨.inr (.inl rfl), .inl rfl, .inl rfl⟩, .inl rfl, .inr g, .inl rfl⟩
  · simp only [List.mem_cons, List.not_mem_nil, or_false, forall_eq_or_imp, forall_eq]
    exact ⟨.introduced _ (by decide), .fixed _ (by decide)⟩
  · refine List.Pairwise.cons ?_ (List.pairwise_singleton ..)
    intro b hb
    rw [List.mem_singleton.mp hb]
    exact ⟨by decide, fun h => absurd rfl h⟩

#print axioms C108_laws
#print axioms C108_order
#print axioms C108_unique
#print axioms C108_others
#print axioms C108_range

end Osv
