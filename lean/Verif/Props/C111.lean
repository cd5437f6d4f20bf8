import Verif.Props.C96
import Verif.Props.C108
import Verif.Lemmas.GemVersion
/-!
# C111: versions of gems are compared as RubyGems orders them

`pkg/database/osv.go:85-131`, with the comparison of `github.com/google/osv-scalibr/semantic`.
-/
namespace Osv
open Spec.GemVersion
open Spec.Pep440 (Seg)

/-- The comparison of gem versions, on all texts, is one of a total preorder. -/
theorem C111_laws : Spec.CmpLaws GemVersion.gems := C96_rubygems_laws GemVersion.segments

/-- The claim for all versions of digits and letters. -/
def C111_full : Prop := ∀ (s t : Str) (xs ys a b : List Seg), Text AnyPiece s xs → Text AnyPiece t ys → Canonical xs a → Canonical ys b →
  (GemVersion.gems s t < 0 ↔ Precedes a b) ∧ (GemVersion.gems s t = 0 ↔ Same a b)

/-- A zero with two digits is not taken away: `1.00.a` is the same version as `1.a`, but it is newer for the program. -/
theorem C111_counterexample : ¬ C111_full := by
  intro h
  have d1 := C108_sample_digit '1' 1 (.inl rfl) (by decide)
  have d00 : Spec.Precedence.Decimal g!"00" 0 := ⟨by decide, by
    have h0 := (C108_sample_digit '0' 0 (.inl rfl) (by decide)).2
    have := Spec.ModText.Numeral.snoc (base := 10) (c := '0') (n := 0) h0 (.inl rfl) (by decide)
    simpa using this⟩
  have ta : AnyPiece g!"a" (.text g!"a") := .text (by decide) (by decide)
  have x : Text AnyPiece g!"1.00.a" [.number 1, .number 0, .text g!"a"] :=
    .dot (p := g!"1") (r := g!"00.a") (.number d1) (.dot (p := g!"00") (r := g!"a") (.number d00) (.one ta))
  have y : Text AnyPiece g!"1.a" [.number 1, .text g!"a"] := .dot (p := g!"1") (r := g!"a") (.number d1) (.one ta)
  have cx : Canonical [.number 1, .number 0, .text g!"a"] [.number 1, .text g!"a"] :=
    .both (ns := [.number 1]) (ts := []) (k := 1) (l := 0) (by simp) (by decide) (by decide)
  have cy : Canonical [.number 1, .text g!"a"] [.number 1, .text g!"a"] :=
    .both (ns := [.number 1]) (ts := []) (k := 0) (l := 0) (by simp) (by decide) (by decide)
  exact absurd ((h _ _ _ _ _ _ x y cx cy).2.mpr fun _ => rfl) (by decide +kernel)

/-- Versions are ordered as RubyGems has it, and only texts of the same version are equal. Missing for the full claim: zeros with more
than one digit. -/
theorem C111_order_partial (s t : Str) (xs ys a b : List Seg) (hs : Text Piece s xs) (ht : Text Piece t ys) (ha : Canonical xs a)
    (hb : Canonical ys b) : (GemVersion.gems s t < 0 ↔ Precedes a b) ∧ (GemVersion.gems s t = 0 ↔ Same a b) :=
  GemVersion.gems_spec hs ht ha hb

/-- Every list of runs has a part that counts. -/
theorem C111_canonical (xs : List Seg) : ∃ a, Canonical xs a := GemVersion.canonical_exists xs

theorem gems_agrees : Agrees GemVersion.gems Good Older := by
  refine ⟨C111_laws, fun {s t} hs ht => ?_⟩
  obtain ⟨xs, hx⟩ := hs
  obtain ⟨ys, hy⟩ := ht
  obtain ⟨a, ha⟩ := C111_canonical xs
  obtain ⟨b, hb⟩ := C111_canonical ys
  refine ⟨fun h => ⟨xs, ys, a, b, hx, hy, ha, hb, (C111_order_partial s t xs ys a b hx hy ha hb).1.mp h⟩, fun h => ?_⟩
  obtain ⟨xs, ys, a, b, hx, hy, ha, hb, h⟩ := h
  exact (C111_order_partial s t xs ys a b hx hy ha hb).1.mpr h

/-- A gem is in a range exactly when its version is in one of the intervals by this order, whatever the order of the events. -/
theorem C111_range_partial (S : Sorter) (sem : Sem) (hsem : sem g!"RubyGems" = GemVersion.gems) (r : AffectsRange)
    (pkg : PackageDetails) (hp : pkg.compareAs = g!"RubyGems") (hv : Good pkg.version) (he : ∀ e ∈ r.events, Spec.EventBy Good e)
    (hs : ∀ e ∈ r.events, Spec.Single e) (ha : r.events.Pairwise (Spec.ApartBy Older)) :
    r.containsVersion S sem pkg = true ↔ (r.type = g!"ECOSYSTEM" ∨ r.type = g!"SEMVER") ∧ Spec.IntervalBy Older r.events pkg.version := by
  have H := gems_agrees
  rw [C01_range_intervals S sem r pkg (by rw [hp, hsem]; exact H.laws) (by rw [hp, hsem]; exact H.wellFormed he hs ha), hp, hsem,
    H.inRange hv he]

/-! ### Samples -/

/-- `1.0.rc1.0` counts as `1`, `rc`, `1` and is older than `1`. -/
example : ∃ xs ys a b, Text Piece g!"1.0.rc1.0" xs ∧ Text Piece g!"1" ys ∧ Canonical xs a ∧ Canonical ys b ∧ Precedes a b ∧
    a = [.number 1, .text g!"rc", .number 1] := by
  have d0 : Piece g!"0" (.number 0) := .number (C108_sample_digit '0' 0 (.inl rfl) (by decide)) fun _ => rfl
  have d1 : Piece g!"1" (.number 1) := .number (C108_sample_digit '1' 1 (.inl rfl) (by decide)) fun h => absurd h (by decide)
  have tr : Piece g!"rc" (.text g!"rc") := .text (by decide) (by decide)
  have x : Text Piece g!"1.0.rc1.0" [.number 1, .number 0, .text g!"rc", .number 1, .number 0] :=
    .dot (p := g!"1") (r := g!"0.rc1.0") d1 (.dot (p := g!"0") (r := g!"rc1.0") d0
      (.touch (p := g!"rc") (r := g!"1.0") tr (.dot (p := g!"1") (r := g!"0") d1 (.one d0)) .right))
  have y : Text Piece g!"1" [.number 1] := .one d1
  have cx : Canonical [.number 1, .number 0, .text g!"rc", .number 1, .number 0] [.number 1, .text g!"rc", .number 1] :=
    .both (ns := [.number 1]) (ts := [.number 1]) (k := 1) (l := 1) (by simp) (by decide) (by decide)
  have cy : Canonical [.number 1] [.number 1] := .numbers (ns := [.number 1]) (k := 0) (by simp) (by decide)
  exact ⟨_, _, _, _, x, y, cx, cy, (C111_order_partial _ _ _ _ _ _ x y cx cy).1.mp (by decide +kernel), rfl⟩

#print axioms C111_laws
#print axioms C111_counterexample
#print axioms C111_order_partial
#print axioms C111_canonical
#print axioms C111_range_partial

end Osv
