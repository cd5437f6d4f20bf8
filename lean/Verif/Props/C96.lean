import Verif.Props.C01
import Verif.Lemmas.SemverLong
/-!
# C96: versions of npm, crates.io, Go, Hex and Conan packages are compared by the precedence of semantic versions

`pkg/database/osv.go:85-131`, with the comparison of `github.com/google/osv-scalibr/semantic`.
-/
namespace Osv
open Spec.Precedence

/-- The comparison of semantic versions, on all texts, is one of a total preorder. -/
theorem C96_semver_laws : Spec.CmpLaws Semantic.semver := Semantic.semver_total.laws

/-- So is the comparison of NuGet versions. -/
theorem C96_nuget_laws : Spec.CmpLaws Semantic.nuget := Semantic.nuget_total.laws

/-- And so is the comparison of RubyGems versions, however they are divided into segments. -/
theorem C96_rubygems_laws (segments : Str → List Str) : Spec.CmpLaws (Semantic.rubygems segments) := (Semantic.rubygems_total segments).laws

/-- Semantic versions are ordered by their precedence, and only versions that are the same up to build metadata are equal. -/
theorem C96_precedence (s t : Str) (v w : Version) (hs : Written s v) (ht : Written t w) (hv : Plain v) (hw : Plain w) :
    (Semantic.semver s t < 0 ↔ Precedes v w) ∧ (Semantic.semver s t = 0 ↔ v = w) := Semantic.semver_precedence hs ht hv hw

/-- A text is that of at most one version. -/
theorem C96_unique (s : Str) (v w : Version) (hv : Written s v) (hw : Written s w) : v = w := Semantic.written_unique hv hw

theorem semver_older {s t : Str} (hs : Good s) (ht : Good t) : Semantic.semver s t < 0 ↔ Older s t := by
  obtain ⟨v, hv, pv⟩ := hs
  obtain ⟨w, hw, pw⟩ := ht
  rw [(C96_precedence s t v w hv hw pv pw).1]
  refine ⟨fun h => ⟨v, w, hv, hw, h⟩, fun ⟨v', w', hv', hw', h⟩ => ?_⟩
  rwa [C96_unique s v v' hv hv', C96_unique t w w' hw hw']

theorem semver_not_older {s t : Str} (hs : Good s) (ht : Good t) : Semantic.semver s t ≤ 0 ↔ ¬ Older t s := by
  rw [← semver_older ht hs, C96_semver_laws.flip]
  omega

/-- The versions of an event are semantic versions, or it is the introduction of all versions. -/
def GoodEvent (e : RangeEvent) : Prop :=
  (e.introduced = [] ∨ e.introduced = g!"0" ∨ Good e.introduced) ∧ (e.fixed = [] ∨ Good e.fixed) ∧ (e.lastAffected = [] ∨ Good e.lastAffected)

theorem inRange_interval {evs : List RangeEvent} {x : Str} (hx : Good x) (he : ∀ e ∈ evs, GoodEvent e) :
    Spec.InRange Semantic.semver evs x ↔ InInterval evs x := by
  unfold Spec.InRange InInterval
  refine exists_congr fun i => and_congr_right fun hi => and_congr_right fun hne => ?_
  have key : (∀ y, Good y → (Spec.introLe Semantic.semver i.introduced y ↔ i.introduced = g!"0" ∨ ¬ Older y i.introduced)) ∧
      (∀ y, Good y → (Spec.introLt Semantic.semver i.introduced y ↔ i.introduced = g!"0" ∨ Older i.introduced y)) := by
    unfold Spec.introLe Spec.introLt
    rcases (he i hi).1 with h | h | h
    · exact absurd h hne
    · simp [h]
    · exact ⟨fun y hy => by rw [semver_not_older h hy], fun y hy => by rw [semver_older h hy]⟩
  refine and_congr (key.1 x hx) (and_congr ?_ ?_)
  · refine forall_congr' fun f => forall_congr' fun hf => forall_congr' fun hn => ?_
    rcases (he f hf).2.1 with h | h
    · exact absurd h hn
    · rw [key.2 _ h, semver_older hx h]
  · refine forall_congr' fun f => forall_congr' fun hf => forall_congr' fun hn => ?_
    rcases (he f hf).2.2 with h | h
    · exact absurd h hn
    · rw [key.1 _ h, semver_not_older hx h]

theorem apart_wellFormed {evs : List RangeEvent} (he : ∀ e ∈ evs, GoodEvent e) (hs : ∀ e ∈ evs, Spec.Single e) (ha : evs.Pairwise Apart) :
    Spec.WellFormed Semantic.semver evs := by
  refine ⟨hs, List.Pairwise.imp_of_mem (fun {a b} ma mb h => ?_) ha⟩
  refine ⟨h.1, fun h1 h2 h3 => ?_⟩
  have good : ∀ e ∈ evs, e.introduced ≠ g!"0" → Good e.version := by
    intro e me hz
    have g := he e me
    cases hs e me with
    | introduced v hv =>
      rcases g.1 with h | h | h
      · exact absurd h hv
      · exact absurd h hz
      · simpa [RangeEvent.version, hv] using h
    | fixed v hv =>
      rcases g.2.1 with h | h
      · exact absurd h hv
      · simpa [RangeEvent.version, hv] using h
    | last v hv =>
      rcases g.2.2 with h | h
      · exact absurd h hv
      · simpa [RangeEvent.version, hv] using h
  have ga := good a ma h1
  have gb := good b mb h2
  rcases h.2 h1 h2 with h | h | h
  · rw [← semver_older ga gb] at h; omega
  · rw [← semver_older gb ga, C96_semver_laws.flip] at h; omega
  · exact h

/-- A package of one of the ecosystems with semantic versions is in a range exactly when its version is in one of the intervals by
the precedence of semantic versions, whatever the order of the events. -/
theorem C96_range (S : Sorter) (sem : Sem) (hsem : ∀ e ∈ Semantic.semverEcosystems, sem e = Semantic.semver) (r : AffectsRange)
    (pkg : PackageDetails) (hp : pkg.compareAs ∈ Semantic.semverEcosystems) (hv : Good pkg.version) (he : ∀ e ∈ r.events, GoodEvent e)
    (hs : ∀ e ∈ r.events, Spec.Single e) (ha : r.events.Pairwise Apart) :
    r.containsVersion S sem pkg = true ↔ (r.type = g!"ECOSYSTEM" ∨ r.type = g!"SEMVER") ∧ InInterval r.events pkg.version := by
  have h := hsem _ hp
  rw [C01_range_intervals S sem r pkg (by rw [h]; exact C96_semver_laws) (by rw [h]; exact apart_wellFormed he hs ha), h,
    inRange_interval hv he]

/-- The ecosystems with semantic versions: those of `Cargo.lock`, `go.mod`, `mix.lock`, the lockfiles of JavaScript, and `conan.lock`. -/
theorem C96_ecosystems (e : Ecosystem) : e ∈ Semantic.semverEcosystems ↔
    e = g!"crates.io" ∨ e = g!"Go" ∨ e = g!"Hex" ∨ e = g!"npm" ∨ e = g!"ConanCenter" := by
  simp [Semantic.semverEcosystems]

/-- An identifier that is a hyphen with a number behind it is taken for a negative number: it comes before `4`, though it has the
higher precedence as a text. Hence the condition `Plain`. -/
theorem C96_hyphen_numbers : ∃ s t v w, Written s v ∧ Written t w ∧ Precedes v w ∧ 0 < Semantic.semver s t := by
  have d : ∀ c n, Spec.HexDigit c n → n < 10 → Decimal [c] n := fun c n h hn => ⟨by simp, by
    have := Spec.ModText.Numeral.snoc (base := 10) .nil h hn
    simpa using this⟩
  have d1 := d '1' 1 (.inl rfl) (by decide)
  have d0 := d '0' 0 (.inl rfl) (by decide)
  have id4 : PreId g!"4" := ⟨⟨by decide, by unfold Spec.ModText.Digit; decide⟩, fun _ => ⟨by decide, by unfold Spec.ModText.Digit; decide, fun r e => by
    injection e with e; exact absurd e (by decide)⟩⟩
  have id5 : PreId g!"-5" := ⟨⟨by decide, by unfold Spec.ModText.Digit; decide⟩, fun h => absurd (h '-' (by decide)) (by unfold Spec.ModText.Digit; decide)⟩
  refine ⟨g!"1.0.0-4", g!"1.0.0--5", ⟨1, 0, 0, [g!"4"]⟩, ⟨1, 0, 0, [g!"-5"]⟩,
    .plain d1 d0 d0 (.pre (ids := []) (by simpa using id4)), .plain d1 d0 d0 (.pre (ids := []) (by simpa using id5)), ?_, by decide +kernel⟩
  exact .pre rfl rfl rfl (by decide) (.differ (p := []) (.mixed (d '4' 4 (.inl rfl) (by decide)) ⟨'-', by decide, by unfold Spec.ModText.Digit; decide⟩))

/-- Versions with more than three numbers, which are no semantic versions, are ordered number by number. -/
theorem C96_long (s t : Str) (ns ms : List Nat) (hs : NumbersText s ns) (ht : NumbersText t ms) (h1 : 3 < ns.length) (h2 : 3 < ms.length) :
    (Semantic.semver s t < 0 ↔ Before (· < ·) ns ms) ∧ (Semantic.semver s t = 0 ↔ ns = ms) := Semantic.long_before hs ht h1 h2

/-- They come before the version with the first three numbers, as pre-releases do. -/
theorem C96_long_release (s t : Str) (x y z n : Nat) (ns : List Nat) (hs : NumbersText s (x :: y :: z :: n :: ns))
    (ht : Written t ⟨x, y, z, []⟩) : Semantic.semver s t < 0 := Semantic.long_release hs ht

/-- `1.0.0.9` and `1.0.0.10` -/
example : ∃ s t ns ms, NumbersText s ns ∧ NumbersText t ms ∧ 3 < ns.length ∧ 3 < ms.length ∧ Before (· < ·) ns ms ∧
    s = g!"1.0.0.9" ∧ t = g!"1.0.0.10" := by
  have d : ∀ c n, Spec.HexDigit c n → n < 10 → Decimal [c] n := fun c n h hn => ⟨by simp, by
    have := Spec.ModText.Numeral.snoc (base := 10) .nil h hn
    simpa using this⟩
  have d1 := d '1' 1 (.inl rfl) (by decide)
  have d0 := d '0' 0 (.inl rfl) (by decide)
  have d10 : Decimal g!"10" 10 := ⟨by simp, by
    have := Spec.ModText.Numeral.snoc (base := 10) d1.2 (c := '0') (n := 0) (.inl rfl) (by decide)
    simpa using this⟩
  exact ⟨_, _, [1, 0, 0, 9], [1, 0, 0, 10], .dot d1 (.dot d0 (.dot d0 (.one (d '9' 9 (.inl rfl) (by decide))))),
    .dot d1 (.dot d0 (.dot d0 (.one d10))), by decide, by decide, .differ (p := [1, 0, 0]) (s := []) (t := []) (by decide), rfl, rfl⟩

/-- A range and a package that meet the hypotheses. -/
example : ∃ (sem : Sem) (r : AffectsRange) (pkg : PackageDetails), (∀ e ∈ Semantic.semverEcosystems, sem e = Semantic.semver) ∧
    pkg.compareAs ∈ Semantic.semverEcosystems ∧ Good pkg.version ∧ (∀ e ∈ r.events, GoodEvent e) ∧ (∀ e ∈ r.events, Spec.Single e) ∧
    r.events.Pairwise Apart ∧ r.events.length = 2 := by
  have d : ∀ c n, Spec.HexDigit c n → n < 10 → Decimal [c] n := fun c n h hn => ⟨by simp, by
    have := Spec.ModText.Numeral.snoc (base := 10) .nil h hn
    simpa using this⟩
  have good : ∀ c n, Spec.HexDigit c n → n < 10 → Good ([c] ++ '.' :: [c] ++ '.' :: [c] ++ []) := fun c n h hn =>
    ⟨⟨n, n, n, []⟩, .plain (d c n h hn) (d c n h hn) (d c n h hn) .none, fun i hi => by cases hi⟩
  refine ⟨fun _ => Semantic.semver, ⟨g!"SEMVER", [{ introduced := g!"0" }, { fixed := g!"2.2.2" }]⟩,
    { name := g!"a", version := g!"1.1.1", ecosystem := g!"npm", compareAs := g!"npm" }, fun _ _ => rfl, by decide,
    good '1' 1 (.inl rfl) (by decide), ?_, ?_, ?_, rfl⟩
  · simp only [List.mem_cons, List.not_mem_nil, or_false, forall_eq_or_imp, forall_eq]
    exact ⟨⟨.inr (.inl rfl), .inl rfl, .inl rfl⟩, .inl rfl, .inr (good '2' 2 (.inl rfl) (by decide)), .inl rfl⟩
  · simp only [List.mem_cons, List.not_mem_nil, or_false, forall_eq_or_imp, forall_eq]
    exact ⟨.introduced _ (by decide), .fixed _ (by decide)⟩
  · refine List.Pairwise.cons ?_ (List.pairwise_singleton ..)
    intro b hb
    rw [List.mem_singleton.mp hb]
    exact ⟨by decide, fun h => absurd rfl h⟩

/-- Texts that meet the hypotheses, with what the comparison says. -/
example : ∃ v w, Written g!"v1.0.0-rc.1+b" v ∧ Written g!"1.0.0" w ∧ Plain v ∧ Plain w ∧ Precedes v w := by
  have d : ∀ c n, Spec.HexDigit c n → n < 10 → Decimal [c] n := fun c n h hn => ⟨by simp, by
    have := Spec.ModText.Numeral.snoc (base := 10) .nil h hn
    simpa using this⟩
  have d1 := d '1' 1 (.inl rfl) (by decide)
  have d0 := d '0' 0 (.inl rfl) (by decide)
  have id1 : PreId g!"1" := ⟨⟨by decide, by unfold Spec.ModText.Digit; decide⟩, fun _ => ⟨by decide, by unfold Spec.ModText.Digit; decide, fun r e => by
    injection e with e; exact absurd e (by decide)⟩⟩
  have rc : PreId g!"rc" := ⟨⟨by decide, by unfold Spec.ModText.Digit; decide⟩, fun h => absurd (h 'r' (by decide)) (by unfold Spec.ModText.Digit; decide)⟩
  refine ⟨⟨1, 0, 0, [g!"rc", g!"1"]⟩, ⟨1, 0, 0, []⟩, .v d1 d0 d0 (.preBuild (i := g!"rc") (b := g!"b") (ids := [g!"1"]) ?_), .plain d1 d0 d0 .none, ?_, ?_,
    .release rfl rfl rfl (by decide) rfl⟩
  · intro j hj
    rcases List.mem_cons.mp hj with rfl | hj
    · exact rc
    · rw [List.mem_singleton.mp hj]; exact id1
  · intro i hi t e
    subst e
    exact absurd hi (by simp)
  · intro i hi; cases hi

example : Semantic.semver g!"v1.0.0-rc.1+b" g!"1.0.0" < 0 := by decide +kernel
example : Semantic.semver g!"1.0.0-rc.10" g!"1.0.0-rc.9" > 0 := by decide +kernel
example : Semantic.rubygems (fun s => Str.splitChar '.' s) g!"1.2" g!"1.2.0" = 0 := by decide +kernel

end Osv
