import Verif.Lemmas.MavenReference
/-!
# C49: pom.xml

A version that contains a reference is replaced by the property as a whole, so that `1.${minor}` loses its first part
(`C49_counterexample`), and a version with a line break is read as `0` (`C49_newline_counterexample`).
-/
namespace Osv
open Str Spec

namespace Maven

theorem mem_set_iff {α : Type} (m : SMap α) (hn : (m.map (·.1)).Nodup) (k : Str) (v : α) (x : Str × α) :
    x ∈ m.set k v ↔ x = (k, v) ∨ (x ∈ m ∧ x.1 ≠ k) := by
  induction m with
  | nil => simp [SMap.set]
  | cons y m ih =>
    obtain ⟨k', w⟩ := y
    simp only [List.map_cons, List.nodup_cons] at hn
    unfold SMap.set
    by_cases h : k' = k
    · subst h
      rw [if_pos rfl]
      constructor
      · intro hx
        rcases List.mem_cons.1 hx with rfl | hx
        · exact Or.inl rfl
        · exact Or.inr ⟨by simp [hx], fun e => hn.1 (List.mem_map.2 ⟨x, hx, e⟩)⟩
      · rintro (rfl | ⟨hx, hne⟩)
        · simp
        · rcases List.mem_cons.1 hx with rfl | hx
          · exact absurd rfl hne
          · simp [hx]
    · rw [if_neg h, List.mem_cons, ih hn.2]
      constructor
      · rintro (rfl | rfl | ⟨hx, hne⟩)
        · exact Or.inr ⟨by simp, h⟩
        · exact Or.inl rfl
        · exact Or.inr ⟨by simp [hx], hne⟩
      · rintro (rfl | ⟨hx, hne⟩)
        · exact Or.inr (Or.inl rfl)
        · rcases List.mem_cons.1 hx with rfl | hx
          · exact Or.inl rfl
          · exact Or.inr (Or.inr ⟨hx, hne⟩)

theorem lastNamed_cons {l : List MavenLockDependency} {d e : MavenLockDependency} :
    LastNamed (d :: l) e ↔ LastNamed l e ∨ (e = d ∧ ∀ x ∈ l, mavenName x ≠ mavenName d) := by
  constructor
  · rintro ⟨a, b, h, hb⟩
    cases a with
    | nil => injection h with h1 h2; subst h1 h2; exact Or.inr ⟨rfl, hb⟩
    | cons x a => injection h with h1 h2; exact Or.inl ⟨a, b, h2, hb⟩
  · rintro (⟨a, b, h, hb⟩ | ⟨rfl, hb⟩)
    · exact ⟨d :: a, b, by rw [h]; rfl, hb⟩
    · exact ⟨[], l, rfl, hb⟩

/-- The package reported for a dependency. -/
def details (props : SMap Str) (d : MavenLockDependency) : PackageDetails :=
  pkg g!"Maven" (mavenName d) (mavenResolveVersion props d.version) []

theorem loop_mem (props : SMap Str) (l : List MavenLockDependency) (m : SMap PackageDetails) (hn : (m.map (·.1)).Nodup) :
    ((mavenLoop props m l).map (·.1)).Nodup ∧ ∀ x, x ∈ mavenLoop props m l ↔
      (∃ d, LastNamed l d ∧ x = (mavenName d, details props d)) ∨ (x ∈ m ∧ ∀ e ∈ l, mavenName e ≠ x.1) := by
  induction l generalizing m with
  | nil =>
    refine ⟨hn, fun x => ?_⟩
    simp [mavenLoop, LastNamed]
  | cons d l ih =>
    unfold mavenLoop
    obtain ⟨h1, h2⟩ := ih (m.set (mavenName d) (details props d)) (SMap.nodup_set _ _ _ hn)
    refine ⟨h1, fun x => ?_⟩
    have h2 := h2 x
    rw [mem_set_iff m hn] at h2
    refine h2.trans ?_
    constructor
    · rintro (⟨e, he, rfl⟩ | ⟨rfl | ⟨hx, hne⟩, hl⟩)
      · exact Or.inl ⟨e, lastNamed_cons.2 (Or.inl he), rfl⟩
      · exact Or.inl ⟨d, lastNamed_cons.2 (Or.inr ⟨rfl, hl⟩), rfl⟩
      · refine Or.inr ⟨hx, fun e he => ?_⟩
        rcases List.mem_cons.1 he with rfl | he
        · exact Ne.symm hne
        · exact hl e he
    · rintro (⟨e, he, rfl⟩ | ⟨hx, hl⟩)
      · rcases lastNamed_cons.1 he with he | ⟨rfl, he⟩
        · exact Or.inl ⟨e, he, rfl⟩
        · exact Or.inr ⟨Or.inl rfl, he⟩
      · exact Or.inr ⟨Or.inr ⟨hx, Ne.symm (hl d (by simp))⟩, fun e he => hl e (by simp [he])⟩

end Maven

variable {decode : Str → Option MavenLockFile} {order : List PackageDetails → List PackageDetails}

/-- The full claim. False: `C49_counterexample`, `C49_newline_counterexample`. -/
def C49_full : Prop := ∀ (decode : Str → Option MavenLockFile) (order : List PackageDetails → List PackageDetails),
  (∀ l, (order l).Perm l) → ∀ (content : Str) (f : MavenLockFile), decode content = some f →
  ∃ pkgs, parseMavenLock decode order (some content) = (pkgs, false) ∧ (pkgs.map (·.name)).Nodup ∧
    ∀ p, p ∈ pkgs ↔ ∃ d v, MavenEffective f d ∧ MavenVersion f.properties d.version v ∧ p = pkg g!"Maven" (mavenName d) v []

/-- In every file: one package for each name, for the last direct dependency or else the last managed one. -/
theorem C49_names (ho : ∀ l, (order l).Perm l) (content : Str) (f : MavenLockFile) (hd : decode content = some f) :
    ∃ pkgs, parseMavenLock decode order (some content) = (pkgs, false) ∧ (pkgs.map (·.name)).Nodup ∧
      ∀ p, p ∈ pkgs ↔ ∃ d, MavenEffective f d ∧
        p = pkg g!"Maven" (mavenName d) (mavenResolveVersion f.properties d.version) [] := by
  obtain ⟨n1, m1⟩ := Maven.loop_mem f.properties f.managedDependencies [] (by simp)
  obtain ⟨n2, m2⟩ := Maven.loop_mem f.properties f.dependencies _ n1
  have hm : ∀ x, x ∈ mavenLoop f.properties (mavenLoop f.properties [] f.managedDependencies) f.dependencies ↔
      ∃ d, MavenEffective f d ∧ x = (mavenName d, Maven.details f.properties d) := by
    intro x
    rw [m2, m1]
    constructor
    · rintro (⟨d, hd, e⟩ | ⟨⟨d, hd, e⟩ | ⟨h, _⟩, hl⟩)
      · exact ⟨d, Or.inl hd, e⟩
      · exact ⟨d, Or.inr ⟨hd, by rw [e] at hl; exact hl⟩, e⟩
      · cases h
    · rintro ⟨d, hd | ⟨hd, hl⟩, e⟩
      · exact Or.inl ⟨d, hd, e⟩
      · exact Or.inr ⟨Or.inl ⟨d, hd, e⟩, by rw [e]; exact hl⟩
  refine ⟨_, by unfold parseMavenLock; rw [Option.bind_some, hd], ?_, fun p => ?_⟩
  · rw [((ho _).map _).nodup_iff, List.map_map]
    have : (mavenLoop f.properties (mavenLoop f.properties [] f.managedDependencies) f.dependencies).map ((fun p => p.name) ∘ fun x => x.2) =
        (mavenLoop f.properties (mavenLoop f.properties [] f.managedDependencies) f.dependencies).map (·.1) := by
      apply List.map_congr_left
      intro x hx
      obtain ⟨d, _, rfl⟩ := (hm x).1 hx
      rfl
    rw [this]
    exact n2
  · rw [(ho _).mem_iff, List.mem_map]
    constructor
    · rintro ⟨x, hx, rfl⟩
      obtain ⟨d, hd, rfl⟩ := (hm x).1 hx
      exact ⟨d, hd, rfl⟩
    · rintro ⟨d, hd, rfl⟩
      exact ⟨_, (hm _).2 ⟨d, hd, rfl⟩, rfl⟩

/-- What is written has one meaning. -/
theorem C49_version_unique {props : SMap Str} {s v v' : Str} (h : MavenVersion props s v) (h' : MavenVersion props s v') : v = v' :=
  Maven.version_unique h h'

theorem C49_version_exists (props : SMap Str) (s : Str) : ∃ v, MavenVersion props s v := Maven.version_exists props s

/-- A requirement on one line is reported as its lower bound. -/
theorem C49_lower (s v : Str) (hn : '\n' ∉ s) : LowerBound s v ↔ mavenParseResolvedVersion s = v := by
  constructor
  · exact Maven.parse_lower hn
  · rintro rfl
    obtain ⟨v, hv⟩ := Maven.lower_exists s
    rw [Maven.parse_lower hn hv]
    exact hv

/-- The rule for every version on one line. -/
theorem C49_rule (props : SMap Str) (hp : ∀ n v, props.get? n = some v → '\n' ∉ v) (s v : Str) (hn : '\n' ∉ s) :
    MavenReported props s v ↔ mavenResolveVersion props s = v := by
  unfold MavenReported
  simp only [← Maven.reference_iff s hn]
  unfold mavenResolveVersion mavenResolveVersionValue
  cases hf : Re.find mavenInterpolationRe s with
  | none => simpa using C49_lower s v hn
  | some f =>
    dsimp only
    cases hg : props.get? (f.group 1) with
    | some w => simpa [hg] using C49_lower w v (hp _ w hg)
    | none =>
      have h0 : mavenParseResolvedVersion g!"0" = g!"0" := by decide +kernel
      simp [hg, h0, eq_comm]

/-- So in every file with no line break in a version or property, the packages are these. -/
theorem C49_reported (ho : ∀ l, (order l).Perm l) (content : Str) (f : MavenLockFile) (hd : decode content = some f)
    (hp : ∀ n v, f.properties.get? n = some v → '\n' ∉ v) (hl : ∀ d, MavenEffective f d → '\n' ∉ d.version) :
    ∃ pkgs, parseMavenLock decode order (some content) = (pkgs, false) ∧ (pkgs.map (·.name)).Nodup ∧
      ∀ p, p ∈ pkgs ↔ ∃ d v, MavenEffective f d ∧ MavenReported f.properties d.version v ∧ p = pkg g!"Maven" (mavenName d) v [] := by
  obtain ⟨pkgs, h1, h2, h3⟩ := C49_names (order := order) ho content f hd
  refine ⟨pkgs, h1, h2, fun p => ?_⟩
  rw [h3]
  constructor
  · rintro ⟨d, hd, e⟩
    exact ⟨d, _, hd, (C49_rule _ hp _ _ (hl d hd)).2 rfl, e⟩
  · rintro ⟨d, v, hd, hv, e⟩
    exact ⟨d, hd, by rw [(C49_rule _ hp _ _ (hl d hd)).1 hv]; exact e⟩

/-- Missing for the full claim: a version must be a single reference or contain none, and no version or property may contain a
line break. -/
theorem C49_partial (ho : ∀ l, (order l).Perm l) (content : Str) (f : MavenLockFile) (hd : decode content = some f)
    (hp : ∀ n v, f.properties.get? n = some v → '\n' ∉ v) (hl : ∀ d, MavenEffective f d → '\n' ∉ d.version ∧
      ((∀ a b, d.version ≠ a ++ g!"${" ++ b) ∨ ∃ name, name ≠ [] ∧ '}' ∉ name ∧ d.version = g!"${" ++ name ++ g!"}")) :
    ∃ pkgs, parseMavenLock decode order (some content) = (pkgs, false) ∧ (pkgs.map (·.name)).Nodup ∧
      ∀ p, p ∈ pkgs ↔ ∃ d v, MavenEffective f d ∧ MavenVersion f.properties d.version v ∧ p = pkg g!"Maven" (mavenName d) v [] := by
  obtain ⟨pkgs, h1, h2, h3⟩ := C49_names (order := order) ho content f hd
  refine ⟨pkgs, h1, h2, fun p => ?_⟩
  rw [h3]
  constructor
  · rintro ⟨d, hd, e⟩
    exact ⟨d, _, hd, Maven.resolve_spec f.properties hp d.version (hl d hd).1 (hl d hd).2, e⟩
  · rintro ⟨d, v, hd, hv, e⟩
    refine ⟨d, hd, ?_⟩
    rw [Maven.version_unique (Maven.resolve_spec f.properties hp d.version (hl d hd).1 (hl d hd).2) hv]
    exact e

/-- A file that cannot be read or decoded is an error. -/
theorem C49_error (content : Option Str) (h : content.bind decode = none) : parseMavenLock decode order content = ([], true) := by
  unfold parseMavenLock; rw [h]

/-- A pom with one dependency. -/
def mavenOne (properties : SMap Str) (version : Str) : MavenLockFile := ⟨properties, [⟨g!"g", g!"a", version⟩], []⟩

theorem C49_one_effective (properties : SMap Str) (version : Str) : MavenEffective (mavenOne properties version) ⟨g!"g", g!"a", version⟩ :=
  Or.inl ⟨[], [], rfl, by simp⟩

/-- `1.${minor}` with `minor` set to `5` is reported as `5`. -/
theorem C49_counterexample : ¬ C49_full := by
  intro h
  obtain ⟨pkgs, h1, _, h2⟩ := h (fun _ => some (mavenOne [(g!"minor", g!"5")] g!"1.${minor}")) id (fun _ => List.Perm.refl _) [] _ rfl
  have h3 := (h2 (pkg g!"Maven" g!"g:a" g!"1.5" [])).2 ⟨_, g!"1.5", C49_one_effective _ _, Or.inl ⟨g!"1.5", ?_,
    Or.inr ⟨by simp, g!"1.5", [], rfl, by decide, Or.inl rfl, Or.inr ⟨by simp, rfl⟩⟩⟩, rfl⟩
  · have : parseMavenLock (fun _ => some (mavenOne [(g!"minor", g!"5")] g!"1.${minor}")) id (some []) =
        ([pkg g!"Maven" g!"g:a" g!"5" []], false) := by decide +kernel
    rw [this] at h1
    injection h1 with h1
    subst h1
    revert h3
    decide
  · refine .char '1' g!".${minor}" (some g!".5") (by simp [Reference]) (.char '.' g!"${minor}" (some g!"5") (by simp [Reference]) ?_)
    exact .found g!"minor" [] g!"5" (some []) (by simp) (by decide) (by decide) .nil

/-- `1.0` between line breaks is reported as `0`. -/
theorem C49_newline_counterexample : ¬ ∀ f : MavenLockFile, (∀ d, MavenEffective f d → Maven.Plain d.version) →
    ∃ pkgs, parseMavenLock (fun _ => some f) id (some []) = (pkgs, false) ∧
      ∀ p ∈ pkgs, ∃ d, MavenEffective f d ∧ MavenVersion f.properties d.version p.version := by
  intro h
  have hd : ∀ d, MavenEffective (mavenOne [] g!"\n1.0\n") d → d.version = g!"\n1.0\n" := by
    intro d hd
    rcases hd with ⟨a, b, e, _⟩ | ⟨⟨a, b, e, _⟩, _⟩
    · have : d ∈ (mavenOne [] g!"\n1.0\n").dependencies := by rw [e]; simp
      rw [List.mem_singleton.1 this]
    · have := congrArg List.length e
      simp [mavenOne] at this
  have hplain : Maven.Plain g!"\n1.0\n" := by
    intro a b e
    have : '$' ∈ g!"\n1.0\n" := by rw [e]; simp
    revert this
    decide
  obtain ⟨pkgs, h1, h2⟩ := h (mavenOne [] g!"\n1.0\n") (fun d h => by rw [hd d h]; exact hplain)
  have : parseMavenLock (fun _ => some (mavenOne [] g!"\n1.0\n")) id (some []) = ([pkg g!"Maven" g!"g:a" g!"0" []], false) := by
    decide +kernel
  rw [this] at h1
  injection h1 with h1
  subst h1
  obtain ⟨d, h3, h4⟩ := h2 _ (List.mem_singleton.2 rfl)
  rw [hd d h3] at h4
  have h5 : MavenVersion [] g!"\n1.0\n" g!"\n1.0\n" := Or.inl ⟨_, Maven.interp_plain [] _ hplain,
    Or.inr ⟨by simp, g!"\n1.0\n", [], rfl, by decide, Or.inl rfl, Or.inr ⟨by simp, rfl⟩⟩⟩
  have := Maven.version_unique h4 h5
  revert this
  decide

/-- A pom with references, ranges and overridden dependencies. -/
def C49_sample : MavenLockFile := ⟨[(g!"x", g!"[1.0,2.0)")], [⟨g!"g", g!"a", g!"${x}"⟩, ⟨g!"g", g!"b", g!"${y}"⟩, ⟨g!"g", g!"b", g!"3"⟩],
  [⟨g!"g", g!"a", g!"0.1"⟩, ⟨g!"g", g!"c", g!"(,4]"⟩]⟩

example : parseMavenLock (fun _ => some C49_sample) id (some []) =
    ([pkg g!"Maven" g!"g:a" g!"1.0" [], pkg g!"Maven" g!"g:c" g!"0" [], pkg g!"Maven" g!"g:b" g!"3" []], false) := by decide +kernel

/-- `1.${a}.${b}` refers to the property `a}.${b`. -/
example : GreedyReference g!"1.${a}.${b}" g!"a}.${b" := ⟨g!"1.", [], rfl, by decide, by decide, by
  rintro ⟨x, y, e⟩
  have : '{' ∈ g!"1." ++ g!"$" := by rw [← e]; simp
  revert this
  decide⟩

/-- The hypotheses of `C49_partial` can be met. -/
example : (∀ n v, C49_sample.properties.get? n = some v → '\n' ∉ v) ∧ ∀ d, MavenEffective C49_sample d → '\n' ∉ d.version ∧
    ((∀ a b, d.version ≠ a ++ g!"${" ++ b) ∨ ∃ name, name ≠ [] ∧ '}' ∉ name ∧ d.version = g!"${" ++ name ++ g!"}") := by
  have hplain : ∀ s : Str, '$' ∉ s → ∀ a b, s ≠ a ++ g!"${" ++ b := by
    rintro s hs a b rfl
    exact hs (by simp)
  constructor
  · intro n v h
    simp only [C49_sample, SMap.get?, List.lookup_cons] at h
    split at h
    · injection h with h; subst h; decide
    · cases h
  · intro d hd
    have : d ∈ C49_sample.dependencies ++ C49_sample.managedDependencies := by
      rcases hd with ⟨a, b, e, _⟩ | ⟨⟨a, b, e, _⟩, _⟩
      · rw [e]; simp
      · rw [e]; simp
    simp only [C49_sample, List.cons_append, List.nil_append, List.mem_cons, List.not_mem_nil, or_false] at this
    rcases this with rfl | rfl | rfl | rfl | rfl
    · exact ⟨by decide, Or.inr ⟨g!"x", by decide, by decide, rfl⟩⟩
    · exact ⟨by decide, Or.inr ⟨g!"y", by decide, by decide, rfl⟩⟩
    · exact ⟨by decide, Or.inl (hplain _ (by decide))⟩
    · exact ⟨by decide, Or.inl (hplain _ (by decide))⟩
    · exact ⟨by decide, Or.inl (hplain _ (by decide))⟩

end Osv
