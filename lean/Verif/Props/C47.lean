import Verif.Lemmas.NpmPath
import Verif.Props.C46
/-!
# C47: package-lock.json v2

The packages are collected in a map with key `name@version`, where a commit takes the place of the version. An entry is
lost if another one has the same name and commit but a different version (`C47_counterexample`).
-/
namespace Osv
open Str Spec

namespace Npm

/-- The entries that the loop over `packages` adds. -/
theorem packages_adds (details : SMap PackageDetails) (ps : SMap NpmPackage) :
    DetailMap.Adds details (npmPackagesLoop details ps) (fun x => ∃ y ∈ ps, y.1 ≠ [] ∧ x = npmPackage y.1 y.2) := by
  induction ps generalizing details with
  | nil => exact (DetailMap.Adds.refl _).congr (by simp)
  | cons y ps ih =>
    obtain ⟨path, d⟩ := y
    unfold npmPackagesLoop
    by_cases h : path = []
    · rw [if_pos h]
      exact (ih details).congr (by simp [h])
    · rw [if_neg h]
      exact ((DetailMap.Adds.set details (npmPackage path d)).trans (ih _)).congr (by simp [h])

theorem package_spec {path name version resolved : Str} {p : PackageDetails}
    (h : NpmPackageEntry tryExtractCommit path name version resolved p) :
    npmPackage path ⟨name, version, resolved⟩ =
      (p.name ++ '@' :: (if p.commit = [] then p.version else p.commit), p) := by
  obtain ⟨n, hn, rfl⟩ := h
  have hname : (if name = [] then extractNpmPackageName path else name) = n := by
    rcases hn with ⟨h1, rfl⟩ | ⟨rfl, segs, h1, h2⟩
    · rw [if_neg h1]
    · rw [if_pos rfl]; exact extract_name h1 h2
  unfold npmPackage
  dsimp only
  rw [hname]
  by_cases hc : tryExtractCommit resolved = []
  · simp [npm, npmEcosystem, hc]
  · simp [npm, npmEcosystem, hc]

end Npm

/-- The packages of a result. -/
theorem C47_adds {iterDeps : NpmDeps → NpmDeps} {iterPackages : SMap NpmPackage → SMap NpmPackage}
    {order : List PackageDetails → List PackageDetails} (hi : ∀ l, (iterPackages l).Perm l)
    (ho : ∀ l, (order l).Perm l) {content : Str} {packages : JMembers} (hf : NpmV2File content packages)
    {pkgs : List PackageDetails}
    (h : parseNpmLock iterDeps iterPackages order (some content) = some (pkgs, false)) :
    ∃ m, pkgs.Perm (m.map (·.2)) ∧ DetailMap.Adds [] m
      (fun x => ∃ path name version resolved, NpmJsonPackage packages path name version resolved ∧
        x = npmPackage path ⟨name, version, resolved⟩) := by
  unfold parseNpmLock at h
  dsimp only at h
  rcases Npm.v2_decoded hf with hd | ⟨l, ps, hd, hp, hps⟩
  · rw [hd] at h; injection h with h; injection h with _ h; cases h
  · rw [hd] at h
    dsimp only at h
    unfold parseNpmLockfile at h
    rw [hp] at h
    simp only [Option.map_some, Option.some.injEq, Prod.mk.injEq, and_true] at h
    refine ⟨_, h ▸ ho _, (Npm.packages_adds [] (iterPackages ps)).congr fun x => ?_⟩
    constructor
    · rintro ⟨⟨path, d⟩, hy, hne, rfl⟩
      exact ⟨path, d.name, d.version, d.resolved, (hps _ _ _ _).2 ⟨hne, (hi ps).mem_iff.1 hy⟩, rfl⟩
    · rintro ⟨path, name, version, resolved, hy, rfl⟩
      have := (hps _ _ _ _).1 hy
      exact ⟨_, (hi ps).mem_iff.2 this.2, this.1, rfl⟩

/-- A file with packages never makes the program panic. -/
theorem C47_no_panic (iterDeps : NpmDeps → NpmDeps) (iterPackages : SMap NpmPackage → SMap NpmPackage)
    (order : List PackageDetails → List PackageDetails) (content : Str) (packages : JMembers) (hf : NpmV2File content packages) :
    parseNpmLock iterDeps iterPackages order (some content) ≠ none := by
  unfold parseNpmLock
  dsimp only
  rcases Npm.v2_decoded hf with hd | ⟨l, ps, hd, hp, hps⟩
  · rw [hd]; simp
  · rw [hd]
    dsimp only
    unfold parseNpmLockfile
    rw [hp]
    simp

/-- Only entries other than the root are reported, under their own name or else the one at the end of the path. -/
theorem C47_sound (iterDeps : NpmDeps → NpmDeps) (iterPackages : SMap NpmPackage → SMap NpmPackage)
    (order : List PackageDetails → List PackageDetails) (hi : ∀ l, (iterPackages l).Perm l)
    (ho : ∀ l, (order l).Perm l) (content : Str) (packages : JMembers) (hf : NpmV2File content packages)
    (hpaths : ∀ path version resolved, NpmJsonPackage packages path [] version resolved → ∃ segments, NpmPath path segments)
    (pkgs : List PackageDetails) (h : parseNpmLock iterDeps iterPackages order (some content) = some (pkgs, false))
    (p : PackageDetails) (hp : p ∈ pkgs) :
    ∃ path name version resolved, NpmJsonPackage packages path name version resolved ∧
      NpmPackageEntry tryExtractCommit path name version resolved p := by
  obtain ⟨m, hperm, hadds⟩ := C47_adds hi ho hf h
  obtain ⟨x, hx, rfl⟩ := List.mem_map.1 (hperm.mem_iff.1 hp)
  rcases hadds.1 x hx with hx | ⟨path, name, version, resolved, h1, rfl⟩
  · cases hx
  · refine ⟨path, name, version, resolved, h1, ?_⟩
    by_cases hn : name = []
    · subst hn
      obtain ⟨segs, hs⟩ := hpaths _ _ _ h1
      obtain ⟨n, hat⟩ := Npm.nameAt_exists segs hs.1
      refine ⟨n, Or.inr ⟨rfl, segs, hs, hat⟩, ?_⟩
      have hx : extractNpmPackageName path = n := Npm.extract_name hs hat
      simp [npmPackage, hx, npm, npmEcosystem]
    · exact ⟨name, Or.inl ⟨hn, rfl⟩, by simp [npmPackage, hn, npm, npmEcosystem]⟩

/-- Every entry other than the root is reported. -/
def C47_full : Prop :=
  ∀ (iterDeps : NpmDeps → NpmDeps) (iterPackages : SMap NpmPackage → SMap NpmPackage)
    (order : List PackageDetails → List PackageDetails), (∀ l, (iterPackages l).Perm l) →
    (∀ l, (order l).Perm l) → ∀ (content : Str) (packages : JMembers), NpmV2File content packages →
    (∀ path version resolved, NpmJsonPackage packages path [] version resolved → ∃ segments, NpmPath path segments) →
    ∀ pkgs, parseNpmLock iterDeps iterPackages order (some content) = some (pkgs, false) →
    ∀ p, p ∈ pkgs ↔ ∃ path name version resolved, NpmJsonPackage packages path name version resolved ∧
      NpmPackageEntry tryExtractCommit path name version resolved p

/-- The claim when names have `@` at the front only, packages with the same name and commit have the same version, and no
version is the commit of a package with the same name. What is missing: these conditions, which rule out that two
different packages share a key. -/
theorem C47_partial (iterDeps : NpmDeps → NpmDeps) (iterPackages : SMap NpmPackage → SMap NpmPackage)
    (order : List PackageDetails → List PackageDetails) (hi : ∀ l, (iterPackages l).Perm l)
    (ho : ∀ l, (order l).Perm l) (content : Str) (packages : JMembers) (hf : NpmV2File content packages)
    (hpaths : ∀ path version resolved, NpmJsonPackage packages path [] version resolved → ∃ segments, NpmPath path segments)
    (hnames : ∀ path name version resolved p, NpmJsonPackage packages path name version resolved →
      NpmPackageEntry tryExtractCommit path name version resolved p → NpmName p.name)
    (hcommits : ∀ path name version resolved p path' name' version' resolved' p',
      NpmJsonPackage packages path name version resolved → NpmPackageEntry tryExtractCommit path name version resolved p →
      NpmJsonPackage packages path' name' version' resolved' → NpmPackageEntry tryExtractCommit path' name' version' resolved' p' →
      p.name = p'.name → p.commit ≠ [] → (p'.commit = p.commit → p'.version = p.version) ∧ (p'.commit = [] → p'.version ≠ p.commit))
    (pkgs : List PackageDetails) (h : parseNpmLock iterDeps iterPackages order (some content) = some (pkgs, false))
    (p : PackageDetails) :
    p ∈ pkgs ↔ ∃ path name version resolved, NpmJsonPackage packages path name version resolved ∧
      NpmPackageEntry tryExtractCommit path name version resolved p := by
  refine ⟨C47_sound iterDeps iterPackages order hi ho content packages hf hpaths pkgs h p, ?_⟩
  rintro ⟨path, name, version, resolved, h1, h2⟩
  obtain ⟨m, hperm, hadds⟩ := C47_adds hi ho hf h
  rw [hperm.mem_iff]
  have hx := Npm.package_spec h2
  refine List.mem_map.2 ⟨_, (hadds.mem ?_ _).2 ⟨path, name, version, resolved, h1, rfl⟩, by rw [hx]⟩
  have hentry : ∀ path name version resolved, NpmJsonPackage packages path name version resolved →
      ∃ p, NpmPackageEntry tryExtractCommit path name version resolved p := by
    intro path name version resolved h1
    by_cases hn : name = []
    · subst hn
      obtain ⟨segs, hs⟩ := hpaths _ _ _ h1
      obtain ⟨n, hat⟩ := Npm.nameAt_exists segs hs.1
      exact ⟨_, n, Or.inr ⟨rfl, segs, hs, hat⟩, rfl⟩
    · exact ⟨_, name, Or.inl ⟨hn, rfl⟩, rfl⟩
  rintro _ _ ⟨pa, na, ve, re, j1, rfl⟩ ⟨pa', na', ve', re', j2, rfl⟩ hkey
  obtain ⟨q, hq⟩ := hentry _ _ _ _ j1
  obtain ⟨q', hq'⟩ := hentry _ _ _ _ j2
  rw [Npm.package_spec hq, Npm.package_spec hq'] at hkey ⊢
  dsimp only at hkey ⊢
  obtain ⟨hname, hver⟩ := Npm.name_unique (hnames _ _ _ _ _ j1 hq) (hnames _ _ _ _ _ j2 hq') hkey
  have e : ∀ {path name version resolved p}, NpmPackageEntry tryExtractCommit path name version resolved p →
      p = npm p.name p.version p.commit := by
    rintro _ _ _ _ _ ⟨_, _, rfl⟩; rfl
  suffices hs : q.version = q'.version ∧ q.commit = q'.commit by rw [e hq, e hq', hname, hs.1, hs.2]
  by_cases hc : q.commit = []
  · rw [if_pos hc] at hver
    by_cases hc' : q'.commit = []
    · rw [if_pos hc'] at hver; exact ⟨hver, by rw [hc, hc']⟩
    · rw [if_neg hc'] at hver
      exact absurd hver ((hcommits _ _ _ _ _ _ _ _ _ _ j2 hq' j1 hq hname.symm hc').2 hc)
  · rw [if_neg hc] at hver
    by_cases hc' : q'.commit = []
    · rw [if_pos hc'] at hver
      exact absurd hver.symm ((hcommits _ _ _ _ _ _ _ _ _ _ j1 hq j2 hq' hname hc).2 hc')
    · rw [if_neg hc'] at hver
      exact ⟨((hcommits _ _ _ _ _ _ _ _ _ _ j1 hq j2 hq' hname hc).1 hver.symm).symm, hver⟩

/-- The condition is exact: all packages are reported if and only if no two different ones share a key. -/
theorem C47_iff (iterDeps : NpmDeps → NpmDeps) (iterPackages : SMap NpmPackage → SMap NpmPackage)
    (order : List PackageDetails → List PackageDetails) (hi : ∀ l, (iterPackages l).Perm l)
    (ho : ∀ l, (order l).Perm l) (content : Str) (packages : JMembers) (hf : NpmV2File content packages)
    (hpaths : ∀ path version resolved, NpmJsonPackage packages path [] version resolved → ∃ segments, NpmPath path segments)
    (pkgs : List PackageDetails) (h : parseNpmLock iterDeps iterPackages order (some content) = some (pkgs, false)) :
    (∀ p, p ∈ pkgs ↔ ∃ path name version resolved, NpmJsonPackage packages path name version resolved ∧
      NpmPackageEntry tryExtractCommit path name version resolved p) ↔
    ∀ path name version resolved p path' name' version' resolved' p',
      NpmJsonPackage packages path name version resolved → NpmPackageEntry tryExtractCommit path name version resolved p →
      NpmJsonPackage packages path' name' version' resolved' → NpmPackageEntry tryExtractCommit path' name' version' resolved' p' →
      p.name ++ '@' :: (if p.commit = [] then p.version else p.commit) =
        p'.name ++ '@' :: (if p'.commit = [] then p'.version else p'.commit) → p = p' := by
  obtain ⟨m, hperm, hadds⟩ := C47_adds hi ho hf h
  have hadds : DetailMap.Adds [] m (fun x => (∃ path name version resolved, NpmJsonPackage packages path name version resolved ∧
      NpmPackageEntry tryExtractCommit path name version resolved x.2) ∧
      x.1 = x.2.name ++ '@' :: (if x.2.commit = [] then x.2.version else x.2.commit)) := by
    refine hadds.congr fun x => ?_
    constructor
    · rintro ⟨path, name, version, resolved, h1, rfl⟩
      have : ∃ p, NpmPackageEntry tryExtractCommit path name version resolved p := by
        by_cases hn : name = []
        · subst hn
          obtain ⟨segs, hs⟩ := hpaths _ _ _ h1
          obtain ⟨n, hat⟩ := Npm.nameAt_exists segs hs.1
          exact ⟨_, n, Or.inr ⟨rfl, segs, hs, hat⟩, rfl⟩
        · exact ⟨_, name, Or.inl ⟨hn, rfl⟩, rfl⟩
      obtain ⟨p, hp⟩ := this
      rw [Npm.package_spec hp]
      exact ⟨⟨path, name, version, resolved, h1, hp⟩, rfl⟩
    · rintro ⟨⟨path, name, version, resolved, h1, hp⟩, e⟩
      refine ⟨path, name, version, resolved, h1, ?_⟩
      rw [Npm.package_spec hp]
      exact Prod.ext e rfl
  have hx := hadds.exact_key
    (key := fun p => p.name ++ '@' :: (if p.commit = [] then p.version else p.commit))
    (E := fun p => ∃ path name version resolved, NpmJsonPackage packages path name version resolved ∧
      NpmPackageEntry tryExtractCommit path name version resolved p) hperm
  rw [hx]
  constructor
  · intro h pa na ve re p pa' na' ve' re' p' h1 h2 h3 h4 e
    exact h p p' ⟨pa, na, ve, re, h1, h2⟩ ⟨pa', na', ve', re', h3, h4⟩ e
  · rintro h p p' ⟨pa, na, ve, re, h1, h2⟩ ⟨pa', na', ve', re', h3, h4⟩ e
    exact h pa na ve re p pa' na' ve' re' p' h1 h2 h3 h4 e

/-- The root entry, with the empty path, is not among the entries. -/
theorem C47_root (packages : JMembers) (name version resolved : Str) : ¬ NpmJsonPackage packages [] name version resolved := by
  intro h
  cases h with
  | obj h => exact h rfl
  | null h => exact h rfl

/-- The `packages` of a file with two versions of `a` from the same commit. -/
def C47_witness_packages : JMembers :=
  .cons [] (.obj (.cons g!"name" (.str g!"root") .nil))
    (.cons g!"node_modules/a" (.obj (.cons g!"version" (.str g!"1") (.cons g!"resolved" (.str g!"github:a/b#abc") .nil)))
    (.cons g!"node_modules/@s/b/node_modules/a" (.obj (.cons g!"version" (.str g!"2") (.cons g!"resolved" (.str g!"github:a/b#abc") .nil))) .nil))

/-- The file. -/
def C47_witness : Str := Json.render (.obj (.cons g!"packages" (.obj C47_witness_packages) .nil))

theorem C47_witness_ok : NpmV2File C47_witness C47_witness_packages := by
  refine ⟨_, Json.parse_render _ (by simp [Json.JOk, Json.JOkM, C47_witness_packages]), ?_, ?_, ?_, ?_⟩
  · unfold PlainKeys DistinctKeys; simp [JMembers.toList]; decide
  · simp [Member, JMembers.toList]
  · unfold DistinctKeys; simp [JMembers.toList, C47_witness_packages]
  · intro k o h
    simp only [Member, JMembers.toList, C47_witness_packages, List.mem_cons, Prod.mk.injEq, JVal.obj.injEq, List.not_mem_nil, or_false] at h
    rcases h with ⟨_, rfl⟩ | ⟨_, rfl⟩ | ⟨_, rfl⟩
    · unfold PlainKeys DistinctKeys; simp [JMembers.toList]; decide
    · unfold PlainKeys DistinctKeys; simp [JMembers.toList]; decide
    · unfold PlainKeys DistinctKeys; simp [JMembers.toList]; decide

theorem C47_witness_paths (path name version resolved : Str) (h : NpmJsonPackage C47_witness_packages path name version resolved) :
    (path = g!"node_modules/a" ∨ path = g!"node_modules/@s/b/node_modules/a") ∧ ∃ segments, NpmPath path segments := by
  have hp : path = g!"node_modules/a" ∨ path = g!"node_modules/@s/b/node_modules/a" := by
    cases h with
    | obj hne h =>
      simp only [Member, JMembers.toList, C47_witness_packages, List.mem_cons, Prod.mk.injEq, List.not_mem_nil, or_false] at h
      rcases h with ⟨h, _⟩ | ⟨h, _⟩ | ⟨h, _⟩
      · exact absurd h hne
      · exact Or.inl h
      · exact Or.inr h
    | null hne h => simp [Member, JMembers.toList, C47_witness_packages] at h
  refine ⟨hp, ?_⟩
  rcases hp with rfl | rfl
  · exact ⟨[g!"node_modules", g!"a"], by simp, by decide, by decide, [], [g!"node_modules", g!"a"], rfl, by simp, by decide⟩
  · exact ⟨[g!"node_modules", g!"@s", g!"b", g!"node_modules", g!"a"], by simp, by decide, by decide, [], _, rfl, by simp, by decide⟩

theorem C47_witness_result : parseNpmLock id id id (some C47_witness) = some ([npm g!"a" g!"2" g!"abc"], false) := by
  decide +kernel

theorem C47_counterexample : ¬ C47_full := by
  intro h
  have h1 := (h id id id (fun _ => List.Perm.refl _) (fun _ => List.Perm.refl _) _ _ C47_witness_ok
    (fun path v r hj => (C47_witness_paths path [] v r hj).2) _ C47_witness_result
    (npm g!"a" g!"1" g!"abc")).2 ⟨g!"node_modules/a", [], g!"1", g!"github:a/b#abc", ?_, ?_⟩
  · revert h1; decide
  · refine .obj (o := .cons g!"version" (.str g!"1") (.cons g!"resolved" (.str g!"github:a/b#abc") .nil)) (by decide)
      (by simp [Member, JMembers.toList, C47_witness_packages]) (Or.inr ⟨rfl, by simp [Member, JMembers.toList]⟩)
      (Or.inl (by simp [Member, JMembers.toList])) (Or.inl (by simp [Member, JMembers.toList]))
  · refine ⟨g!"a", Or.inr ⟨rfl, [g!"node_modules", g!"a"], ⟨by simp, by decide, by decide, [], _, rfl, by simp, by decide⟩,
      Or.inl ⟨[g!"node_modules"], g!"a", rfl, by simp, rfl⟩⟩, ?_⟩
    rw [C55_forms g!"github:a/b#abc" g!"abc" (CommitForm.shorthand g!"github" g!"a/b" g!"abc" (Or.inl rfl) (by decide)) ⟨by decide, by decide⟩ (by decide)]

-- a scoped package and one outside of the root directory
example : NpmNameAt [g!"node_modules", g!"@s", g!"b"] g!"@s/b" := Or.inr ⟨[g!"node_modules"], g!"s", g!"b", rfl, rfl⟩
example : NpmPath g!"../other/b" [g!"..", g!"other", g!"b"] :=
  ⟨by simp, by decide, by decide, [g!".."], [g!"other", g!"b"], rfl, by simp, by decide⟩
example : parseNpmLock id id id (some (Json.render (.obj (.cons g!"packages" (.obj (.cons [] (.obj .nil) (.cons g!"node_modules/@s/b"
    (.obj (.cons g!"version" (.str g!"2") .nil)) .nil))) .nil)))) = some ([npm g!"@s/b" g!"2" []], false) := by decide +kernel

/-- The `packages` of a file with the root, a scoped package and a named one from git. -/
def C47_sample_packages : JMembers :=
  .cons [] (.obj (.cons g!"name" (.str g!"root") .nil))
    (.cons g!"node_modules/@s/b" (.obj (.cons g!"version" (.str g!"1") .nil))
    (.cons g!"lib/c" (.obj (.cons g!"name" (.str g!"d") (.cons g!"version" (.str g!"2") (.cons g!"resolved" (.str g!"github:a/b#abc") .nil)))) .nil))

theorem C47_sample_entries (path name version resolved : Str) (h : NpmJsonPackage C47_sample_packages path name version resolved) :
    path = g!"node_modules/@s/b" ∧ name = [] ∧ version = g!"1" ∧ resolved = [] ∨
    path = g!"lib/c" ∧ name = g!"d" ∧ version = g!"2" ∧ resolved = g!"github:a/b#abc" := by
  cases h with
  | obj hne h h1 h2 h3 =>
    simp only [Member, JMembers.toList, C47_sample_packages, List.mem_cons, Prod.mk.injEq, JVal.obj.injEq, List.not_mem_nil, or_false] at h
    rcases h with ⟨h, _⟩ | ⟨h, rfl⟩ | ⟨h, rfl⟩
    · exact absurd h hne
    · simp [TextField, Member, JMembers.toList] at h1 h2 h3
      exact Or.inl ⟨h, h1, h2, h3⟩
    · simp [TextField, Member, JMembers.toList] at h1 h2 h3
      exact Or.inr ⟨h, h1, h2, h3⟩
  | null hne h => simp [Member, JMembers.toList, C47_sample_packages] at h

theorem C47_sample_packages_of (path name version resolved : Str) (p : PackageDetails)
    (h : NpmJsonPackage C47_sample_packages path name version resolved)
    (hp : NpmPackageEntry tryExtractCommit path name version resolved p) :
    p = npm g!"@s/b" g!"1" [] ∨ p = npm g!"d" g!"2" g!"abc" := by
  have hx := Npm.package_spec hp
  have hp2 : p = (npmPackage path ⟨name, version, resolved⟩).2 := by rw [hx]
  rcases C47_sample_entries _ _ _ _ h with ⟨rfl, rfl, rfl, rfl⟩ | ⟨rfl, rfl, rfl, rfl⟩
  · exact Or.inl (hp2.trans (by decide +kernel))
  · exact Or.inr (hp2.trans (by decide +kernel))

-- all hypotheses of `C47_partial` together
example (p : PackageDetails) : p ∈ [npm g!"@s/b" g!"1" [], npm g!"d" g!"2" g!"abc"] ↔
    ∃ path name version resolved, NpmJsonPackage C47_sample_packages path name version resolved ∧
      NpmPackageEntry tryExtractCommit path name version resolved p := by
  refine C47_partial id id id (fun _ => List.Perm.refl _) (fun _ => List.Perm.refl _)
    (Json.render (.obj (.cons g!"packages" (.obj C47_sample_packages) .nil))) C47_sample_packages
    ⟨_, Json.parse_render _ (by simp [Json.JOk, Json.JOkM, C47_sample_packages]), ?_, ?_, ?_, ?_⟩ ?_ ?_ ?_ _ (by decide +kernel) p
  · unfold PlainKeys DistinctKeys; simp [JMembers.toList]; decide
  · simp [Member, JMembers.toList]
  · unfold DistinctKeys; simp [JMembers.toList, C47_sample_packages]
  · intro k o h
    simp only [Member, JMembers.toList, C47_sample_packages, List.mem_cons, Prod.mk.injEq, JVal.obj.injEq, List.not_mem_nil, or_false] at h
    rcases h with ⟨_, rfl⟩ | ⟨_, rfl⟩ | ⟨_, rfl⟩
    · unfold PlainKeys DistinctKeys; simp [JMembers.toList]; decide
    · unfold PlainKeys DistinctKeys; simp [JMembers.toList]; decide
    · unfold PlainKeys DistinctKeys; simp [JMembers.toList]; decide
  · intro path v r h
    rcases C47_sample_entries _ _ _ _ h with ⟨rfl, _⟩ | ⟨_, h, _⟩
    · exact ⟨[g!"node_modules", g!"@s", g!"b"], by simp, by decide, by decide, [], _, rfl, by simp, by decide⟩
    · cases h
  · intro pa n v r q h hq
    rcases C47_sample_packages_of _ _ _ _ _ h hq with rfl | rfl
    · exact ⟨'@', g!"s/b", rfl, by decide⟩
    · exact ⟨'d', [], rfl, by decide⟩
  · intro pa n v r q pa' n' v' r' q' h hq h' hq' hn hc
    rcases C47_sample_packages_of _ _ _ _ _ h hq with rfl | rfl
    · exact absurd rfl hc
    · rcases C47_sample_packages_of _ _ _ _ _ h' hq' with rfl | rfl
      · revert hn; decide
      · exact ⟨fun _ => rfl, by decide⟩

end Osv
