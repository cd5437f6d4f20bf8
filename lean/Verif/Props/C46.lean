import Verif.Lemmas.NpmJson
import Verif.Props.C55
import Verif.Lemmas.Json
/-!
# C46: package-lock.json v1

The packages are collected in a map with key `name@version`, where a commit takes the place of the version. A dependency
is lost if another one has the same key but is a different package (`C46_counterexample`). An alias without a version
makes the program panic (`C46_panic_iff`). Everything else is as claimed.
-/
namespace Osv
open Str Spec

namespace Npm

theorem name_unique {n n' v v' : Str} (h : NpmName n) (h' : NpmName n') (e : n ++ '@' :: v = n' ++ '@' :: v') :
    n = n' ∧ v = v' := by
  obtain ⟨c, r, rfl, hr⟩ := h
  obtain ⟨c', r', rfl, hr'⟩ := h'
  simp only [List.cons_append, List.cons.injEq] at e
  obtain ⟨rfl, e⟩ := e
  have h1 := cut?_char '@' r v hr
  rw [e, cut?_char '@' r' v' hr'] at h1
  injection h1 with h1
  injection h1 with h1 h2
  exact ⟨by rw [h1], h2.symm⟩

theorem called_same {name name' version n w w' : Str} (h : NpmCalled name version n w) (h' : NpmCalled name' version n w') :
    w = w' := by
  cases h with
  | own _ hn =>
    cases h' with
    | own => rfl
    | aliased => exact absurd (List.append_assoc _ _ _) (hn _)
  | aliased _ _ hw =>
    generalize e : g!"npm:" ++ n ++ '@' :: w = v at h'
    cases h' with
    | own _ hn => exact absurd e.symm (by rw [List.append_assoc]; exact hn _)
    | aliased _ _ hw' => simpa using e

/-- The version in the key of a dependency. -/
def keyVersion (version : Str) : Str :=
  if hasPrefix version g!"file:" = true ∨ tryExtractCommit version = [] then version else tryExtractCommit version

theorem entry_commit {name version : Str} {p : PackageDetails} (h : NpmEntry tryExtractCommit name version p) :
    (p.commit ≠ [] → keyVersion version = p.commit ∧ p = npm p.name [] p.commit) ∧ (p.commit = [] → keyVersion version = version) := by
  unfold keyVersion
  cases h with
  | file path => exact ⟨fun h => absurd rfl h, fun _ => if_pos (Or.inl (hasPrefix_append _ _))⟩
  | git _ n w hf hc hne =>
    have hf' : ¬ (hasPrefix version g!"file:" = true ∨ tryExtractCommit version = []) := by
      rintro (h | h)
      · obtain ⟨t, e⟩ := (hasPrefix_iff _ _).1 h; exact hf t e
      · exact hne h
    exact ⟨fun _ => ⟨if_neg hf', rfl⟩, fun h => absurd h hne⟩
  | registry _ n w hf hc he => exact ⟨fun h => absurd rfl h, fun _ => if_pos (Or.inr he)⟩

/-- Without a commit, name and version text determine the package. -/
theorem entry_plain {name name' version : Str} {p q : PackageDetails} (h : NpmEntry tryExtractCommit name version p)
    (h' : NpmEntry tryExtractCommit name' version q) (hp : p.commit = []) (hn : p.name = q.name) : p = q := by
  cases h with
  | file path =>
    generalize e : g!"file:" ++ path = v at h'
    cases h' with
    | file => simp only [npm] at hn; rw [hn]
    | git _ _ _ hf => exact absurd e.symm (hf path)
    | registry _ _ _ hf => exact absurd e.symm (hf path)
  | git _ n w hf hc hne => exact absurd hp hne
  | registry _ n w hf hc he =>
    cases h' with
    | file path => exact absurd rfl (hf path)
    | git _ _ _ _ _ hne => exact absurd he hne
    | registry _ n' w' _ hc' _ =>
      simp only [npm] at hn
      subst hn
      rw [called_same hc hc']

end Npm

/-- The packages of a result, when the program does not panic. -/
theorem C46_adds {iterDeps : NpmDeps → NpmDeps} {iterPackages : SMap NpmPackage → SMap NpmPackage}
    {order : List PackageDetails → List PackageDetails} (hi : ∀ t n v, NpmDepIn (iterDeps t) n v ↔ NpmDepIn t n v)
    (ho : ∀ l, (order l).Perm l) {content : Str} {deps : JMembers} (hf : NpmV1File content deps) {pkgs : List PackageDetails}
    (h : parseNpmLock iterDeps iterPackages order (some content) = some (pkgs, false)) :
    ∃ m, pkgs.Perm (m.map (·.2)) ∧ DetailMap.Adds [] m
      (fun x => ∃ name version, NpmJsonDep deps name version ∧ npmDependency name version = some x) := by
  unfold parseNpmLock at h
  dsimp only at h
  rcases Npm.v1_decoded hf with hd | ⟨l, hd, hp, hdeps⟩
  · rw [hd] at h; injection h with h; injection h with _ h; cases h
  · rw [hd] at h
    dsimp only at h
    obtain ⟨m, hm, e⟩ := Option.map_eq_some_iff.1 h
    unfold parseNpmLockfile at hm
    rw [hp] at hm
    simp only [Option.map_none] at hm
    injection e with e _
    refine ⟨m, e ▸ ho _, (Npm.loop_adds _ _ _ hm).congr fun x => ?_⟩
    unfold Npm.FromDeps
    simp only [hi, hdeps]

/-- Only dependencies of the file are reported, whatever the order in which Go iterates over the maps. -/
theorem C46_sound (iterDeps : NpmDeps → NpmDeps) (iterPackages : SMap NpmPackage → SMap NpmPackage)
    (order : List PackageDetails → List PackageDetails) (hi : ∀ t n v, NpmDepIn (iterDeps t) n v ↔ NpmDepIn t n v)
    (ho : ∀ l, (order l).Perm l) (content : Str) (deps : JMembers) (hf : NpmV1File content deps) (pkgs : List PackageDetails)
    (h : parseNpmLock iterDeps iterPackages order (some content) = some (pkgs, false)) (p : PackageDetails) (hp : p ∈ pkgs) :
    ∃ name version, NpmJsonDep deps name version ∧ NpmEntry tryExtractCommit name version p := by
  obtain ⟨m, hperm, hadds⟩ := C46_adds hi ho hf h
  obtain ⟨x, hx, rfl⟩ := List.mem_map.1 (hperm.mem_iff.1 hp)
  rcases hadds.1 x hx with hx | ⟨name, version, h1, h2⟩
  · cases hx
  · exact ⟨name, version, h1, (Npm.dependency_some _ _ _ h2).1⟩

/-- The program panics exactly on aliases without a version. -/
theorem C46_panic_iff (iterDeps : NpmDeps → NpmDeps) (iterPackages : SMap NpmPackage → SMap NpmPackage)
    (order : List PackageDetails → List PackageDetails) (hi : ∀ t n v, NpmDepIn (iterDeps t) n v ↔ NpmDepIn t n v)
    (content : Str) (deps : JMembers) (hf : NpmV1File content deps)
    (hok : parseNpmLock iterDeps iterPackages order (some content) ≠ some ([], true)) :
    parseNpmLock iterDeps iterPackages order (some content) = none ↔
      ∃ name r, NpmJsonDep deps name (g!"npm:" ++ r) ∧ '@' ∉ r := by
  unfold parseNpmLock at hok ⊢
  dsimp only at hok ⊢
  rcases Npm.v1_decoded hf with hd | ⟨l, hd, hp, hdeps⟩
  · rw [hd] at hok; exact absurd rfl hok
  · rw [hd]
    dsimp only
    rw [Option.map_eq_none_iff]
    unfold parseNpmLockfile
    rw [hp]
    simp only [Option.map_none]
    rw [Npm.loop_none]
    simp only [hi, hdeps, Npm.dependency_none]
    constructor
    · rintro ⟨n, v, h, r, rfl, hr⟩; exact ⟨n, r, h, hr⟩
    · rintro ⟨n, r, h, hr⟩; exact ⟨n, _, h, r, rfl, hr⟩

/-- All dependencies of a file are reported. -/
def C46_full : Prop :=
  ∀ (iterDeps : NpmDeps → NpmDeps) (iterPackages : SMap NpmPackage → SMap NpmPackage)
    (order : List PackageDetails → List PackageDetails), (∀ t n v, NpmDepIn (iterDeps t) n v ↔ NpmDepIn t n v) →
    (∀ l, (order l).Perm l) → ∀ (content : Str) (deps : JMembers), NpmV1File content deps → ∀ pkgs,
    parseNpmLock iterDeps iterPackages order (some content) = some (pkgs, false) →
    ∀ p, p ∈ pkgs ↔ ∃ name version, NpmJsonDep deps name version ∧ NpmEntry tryExtractCommit name version p

/-- The claim when names have `@` at the front only and no version text is the commit of a dependency with the same
name: every dependency at every depth is reported, and nothing else. What is missing: these two conditions, which rule
out that two different packages share a key. -/
theorem C46_partial (iterDeps : NpmDeps → NpmDeps) (iterPackages : SMap NpmPackage → SMap NpmPackage)
    (order : List PackageDetails → List PackageDetails) (hi : ∀ t n v, NpmDepIn (iterDeps t) n v ↔ NpmDepIn t n v)
    (ho : ∀ l, (order l).Perm l) (content : Str) (deps : JMembers) (hf : NpmV1File content deps)
    (hnames : ∀ name version p, NpmJsonDep deps name version → NpmEntry tryExtractCommit name version p → NpmName p.name)
    (hcommits : ∀ name version p name' version' p', NpmJsonDep deps name version → NpmEntry tryExtractCommit name version p →
      NpmJsonDep deps name' version' → NpmEntry tryExtractCommit name' version' p' → p.name = p'.name →
      p.commit ≠ [] → p'.commit = [] → version' ≠ p.commit)
    (pkgs : List PackageDetails) (h : parseNpmLock iterDeps iterPackages order (some content) = some (pkgs, false))
    (p : PackageDetails) :
    p ∈ pkgs ↔ ∃ name version, NpmJsonDep deps name version ∧ NpmEntry tryExtractCommit name version p := by
  refine ⟨C46_sound iterDeps iterPackages order hi ho content deps hf pkgs h p, ?_⟩
  rintro ⟨name, version, h1, h2⟩
  obtain ⟨m, hperm, hadds⟩ := C46_adds hi ho hf h
  rw [hperm.mem_iff]
  have hpan : npmDependency name version ≠ none := by
    intro hn
    have hiff := C46_panic_iff iterDeps iterPackages order hi content deps hf (by rw [h]; simp)
    obtain ⟨r, rfl, hr⟩ := (Npm.dependency_none _ _).1 hn
    have := hiff.2 ⟨name, r, h1, hr⟩
    rw [h] at this; cases this
  obtain ⟨x, hx⟩ := Option.ne_none_iff_exists'.1 hpan
  have hx2 : x.2 = p := Npm.entry_unique (Npm.dependency_some _ _ _ hx).1 h2
  refine List.mem_map.2 ⟨x, (hadds.mem ?_ x).2 ⟨name, version, h1, hx⟩, hx2⟩
  rintro y z ⟨n1, v1, d1, e1⟩ ⟨n2, v2, d2, e2⟩ hkey
  obtain ⟨en1, k1⟩ := Npm.dependency_some _ _ _ e1
  obtain ⟨en2, k2⟩ := Npm.dependency_some _ _ _ e2
  rw [k1, k2] at hkey
  obtain ⟨hname, hver⟩ := Npm.name_unique (hnames _ _ _ d1 en1) (hnames _ _ _ d2 en2) hkey
  change Npm.keyVersion v1 = Npm.keyVersion v2 at hver
  have c1 := Npm.entry_commit en1
  have c2 := Npm.entry_commit en2
  by_cases hc1 : y.2.commit = []
  · rw [c1.2 hc1] at hver
    by_cases hc2 : z.2.commit = []
    · rw [c2.2 hc2] at hver
      subst hver
      exact Npm.entry_plain en1 en2 hc1 hname
    · rw [(c2.1 hc2).1] at hver
      exact absurd hver (hcommits _ _ _ _ _ _ d2 en2 d1 en1 hname.symm hc2 hc1)
  · rw [(c1.1 hc1).1] at hver
    by_cases hc2 : z.2.commit = []
    · rw [c2.2 hc2] at hver
      exact absurd hver.symm (hcommits _ _ _ _ _ _ d1 en1 d2 en2 hname hc1 hc2)
    · rw [(c2.1 hc2).1] at hver
      rw [(c1.1 hc1).2, (c2.1 hc2).2, hname, hver]

/-- What the entries of the usual kinds of dependencies are. -/
theorem C46_kinds (name : Str) :
    (∀ path, NpmEntry tryExtractCommit name (g!"file:" ++ path) (npm name [] [])) ∧
    (∀ version c, CommitForm version c → CommitText c → '\n' ∉ version → (∀ r, version ≠ g!"file:" ++ r) →
      (∀ r, version ≠ g!"npm:" ++ r) → NpmEntry tryExtractCommit name version (npm name [] c)) ∧
    (∀ n w, '@' ∉ w → '#' ∉ n ++ w → (∀ a b, n ++ '@' :: w ≠ a ++ g!"//" ++ b) →
      NpmEntry tryExtractCommit name (g!"npm:" ++ n ++ '@' :: w) (npm n w [])) ∧
    (∀ version, ':' ∉ version → '#' ∉ version → '/' ∉ version → NpmEntry tryExtractCommit name version (npm name version [])) := by
  refine ⟨fun path => .file name path, ?_, ?_, ?_⟩
  · intro version c h1 h2 h3 h4 h5
    have e := C55_forms version c h1 h2 h3
    have := NpmEntry.git (commit := tryExtractCommit) name version name version h4 (.own name version h5) (by rw [e]; exact h2.1)
    rw [e] at this
    exact this
  · intro n w hw hh hs
    refine .registry name _ n w ?_ (.aliased name n w hw) (C55_plain _ ?_ ?_)
    · intro r e; simp at e
    · simpa using hh
    · intro a b e
      match a, e with
      | [], e => simp at e
      | [_], e => simp at e
      | [_, _], e => simp at e
      | [_, _, _], e => simp at e
      | _ :: _ :: _ :: _ :: a, e =>
        simp only [List.cons_append, List.nil_append, List.cons.injEq] at e
        exact hs a b (by simpa using e.2.2.2.2)
  · intro version h1 h2 h3
    refine .registry name version name version ?_ (.own name version ?_) (C55_plain _ h2 ?_)
    · rintro r rfl; simp at h1
    · rintro r rfl; simp at h1
    · rintro a b rfl; simp at h3

/-- The `dependencies` of a file in which the two dependencies on `a` share a key. -/
def C46_witness_deps : JMembers :=
  .cons g!"a" (.obj (.cons g!"version" (.str g!"git+https://h/r.git#abc") .nil))
    (.cons g!"b" (.obj (.cons g!"version" (.str g!"1") (.cons g!"dependencies"
      (.obj (.cons g!"a" (.obj (.cons g!"version" (.str g!"abc") .nil)) .nil)) .nil))) .nil)

/-- The file. -/
def C46_witness : Str := Json.render (.obj (.cons g!"dependencies" (.obj C46_witness_deps) .nil))

theorem C46_witness_ok : NpmV1File C46_witness C46_witness_deps := by
  refine ⟨_, Json.parse_render _ (by simp [Json.JOk, Json.JOkM, C46_witness_deps]), ?_, ?_, ?_, ?_⟩
  · unfold PlainKeys DistinctKeys; simp [JMembers.toList]; decide
  · simp [Member, JMembers.toList]
  · refine .mk (by unfold DistinctKeys; simp [JMembers.toList, C46_witness_deps]) ?_ ?_
    · intro k o h
      simp only [Member, JMembers.toList, C46_witness_deps, List.mem_cons, Prod.mk.injEq, JVal.obj.injEq, List.not_mem_nil, or_false] at h
      rcases h with ⟨_, rfl⟩ | ⟨_, rfl⟩
      · unfold PlainKeys DistinctKeys; simp [JMembers.toList]; decide
      · unfold PlainKeys DistinctKeys; simp [JMembers.toList]; decide
    · intro k o ds h h'
      simp only [Member, JMembers.toList, C46_witness_deps, List.mem_cons, Prod.mk.injEq, JVal.obj.injEq, List.not_mem_nil, or_false] at h
      rcases h with ⟨_, rfl⟩ | ⟨_, rfl⟩
      · simp [Member, JMembers.toList] at h'
      · simp [Member, JMembers.toList] at h'
        subst h'
        refine .mk (by unfold DistinctKeys; simp [JMembers.toList]) ?_ ?_
        · intro k o h
          simp [Member, JMembers.toList] at h
          obtain ⟨_, rfl⟩ := h
          unfold PlainKeys DistinctKeys; simp [JMembers.toList]; decide
        · intro k o ds h h'
          simp [Member, JMembers.toList] at h
          obtain ⟨_, rfl⟩ := h
          simp [Member, JMembers.toList] at h'
  · simp [Member, JMembers.toList]

theorem C46_witness_result : parseNpmLock id id id (some C46_witness) =
    some ([npm g!"a" g!"abc" [], npm g!"b" g!"1" []], false) := by decide +kernel

theorem C46_counterexample : ¬ C46_full := by
  intro h
  have h1 := (h id id id (fun _ _ _ => Iff.rfl) (fun _ => List.Perm.refl _) _ _ C46_witness_ok _ C46_witness_result
    (npm g!"a" [] g!"abc")).2 ⟨g!"a", g!"git+https://h/r.git#abc", .here (o := .cons g!"version" (.str g!"git+https://h/r.git#abc") .nil)
      (by simp [Member, JMembers.toList, C46_witness_deps]) (Or.inl (by simp [Member, JMembers.toList])), ?_⟩
  · revert h1; decide
  · refine (C46_kinds g!"a").2.1 _ g!"abc" ?_ ⟨by decide, by decide⟩ (by decide) (by intro r e; simp at e) (by intro r e; simp at e)
    exact CommitForm.scheme [] g!"git+https" g!"h/r.git" g!"abc" (Or.inl rfl) (Or.inr (Or.inr (Or.inl rfl))) (by decide)

-- an alias and a nested dependency
example : parseNpmLock id id id (some (Json.render (.obj (.cons g!"dependencies" (.obj (.cons g!"x" (.obj
    (.cons g!"version" (.str g!"npm:@s/y@2") (.cons g!"dependencies" (.obj (.cons g!"z" (.obj (.cons g!"version" (.str g!"3") .nil)) .nil)) .nil)))
    .nil)) .nil)))) = some ([npm g!"z" g!"3" [], npm g!"@s/y" g!"2" []], false) := by decide +kernel

/-- A nested dependency that is an alias. -/
def C46_sample : JMembers :=
  .cons g!"a" (.obj (.cons g!"version" (.str g!"1") (.cons g!"dependencies"
    (.obj (.cons g!"b" (.obj (.cons g!"version" (.str g!"npm:@s/c@2") .nil)) .nil)) .nil))) .nil

-- the conditions of `C46_partial` hold for it
example : (∀ name version p, NpmJsonDep C46_sample name version → NpmEntry tryExtractCommit name version p → NpmName p.name) ∧
    (∀ name version p, NpmJsonDep C46_sample name version → NpmEntry tryExtractCommit name version p → p.commit = []) := by
  have hdep : ∀ name version, NpmJsonDep C46_sample name version →
      (name = g!"a" ∧ version = g!"1") ∨ (name = g!"b" ∧ version = g!"npm:" ++ g!"@s/c" ++ '@' :: g!"2") := by
    intro name version h
    cases h with
    | here h1 h2 =>
      simp [Member, C46_sample, JMembers.toList] at h1
      obtain ⟨rfl, rfl⟩ := h1
      simp [TextField, Member, JMembers.toList] at h2
      exact Or.inl ⟨rfl, h2⟩
    | null h1 => simp [Member, C46_sample, JMembers.toList] at h1
    | inner h1 h2 h3 =>
      simp [Member, C46_sample, JMembers.toList] at h1
      obtain ⟨rfl, rfl⟩ := h1
      simp [Member, JMembers.toList] at h2
      subst h2
      cases h3 with
      | here h1 h2 =>
        simp [Member, JMembers.toList] at h1
        obtain ⟨rfl, rfl⟩ := h1
        simp [TextField, Member, JMembers.toList] at h2
        exact Or.inr ⟨rfl, h2⟩
      | null h1 => simp [Member, JMembers.toList] at h1
      | inner h1 h2 h3 =>
        simp [Member, JMembers.toList] at h1
        obtain ⟨rfl, rfl⟩ := h1
        simp [Member, JMembers.toList] at h2
  have hp : ∀ name version p, NpmJsonDep C46_sample name version → NpmEntry tryExtractCommit name version p →
      p = npm g!"a" g!"1" [] ∨ p = npm g!"@s/c" g!"2" [] := by
    intro name version p h he
    rcases hdep _ _ h with ⟨rfl, rfl⟩ | ⟨rfl, rfl⟩
    · exact Or.inl (Npm.entry_unique he ((C46_kinds _).2.2.2 g!"1" (by decide) (by decide) (by decide)))
    · refine Or.inr (Npm.entry_unique he ((C46_kinds _).2.2.1 g!"@s/c" g!"2" (by decide) (by decide) ?_))
      intro a b e
      have := (contains_iff (g!"@s/c" ++ '@' :: g!"2") g!"//").2 ⟨a, b, e⟩
      revert this; decide +kernel
  constructor
  · intro name version p h he
    rcases hp _ _ _ h he with rfl | rfl
    · exact ⟨'a', [], rfl, by decide⟩
    · exact ⟨'@', g!"s/c", rfl, by decide⟩
  · intro name version p h he
    rcases hp _ _ _ h he with rfl | rfl <;> rfl

end Osv
