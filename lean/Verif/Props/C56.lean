import Verif.Lemmas.Panics
import Verif.Lemmas.YamlFiles
import Verif.Model.LockComposer
import Verif.Model.LockGemfile
import Verif.Props.C39
import Verif.Props.C44
import Verif.Props.C53
/-!
# C56: panics of parsers

For each parser that can panic, the exact condition. The JSON parsers dereference a nil pointer when the whole document is
`null`; aliases without a version (package-lock.json), versions of one byte (Pipfile.lock), empty tuples (bun.lock) and keys
that end within a scope (pnpm-lock.yaml) panic as well. The other parsers index and dereference only what is there: `C56_pubspec`,
`C56_yarn` and `C56_gemfile` are the cases that need an argument.
-/
namespace Osv
open Str Spec

/-- `null`, with white space around it. -/
def IsNullText (s : Str) : Prop := ∃ a b : Str, (∀ c ∈ a, c ∈ [' ', '\t', '\r', '\n']) ∧ (∀ c ∈ b, c ∈ [' ', '\t', '\r', '\n']) ∧
  s = a ++ g!"null" ++ b

theorem isNullText_iff (s : Str) : Json.parse s = some .null ↔ IsNullText s := by
  rw [Json.parse_null]
  have : ∀ c, Json.ws c = true ↔ c ∈ [' ', '\t', '\r', '\n'] := by
    intro c
    simp [Json.ws, or_assoc]
  simp only [this]
  rfl

namespace Panics

/-- A decoder that leaves the pointer nil for `null` only. -/
theorem nil_iff {α : Type} (dec : JVal → Option (Option α)) (h0 : dec .null = some none) (h : ∀ v, dec v = some none → v = .null)
    (s : Str) : (Json.parse s).bind dec = some none ↔ IsNullText s := by
  rw [← isNullText_iff]
  constructor
  · intro e
    obtain ⟨v, hv, e⟩ := Option.bind_eq_some_iff.1 e
    rw [h v e] at hv
    exact hv
  · intro e
    rw [e]
    exact h0

theorem map_some_ne {α : Type} {o : Option α} {p : Prop} (h : o.map some = some none) : p := by
  cases o <;> cases h

theorem composer_nil (v : JVal) (h : decComposerLock v = some none) : v = .null := by
  unfold decComposerLock at h
  split at h
  · rfl
  · exact map_some_ne h
theorem npm_nil (v : JVal) (h : decNpmLockfile v = some none) : v = .null := by
  unfold decNpmLockfile at h
  split at h
  · rfl
  · exact map_some_ne h
theorem nuget_nil (v : JVal) (h : decNuGetLockfile v = some none) : v = .null := by
  unfold decNuGetLockfile at h
  split at h
  · rfl
  · exact map_some_ne h
theorem pipenv_nil (v : JVal) (h : decPipenvLock v = some none) : v = .null := by
  unfold decPipenvLock at h
  split at h
  · rfl
  · exact map_some_ne h
theorem renv_nil (v : JVal) (h : decRenvLockfile v = some none) : v = .null := by
  unfold decRenvLockfile at h
  split at h
  · rfl
  · exact map_some_ne h
theorem bun_nil (isFloat : Str → Bool) (v : JVal) (h : decBunLockfile isFloat v = some none) : v = .null := by
  unfold decBunLockfile at h
  split at h
  · rfl
  · exact map_some_ne h

end Panics

theorem C56_composer_iff (content : Option Str) :
    parseComposerLock content = none ↔ ∃ c, content = some c ∧ IsNullText c := by
  cases content with
  | none => simp [parseComposerLock]
  | some c =>
    have h := Panics.nil_iff decComposerLock rfl Panics.composer_nil c
    unfold parseComposerLock
    dsimp only
    cases hd : (Json.parse c).bind decComposerLock with
    | none => rw [hd] at h; simp [← h]
    | some o => cases o <;> (rw [hd] at h; simp [← h])

theorem C56_renv_iff (iter : SMap RenvPackage → SMap RenvPackage) (content : Option Str) :
    parseRenvLock iter content = none ↔ ∃ c, content = some c ∧ IsNullText c := by
  cases content with
  | none => simp [parseRenvLock]
  | some c =>
    have h := Panics.nil_iff decRenvLockfile rfl Panics.renv_nil c
    unfold parseRenvLock
    dsimp only
    cases hd : (Json.parse c).bind decRenvLockfile with
    | none => rw [hd] at h; simp [← h]
    | some o => cases o <;> (rw [hd] at h; simp [← h])

theorem C56_nuget_iff (iterDeps : SMap Str → SMap Str) (iterFrameworks : SMap (Option (SMap Str)) → SMap (Option (SMap Str)))
    (order : List PackageDetails → List PackageDetails) (content : Option Str) :
    parseNuGetLock iterDeps iterFrameworks order content = none ↔ ∃ c, content = some c ∧ IsNullText c := by
  cases content with
  | none => simp [parseNuGetLock]
  | some c =>
    have h := Panics.nil_iff decNuGetLockfile rfl Panics.nuget_nil c
    unfold parseNuGetLock
    dsimp only
    cases hd : (Json.parse c).bind decNuGetLockfile with
    | none => rw [hd] at h; simp [← h]
    | some o =>
      cases o with
      | none => rw [hd] at h; simp [← h]
      | some l =>
        rw [hd] at h
        dsimp only
        by_cases hv : l.version ≠ g!"1"
        · rw [if_pos hv]; simp [← h]
        · rw [if_neg hv]; simp [← h]

/-- package-lock.json: `null`, or an alias without a version at any depth of a file without `packages`. -/
theorem C56_npm_iff (iterDeps : NpmDeps → NpmDeps) (iterPackages : SMap NpmPackage → SMap NpmPackage)
    (order : List PackageDetails → List PackageDetails) (hi : IsTreeOrder iterDeps) (content : Option Str) :
    parseNpmLock iterDeps iterPackages order content = none ↔ ∃ c, content = some c ∧ (IsNullText c ∨
      ∃ l, (Json.parse c).bind decNpmLockfile = some (some l) ∧ l.packages = none ∧
        ∃ name r, NpmDepIn l.dependencies name (g!"npm:" ++ r) ∧ '@' ∉ r) := by
  cases content with
  | none => simp [parseNpmLock]
  | some c =>
    have h := Panics.nil_iff decNpmLockfile rfl Panics.npm_nil c
    unfold parseNpmLock
    dsimp only
    cases hd : (Json.parse c).bind decNpmLockfile with
    | none => rw [hd] at h; simp [← h, hd]
    | some o =>
      cases o with
      | none => rw [hd] at h; simp [← h]
      | some l =>
        rw [hd] at h
        dsimp only
        rw [Option.map_eq_none_iff]
        unfold parseNpmLockfile
        dsimp only
        constructor
        · intro e
          refine ⟨c, rfl, Or.inr ⟨l, hd, ?_⟩⟩
          cases hp : l.packages with
          | some ps => rw [hp] at e; cases e
          | none =>
            rw [hp] at e
            obtain ⟨n, v, hn, hv⟩ := (Npm.loop_none _ _).1 e
            obtain ⟨r, rfl, hr⟩ := (Npm.dependency_none _ _).1 hv
            exact ⟨rfl, n, r, (hi _ _ _).1 hn, hr⟩
        · rintro ⟨c', e, h' | ⟨l', hl', hp, n, r, hn, hr⟩⟩
          · cases e
            cases h.2 h'
          · cases e
            rw [hd] at hl'
            cases hl'
            rw [hp]
            exact (Npm.loop_none _ _).2 ⟨n, _, (hi _ _ _).2 hn, (Npm.dependency_none _ _).2 ⟨r, rfl, hr⟩⟩

/-- Pipfile.lock: `null`, or a version of one byte. -/
theorem C56_pipenv_iff (iter : SMap Str → SMap Str) (order : List PackageDetails → List PackageDetails) (hi : IsOrder iter)
    (content : Option Str) :
    parsePipenvLock iter order content = none ↔ ∃ c, content = some c ∧ (IsNullText c ∨
      ∃ l, (Json.parse c).bind decPipenvLock = some (some l) ∧
        ∃ x ∈ l.packages.getD [] ++ l.packagesDev.getD [], ∃ b, x.2 = [b] ∧ b.utf8Size = 1) := by
  cases content with
  | none => simp [parsePipenvLock]
  | some c =>
    have h := Panics.nil_iff decPipenvLock rfl Panics.pipenv_nil c
    unfold parsePipenvLock
    dsimp only
    cases hd : (Json.parse c).bind decPipenvLock with
    | none => rw [hd] at h; simp [← h, hd]
    | some o =>
      cases o with
      | none => rw [hd] at h; simp [← h]
      | some l =>
        rw [hd] at h
        dsimp only
        rw [Option.map_eq_none_iff, Option.bind_eq_none_iff]
        constructor
        · intro e
          refine ⟨c, rfl, Or.inr ⟨l, hd, ?_⟩⟩
          cases h1 : pipenvLoop [] (iter (l.packages.getD [])) with
          | none =>
            obtain ⟨x, hx, b, hb⟩ := (Pipenv.loop_none _ _).1 h1
            exact ⟨x, List.mem_append_left _ ((hi _).mem_iff.1 hx), b, hb⟩
          | some m =>
            obtain ⟨x, hx, b, hb⟩ := (Pipenv.loop_none _ _).1 (e m h1)
            exact ⟨x, List.mem_append_right _ ((hi _).mem_iff.1 hx), b, hb⟩
        · rintro ⟨c', e, h' | ⟨l', hl', x, hx, hb⟩⟩
          · cases e
            cases h.2 h'
          · cases e
            rw [hd] at hl'
            cases hl'
            intro m hm
            rcases List.mem_append.1 hx with hx | hx
            · rw [(Pipenv.loop_none [] _).2 ⟨x, (hi _).mem_iff.2 hx, hb⟩] at hm
              cases hm
            · exact (Pipenv.loop_none _ _).2 ⟨x, (hi _).mem_iff.2 hx, hb⟩

/-- bun.lock: `null`, or an empty tuple. -/
theorem C56_bun_iff (toJSON : Str → Str) (isFloat : Str → Bool) (iter : SMap (List JVal) → SMap (List JVal)) (hi : IsOrder iter)
    (content : Option Str) :
    parseBunLock toJSON isFloat iter content = none ↔ ∃ c, content = some c ∧ (IsNullText (toJSON c) ∨
      ∃ ps, (Json.parse (toJSON c)).bind (decBunLockfile isFloat) = some (some ps) ∧ ∃ x ∈ ps.getD [], x.2 = []) := by
  cases content with
  | none => simp [parseBunLock]
  | some c =>
    have h := Panics.nil_iff (decBunLockfile isFloat) rfl (Panics.bun_nil isFloat) (toJSON c)
    unfold parseBunLock
    dsimp only
    cases hd : (Json.parse (toJSON c)).bind (decBunLockfile isFloat) with
    | none => rw [hd] at h; simp [← h, hd]
    | some o =>
      cases o with
      | none => rw [hd] at h; simp [← h]
      | some ps =>
        rw [hd] at h
        dsimp only
        rw [Option.map_eq_none_iff, MapOrder.bunLoop_eq]
        constructor
        · intro e
          refine ⟨c, rfl, Or.inr ⟨ps, hd, ?_⟩⟩
          by_cases hx : ∃ x ∈ iter (ps.getD []), x.2 = []
          · obtain ⟨x, hx, e⟩ := hx
            exact ⟨x, (hi _).mem_iff.1 hx, e⟩
          · rw [if_neg hx] at e; cases e
        · rintro ⟨c', e, h' | ⟨l', hl', x, hx, hb⟩⟩
          · cases e
            cases h.2 h'
          · cases e
            rw [hd] at hl'
            cases hl'
            rw [if_pos ⟨x, (hi _).mem_iff.2 hx, hb⟩]

/-- pnpm-lock.yaml: a key that ends within a scope; which keys these are says `C53_panic_iff`. It is for sure if no key is refused,
as the loop ends at the first that is. -/
theorem C56_pnpm (decode : Str → Option (Option PnpmLockfile)) (iter : SMap PnpmLockPackage → SMap PnpmLockPackage) (hi : IsOrder iter)
    (content : Option Str) :
    (parsePnpmLock decode iter content = none → ∃ l, content.bind decode = some (some l) ∧ l.isNine = false ∧
      ∃ x ∈ l.packages, ¬ IsFile x.1 ∧ ∃ host scope, '/' ∉ host ∧ '/' ∉ scope ∧ x.1 = host ++ g!"/@" ++ scope) ∧
    ∀ l, content.bind decode = some (some l) → l.isNine = false →
      (∃ x ∈ l.packages, ¬ IsFile x.1 ∧ ∃ host scope, '/' ∉ host ∧ '/' ∉ scope ∧ x.1 = host ++ g!"/@" ++ scope) →
      (∀ x ∈ l.packages, IsFile x.1 ∨ '/' ∈ x.1) → parsePnpmLock decode iter content = none := by
  constructor
  · intro h
    unfold parsePnpmLock at h
    cases hd : content.bind decode with
    | none => rw [hd] at h; cases h
    | some o =>
      rw [hd] at h
      dsimp only at h
      rw [Option.map_eq_none_iff] at h
      have key : ∃ x ∈ (o.getD {}).packages, extractPnpm (o.getD {}).isNine x.1 = none := by
        apply Classical.byContradiction
        intro hc
        have hn : ∀ x ∈ iter (o.getD {}).packages, extractPnpm (o.getD {}).isNine x.1 ≠ none :=
          fun x hx e => hc ⟨x, (hi _).mem_iff.1 hx, e⟩
        by_cases hv : ∃ x ∈ iter (o.getD {}).packages, extractPnpm (o.getD {}).isNine x.1 = some none
        · rw [MapOrder.pnpm_invalid _ _ hn hv] at h; cases h
        · rw [MapOrder.pnpm_good] at h
          · cases h
          · intro x hx
            cases e : extractPnpm (o.getD {}).isNine x.1 with
            | none => exact absurd e (hn x hx)
            | some p =>
              cases p with
              | none => exact absurd ⟨x, hx, e⟩ hv
              | some nv => exact ⟨nv, rfl⟩
      obtain ⟨x, hx, e⟩ := key
      cases o with
      | none => cases hx
      | some l =>
        obtain ⟨h1, h2, h3⟩ := (C53_panic_iff _ _).1 e
        exact ⟨l, rfl, h1, x, hx, h2, h3⟩
  · rintro l hd h9 ⟨x, hx, h1, h2⟩ hs
    unfold parsePnpmLock
    rw [hd]
    dsimp only
    rw [Option.getD_some, MapOrder.pnpm_panic]
    · rfl
    · intro y hy e
      obtain ⟨_, hf, hs'⟩ := (C53_invalid_iff _ _).1 e
      rcases hs y ((hi _).mem_iff.1 hy) with h | h
      · exact hf h
      · exact hs' h
    · exact ⟨x, (hi _).mem_iff.2 hx, (C53_panic_iff _ _).2 ⟨h9, h1, h2⟩⟩

/-- pubspec.lock never panics, because the library does not call `UnmarshalYAML` for null: line 44 only runs for text. This holds
whatever the reader of YAML gives. -/
theorem C56_pubspec (yaml : YamlReader) (iter : SMap (Str × PubspecDescription) → SMap (Str × PubspecDescription))
    (content : Option Str) : parsePubspecLock (pubspecDecode yaml) iter content ≠ none := by
  unfold parsePubspecLock
  split
  · simp
  · simp
  · rename_i ps hp
    have : pubspecDescriptions ps ≠ .panic := by
      apply YamlFile.descriptions_no_panic
      obtain ⟨c, _, hp⟩ := Option.bind_eq_some_iff.1 hp
      unfold pubspecDecode at hp
      split at hp
      · cases hp
      · cases hp
      · cases hp
      · rename_i n _ _
        rw [Option.map_eq_some_iff] at hp
        obtain ⟨ps', hp, e⟩ := hp
        cases e
        unfold yamlPubspec at hp
        simp only [Option.bind_eq_bind, Option.bind_eq_some_iff] at hp
        obtain ⟨fs, hf, m, hm, _, _, e⟩ := hp
        cases e
        rintro ⟨k, p⟩ hx
        obtain ⟨v, _, hv⟩ := (Yaml.mem_mapOf hm k p).1 hx
        obtain ⟨_, gs, _, hd⟩ := YamlFile.pubspecPackage_some hv
        dsimp only
        rw [hd]
        exact (YamlFile.described_decode _).1
    split
    · rename_i e
      exact absurd e this
    · simp
    · simp

/-- yarn.lock: `group[0]` is there (lines 153 and 192). -/
theorem C56_yarn (lines : List Str) : ∀ g ∈ groupPackageLines lines, g ≠ [] := by
  intro g hg
  obtain ⟨h, t, rfl, _⟩ := (C44_blocks lines).2.1 g hg
  simp

/-- Gemfile.lock: a spec has spaces in front, so that line 71 never ends the program. -/
theorem C56_gemfile (line : Str) (m : Re.Found) (h : reGemSpec.find line = some m) : m.group 1 ≠ [] := by
  obtain ⟨_, hm⟩ := Re.findFrom_sound _ _ _ _ h
  unfold reGemSpec at hm
  obtain ⟨y, z, k1, _, _, hm⟩ := Re.matches_seq.1 hm
  obtain ⟨y', z', k2, _, h1, hm⟩ := Re.matches_seq.1 hm
  obtain ⟨k3, h2, rfl⟩ := Re.matches_cap.1 h1
  have hne := (Re.matches_plus_cls.1 h2).1
  unfold Re.Found.group
  rw [Re.lookup_unchanged hm 1 (by decide)]
  simpa [List.lookup_cons] using hne

/-- The full claim: no parser panics on content that decodes as its format. False: `C56_counterexample`. -/
def C56_full : Prop :=
  (∀ c, ((Json.parse c).bind decComposerLock).isSome → parseComposerLock (some c) ≠ none) ∧
  (∀ iter, IsOrder iter → ∀ c, ((Json.parse c).bind decRenvLockfile).isSome → parseRenvLock iter (some c) ≠ none) ∧
  (∀ d f o, IsOrder d → IsOrder f → IsOrder o → ∀ c, ((Json.parse c).bind decNuGetLockfile).isSome →
    parseNuGetLock d f o (some c) ≠ none) ∧
  (∀ d p o, IsTreeOrder d → IsOrder p → IsOrder o → ∀ c, ((Json.parse c).bind decNpmLockfile).isSome →
    parseNpmLock d p o (some c) ≠ none) ∧
  (∀ i o, IsOrder i → IsOrder o → ∀ c, ((Json.parse c).bind decPipenvLock).isSome → parsePipenvLock i o (some c) ≠ none) ∧
  (∀ toJSON isFloat i, IsOrder i → ∀ c, ((Json.parse (toJSON c)).bind (decBunLockfile isFloat)).isSome →
    parseBunLock toJSON isFloat i (some c) ≠ none) ∧
  (∀ decode i, IsOrder i → ∀ c, (decode c).isSome → parsePnpmLock decode i (some c) ≠ none) ∧
  (∀ yaml i, IsOrder i → ∀ c, (pubspecDecode yaml c).isSome → parsePubspecLock (pubspecDecode yaml) i (some c) ≠ none)

theorem isNullText_null : IsNullText g!"null" := ⟨[], [], by simp, by simp, rfl⟩

/-- A composer.lock that holds `null`. -/
theorem C56_counterexample : ¬ C56_full := by
  rintro ⟨h, _⟩
  refine h g!"null" ?_ ((C56_composer_iff _).2 ⟨_, rfl, isNullText_null⟩)
  rw [(isNullText_iff _).2 isNullText_null]
  rfl

/-- A package-lock.json with a dependency `npm:foo`. -/
theorem C56_npm_counterexample : parseNpmLock id id id (some g!"{\"dependencies\": {\"a\": {\"version\": \"npm:foo\"}}}") = none := by
  decide +kernel

/-- A Pipfile.lock with the version `*`. -/
theorem C56_pipenv_counterexample : parsePipenvLock id id (some g!"{\"default\": {\"a\": {\"version\": \"*\"}}}") = none := by
  decide +kernel

/-- A bun.lock with an empty tuple. -/
theorem C56_bun_counterexample : parseBunLock id (fun _ => true) id (some g!"{\"packages\": {\"a\": []}}") = none := by
  decide +kernel

/-- A pnpm-lock.yaml with the key `/@foo`. -/
theorem C56_pnpm_counterexample : parsePnpmLock (fun _ => some (some ⟨false, [(g!"/@foo", {})]⟩)) id (some []) = none := by
  decide +kernel

/-- What holds of the full claim: no parser panics on content that decodes, apart from the cases named. Missing: those cases. -/
theorem C56_partial (c : Str) :
    (¬ IsNullText c → parseComposerLock (some c) ≠ none) ∧
    (∀ iter, ¬ IsNullText c → parseRenvLock iter (some c) ≠ none) ∧
    (∀ d f o, ¬ IsNullText c → parseNuGetLock d f o (some c) ≠ none) ∧
    (∀ d p o l, IsTreeOrder d → (Json.parse c).bind decNpmLockfile = some (some l) →
      (∀ name version, NpmDepIn l.dependencies name version → ∀ r, version = g!"npm:" ++ r → '@' ∈ r) →
      parseNpmLock d p o (some c) ≠ none) ∧
    (∀ i o l, IsOrder i → (Json.parse c).bind decPipenvLock = some (some l) →
      (∀ x ∈ l.packages.getD [] ++ l.packagesDev.getD [], x.2.length ≠ 1) → parsePipenvLock i o (some c) ≠ none) ∧
    (∀ toJSON isFloat i ps, IsOrder i → (Json.parse (toJSON c)).bind (decBunLockfile isFloat) = some (some ps) →
      (∀ x ∈ ps.getD [], x.2 ≠ []) → parseBunLock toJSON isFloat i (some c) ≠ none) ∧
    (∀ decode i l, IsOrder i → decode c = some (some l) →
      (∀ x ∈ l.packages, ∀ host scope : Str, '/' ∉ scope → x.1 ≠ host ++ g!"/@" ++ scope) →
      parsePnpmLock decode i (some c) ≠ none) ∧
    (∀ yaml i, parsePubspecLock (pubspecDecode yaml) i (some c) ≠ none) := by
  refine ⟨?_, ?_, ?_, ?_, ?_, ?_, ?_, ?_⟩
  · intro h e
    obtain ⟨_, e, h'⟩ := (C56_composer_iff _).1 e
    cases e; exact h h'
  · intro iter h e
    obtain ⟨_, e, h'⟩ := (C56_renv_iff _ _).1 e
    cases e; exact h h'
  · intro d f o h e
    obtain ⟨_, e, h'⟩ := (C56_nuget_iff _ _ _ _).1 e
    cases e; exact h h'
  · intro d p o l hi hl h e
    obtain ⟨_, e, h' | ⟨l', hl', _, n, r, hn, hr⟩⟩ := (C56_npm_iff _ _ _ hi _).1 e
    · cases e
      rw [(Panics.nil_iff decNpmLockfile rfl Panics.npm_nil c).2 h'] at hl
      cases hl
    · cases e
      rw [hl] at hl'
      cases hl'
      exact hr (h _ _ hn r rfl)
  · intro i o l hi hl h e
    obtain ⟨_, e, h' | ⟨l', hl', x, hx, b, hb, _⟩⟩ := (C56_pipenv_iff _ _ hi _).1 e
    · cases e
      rw [(Panics.nil_iff decPipenvLock rfl Panics.pipenv_nil c).2 h'] at hl
      cases hl
    · cases e
      rw [hl] at hl'
      cases hl'
      exact h x hx (by rw [hb]; rfl)
  · intro toJSON isFloat i ps hi hl h e
    obtain ⟨_, e, h' | ⟨l', hl', x, hx, hb⟩⟩ := (C56_bun_iff _ _ _ hi _).1 e
    · cases e
      rw [(Panics.nil_iff (decBunLockfile isFloat) rfl (Panics.bun_nil isFloat) (toJSON c)).2 h'] at hl
      cases hl
    · cases e
      rw [hl] at hl'
      cases hl'
      exact h x hx hb
  · intro decode i l hi hl h e
    obtain ⟨l', hl', _, x, hx, _, host, scope, _, hs, hx'⟩ := (C56_pnpm decode i hi _).1 e
    rw [Option.bind_some, hl] at hl'
    cases hl'
    exact h x hx host scope hs hx'
  · exact fun yaml i => C56_pubspec yaml i _

example : ¬ IsNullText g!"{}" := by
  rintro ⟨a, b, ha, _, e⟩
  cases a with
  | nil => cases e
  | cons x a =>
    have := ha x (by simp)
    injection e with e _
    subst e
    revert this; decide
example : ∀ x ∈ [(g!"a", g!"==1")], x.2.length ≠ 1 := by decide

end Osv
