import Verif.Lemmas.Formats
import Verif.Model.Main
import Verif.Spec.Formats
/-!
# C67 Packages carry the ecosystem of their lockfile

The databases and version comparisons that are used for a package are chosen by its ecosystem.
-/
namespace Osv
open Spec Formats

/-- Whatever a parser returns, from whatever text, every package has the ecosystem of the format, both for looking up advisories
and for comparing versions. -/
theorem C67_ecosystem (P : ParserEnv) (hgo : ∀ m, (P.iterGo m).Perm m) (ho : ∀ l, (P.order l).Perm l)
    (hr : ∀ p r l, (P.reqOrder p r l).Perm l) (parser path : Str) (ps : List PackageDetails) (e : Bool)
    (h : parseFile P parser path = some (ps, e)) : ∀ pkg ∈ ps, OfFormat parser pkg := by
  have fin : ∀ eco, (parser, eco) ∈ formatEcosystems → ListEco eco ps → ∀ pkg ∈ ps, OfFormat parser pkg := by
    intro eco hf hl pkg hp
    obtain ⟨h1, h2⟩ := hl pkg hp
    exact ⟨by rw [h1]; exact hf, by rw [h1, h2]⟩
  unfold parseFile at h
  dsimp only at h
  by_cases hn : parser = g!"bun.lock"
  · rw [if_pos hn] at h; subst hn
    refine fin g!"npm" (by decide) ?_
    unfold parseBunLock at h
    split at h
    · cases h; exact .nil _
    · split at h
      · cases h; exact .nil _
      · cases h
      · obtain ⟨l, hl, h⟩ := Option.map_eq_some_iff.1 h
        cases h
        exact bun _ _ hl
  rw [if_neg hn] at h; clear hn
  by_cases hn : parser = g!"Cargo.lock"
  · rw [if_pos hn] at h; subst hn
    refine fin g!"crates.io" (by decide) ?_
    unfold parseCargoLock at h
    split at h
    · cases h; exact .nil _
    · cases h; refine foldl_eco _ (fun _ _ h => h.snoc ?_) _ _ (.nil _); exact ⟨rfl, rfl⟩
  rw [if_neg hn] at h; clear hn
  by_cases hn : parser = g!"composer.lock"
  · rw [if_pos hn] at h; subst hn
    refine fin g!"Packagist" (by decide) ?_
    unfold parseComposerLock at h
    split at h
    · cases h; exact .nil _
    · split at h
      · cases h; exact .nil _
      · cases h
      · cases h; exact (ListEco.map composerDetails (fun _ => ⟨rfl, rfl⟩) _).append (ListEco.map composerDetails (fun _ => ⟨rfl, rfl⟩) _)
  rw [if_neg hn] at h; clear hn
  by_cases hn : parser = g!"Gemfile.lock"
  · rw [if_pos hn] at h; subst hn
    refine fin g!"RubyGems" (by decide) ?_
    unfold parseGemfileLock at h
    split at h
    · cases h; exact .nil _
    · cases h; exact gem _ _ (.nil _)
  rw [if_neg hn] at h; clear hn
  by_cases hn : parser = g!"go.mod"
  · rw [if_pos hn] at h; subst hn
    refine fin g!"Go" (by decide) ?_
    unfold parseGoLock at h
    split at h
    · cases h; exact .nil _
    · cases h
      refine (MapEco.values (goDedup _ _ ?_ (.nil _))).perm (ho _)
      exact fun x hx => goReplace _ _ _ (goRequire _ _ (.nil _)) x ((hgo _).mem_iff.1 hx)
  rw [if_neg hn] at h; clear hn
  by_cases hn : parser = g!"mix.lock"
  · rw [if_pos hn] at h; subst hn
    refine fin g!"Hex" (by decide) ?_
    unfold parseMixLock at h
    split at h
    · cases h; exact .nil _
    · dsimp only at h
      split at h
      · cases h; exact .nil _
      · cases h
        refine foldl_eco _ (fun acc a h => ?_) _ _ (.nil _)
        unfold mixStep
        split
        · exact h
        · split
          · dsimp only
            split <;> exact h.snoc ⟨rfl, rfl⟩
          · exact h
  rw [if_neg hn] at h; clear hn
  by_cases hn : parser = g!"package-lock.json"
  · rw [if_pos hn] at h; subst hn
    refine fin g!"npm" (by decide) ?_
    unfold parseNpmLock at h
    split at h
    · cases h; exact .nil _
    · split at h
      · cases h; exact .nil _
      · cases h
      · obtain ⟨m, hm, h⟩ := Option.map_eq_some_iff.1 h
        cases h
        exact (npm _ _ hm).values.perm (ho _)
  rw [if_neg hn] at h; clear hn
  by_cases hn : parser = g!"packages.lock.json"
  · rw [if_pos hn] at h; subst hn
    refine fin g!"NuGet" (by decide) ?_
    unfold parseNuGetLock at h
    split at h
    · cases h; exact .nil _
    · split at h
      · cases h; exact .nil _
      · cases h
      · split at h
        · cases h; exact .nil _
        · cases h
          exact (nuget _ _ _ (.nil _)).values.perm (ho _)
  rw [if_neg hn] at h; clear hn
  by_cases hn : parser = g!"pdm.lock"
  · rw [if_pos hn] at h; subst hn
    refine fin g!"PyPI" (by decide) ?_
    unfold parsePdmLock at h
    split at h
    · cases h; exact .nil _
    · cases h
      refine foldl_eco _ (fun acc a h => h.snoc ?_) _ _ (.nil _)
      unfold pdmDetails
      dsimp only
      split <;> exact ⟨rfl, rfl⟩
  rw [if_neg hn] at h; clear hn
  by_cases hn : parser = g!"pnpm-lock.yaml"
  · rw [if_pos hn] at h; subst hn
    refine fin g!"npm" (by decide) ?_
    unfold parsePnpmLock at h
    split at h
    · cases h; exact .nil _
    · obtain ⟨r, hr, h⟩ := Option.map_eq_some_iff.1 h
      cases r with
      | none => cases h; exact .nil _
      | some ds => cases h; exact pnpm _ _ _ hr
  rw [if_neg hn] at h; clear hn
  by_cases hn : parser = g!"poetry.lock"
  · rw [if_pos hn] at h; subst hn
    refine fin g!"PyPI" (by decide) ?_
    unfold parsePoetryLock at h
    split at h
    · cases h; exact .nil _
    · cases h; refine foldl_eco _ (fun _ _ h => h.snoc ?_) _ _ (.nil _); exact ⟨rfl, rfl⟩
  rw [if_neg hn] at h; clear hn
  by_cases hn : parser = g!"pylock.toml"
  · rw [if_pos hn] at h; subst hn
    refine fin g!"PyPI" (by decide) ?_
    unfold parsePylock at h
    split at h
    · cases h; exact .nil _
    · cases h
      refine foldl_eco _ (fun acc a h => ?_) _ _ (.nil _)
      unfold pylockStep
      split
      · exact h
      · refine h.snoc ?_
        split <;> exact ⟨rfl, rfl⟩
  rw [if_neg hn] at h; clear hn
  by_cases hn : parser = g!"Pipfile.lock"
  · rw [if_pos hn] at h; subst hn
    refine fin g!"PyPI" (by decide) ?_
    unfold parsePipenvLock at h
    split at h
    · cases h; exact .nil _
    · split at h
      · cases h; exact .nil _
      · cases h
      · obtain ⟨m, hm, h⟩ := Option.map_eq_some_iff.1 h
        obtain ⟨m', hm', hm⟩ := Option.bind_eq_some_iff.1 hm
        cases h
        exact (pipenv _ _ _ (pipenv _ _ _ (.nil _) hm') hm).values.perm (ho _)
  rw [if_neg hn] at h; clear hn
  by_cases hn : parser = g!"pom.xml"
  · rw [if_pos hn] at h; subst hn
    refine fin g!"Maven" (by decide) ?_
    unfold parseMavenLock at h
    split at h
    · cases h; exact .nil _
    · cases h; exact (maven _ _ _ (maven _ _ _ (.nil _))).values.perm (ho _)
  rw [if_neg hn] at h; clear hn
  by_cases hn : parser = g!"pubspec.lock"
  · rw [if_pos hn] at h; subst hn
    refine fin g!"Pub" (by decide) ?_
    unfold parsePubspecLock at h
    split at h
    · cases h; exact .nil _
    · cases h; exact .nil _
    · split at h
      · cases h
      · cases h; exact .nil _
      · cases h; exact ListEco.map (e := g!"Pub") _ (fun _ => ⟨rfl, rfl⟩) _
  rw [if_neg hn] at h; clear hn
  by_cases hn : parser = g!"renv.lock"
  · rw [if_pos hn] at h; subst hn
    refine fin g!"CRAN" (by decide) ?_
    unfold parseRenvLock at h
    split at h
    · cases h; exact .nil _
    · split at h
      · cases h; exact .nil _
      · cases h
      · cases h; exact renv _
  rw [if_neg hn] at h; clear hn
  by_cases hn : parser = g!"requirements.txt"
  · rw [if_pos hn] at h; subst hn
    refine fin g!"PyPI" (by decide) ?_
    obtain ⟨r, hq, h⟩ := Option.map_eq_some_iff.1 h
    obtain ⟨⟨a, b⟩, hat, rfl⟩ := Option.map_eq_some_iff.1 hq
    cases a with
    | none => cases h; exact .nil _
    | some l => cases h; exact req _ _ hr _ _ _ _ _ hat
  rw [if_neg hn] at h; clear hn
  by_cases hn : parser = g!"yarn.lock"
  · rw [if_pos hn] at h; subst hn
    refine fin g!"npm" (by decide) ?_
    unfold parseYarnLock at h
    split at h
    · cases h; exact .nil _
    · dsimp only at h
      split at h
      · cases h; exact .nil _
      · cases h
        refine foldl_eco _ (fun acc a h => ?_) _ _ (.nil _)
        unfold yarnStep
        split
        · exact h
        · exact h.snoc ⟨rfl, rfl⟩
  rw [if_neg hn] at h; clear hn
  by_cases hn : parser = g!"uv.lock"
  · rw [if_pos hn] at h; subst hn
    refine fin g!"PyPI" (by decide) ?_
    unfold parseUvLock at h
    split at h
    · cases h; exact .nil _
    · cases h
      refine foldl_eco _ (fun acc a h => ?_) _ _ (.nil _)
      unfold uvStep
      split
      · exact h
      · exact h.snoc ⟨rfl, rfl⟩
  have gradle : ∀ c, parseGradleLock c = (ps, e) → ListEco g!"Maven" ps := by
    intro c h
    unfold parseGradleLock at h
    split at h
    · cases h; exact .nil _
    · dsimp only at h
      split at h
      · cases h; exact .nil _
      · cases h
        refine foldl_eco _ (fun acc a h => ?_) _ _ (.nil _)
        unfold gradleStep
        dsimp only
        split
        · exact h
        · split
          · exact h
          · rename_i hp
            refine h.snoc ?_
            unfold parseGradleLine at hp
            split at hp
            · cases hp; exact ⟨rfl, rfl⟩
            · cases hp
  rw [if_neg hn] at h; clear hn
  by_cases hn : parser = g!"gradle.lockfile"
  · rw [if_pos hn] at h; subst hn
    exact fin g!"Maven" (by decide) (gradle _ (Option.some.inj h))
  rw [if_neg hn] at h; clear hn
  by_cases hn : parser = g!"buildscript-gradle.lockfile"
  · rw [if_pos hn] at h; subst hn
    exact fin g!"Maven" (by decide) (gradle _ (Option.some.inj h))
  rw [if_neg hn] at h; cases h
  intro p hp; cases hp

/-- The formats are exactly the names for which there is a parser, each with one ecosystem that has no suffix. -/
theorem C67_formats :
    (∀ n, n ∈ parserNames ↔ n ∈ formatEcosystems.map (·.1)) ∧ (formatEcosystems.map (·.1)).Nodup ∧
    ∀ x ∈ formatEcosystems, ':' ∉ x.2 ∧ x.2 ≠ [] := by
  refine ⟨?_, by decide, by decide⟩
  intro n
  constructor
  · intro h
    have : ∀ n ∈ parserNames, n ∈ formatEcosystems.map (·.1) := by decide
    exact this n h
  · intro h
    have : ∀ n ∈ formatEcosystems.map (·.1), n ∈ parserNames := by decide
    exact this n h

/-- What `--list-ecosystems` lists are exactly the ecosystems of the formats, each once; so the ecosystem of every package that is
read from a lockfile is listed. -/
theorem C67_listed : (∀ e, e ∈ knownEcosystems ↔ ∃ format, (format, e) ∈ formatEcosystems) ∧ knownEcosystems.Nodup ∧
    ∀ format pkg, OfFormat format pkg → pkg.ecosystem ∈ knownEcosystems := by
  have h1 : ∀ e ∈ knownEcosystems, e ∈ formatEcosystems.map (·.2) := by decide
  have h2 : ∀ x ∈ formatEcosystems, x.2 ∈ knownEcosystems := by decide
  refine ⟨fun e => ⟨fun h => ?_, fun ⟨format, h⟩ => h2 _ h⟩, by decide, fun format pkg h => h2 _ h.1⟩
  obtain ⟨⟨format, e'⟩, hx, rfl⟩ := List.mem_map.1 (h1 e h)
  exact ⟨format, hx⟩

/-- A name that is not in the table is an error. -/
theorem C67_unknown (P : ParserEnv) (parser path : Str) (h : parser ∉ parserNames) : parseFile P parser path = some ([], true) := by
  have hne : ∀ s ∈ parserNames, parser ≠ s := fun s hs he => h (he ▸ hs)
  unfold parseFile
  dsimp only
  repeat rw [if_neg (hne _ (by decide))]

/-- A file system with one requirements.txt, and nothing else readable. -/
def sampleParsers : ParserEnv where
  file p := if p = g!"requirements.txt" then some g!"Foo==1.0\n" else none
  isFloat _ := true
  toml _ := none
  uvOptional _ := none
  yaml _ := none
  pnpmNine _ := none
  gomod _ := none
  iterBun := id
  iterGo := id
  iterNpmDeps := id
  iterNpm := id
  iterStr := id
  iterNuGet := id
  iterPnpm := id
  iterPubspec := id
  iterRenv := id
  order := id
  reqOrder _ _ := id
  reqDepth := 2

example : parseFile sampleParsers g!"requirements.txt" g!"requirements.txt" =
    some ([⟨g!"foo", g!"1.0", [], g!"PyPI", g!"PyPI"⟩], false) := by decide +kernel

end Osv
