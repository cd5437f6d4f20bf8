import Verif.Props.C75
import Verif.Model.ConfigYaml
import Verif.Lemmas.ConfigWrite
import Verif.Lemmas.YamlAccept
/-!
# C101: YAML files are read as the documents that they spell

From the text on: a grammar of YAML documents in which lockfiles and configs are written, and the texts that the reader accepts are
exactly those of the grammar, each with one tree. So a pnpm-lock.yaml, a pubspec.lock and a config say what their texts spell. About
texts outside of the grammar nothing is said: there the reader may do anything.
-/
namespace Osv
open Str Spec

/-- The reader covers the grammar and nothing else, and reads what is spelled. -/
theorem C101_read (s : Str) (r : Option YNode) : YamlScan.scan s = some r ↔ YmlDoc s r :=
  ⟨YamlScan.scan_inv, YamlScan.scan_of⟩

/-- A text spells one document at most. -/
theorem C101_unique (s : Str) (r r' : Option YNode) (h : YmlDoc s r) (h' : YmlDoc s r') : r = r' := by
  have := (C101_read s r).2 h
  rw [(C101_read s r').2 h'] at this
  cases this
  rfl

/-- The same for the library, whatever it does elsewhere. -/
theorem C101_library (other : YamlReader) (s : Str) (r : Option YNode) (h : YmlDoc s r) : yamlWith other s = some r := by
  unfold yamlWith
  rw [(C101_read s r).2 h]

/-- A config from its text: it is accepted exactly if the tree has the shape, and then it is what the tree says. -/
theorem C101_config (other : YamlReader) (s : Str) (n : YNode) (h : YmlDoc s (some n)) :
    ((configDecode (yamlWith other) s).isSome ↔ ConfigShape n) ∧
    ∀ c, configDecode (yamlWith other) s = some c → ∀ c', ConfigSays n c' ↔ c' = c := by
  have hr := C101_library other s _ h
  refine ⟨C75_config_accepted _ s n hr, fun c hc c' => ?_⟩
  have hs := C75_config_read _ s n hr c hc
  unfold configDecode at hc
  rw [hr] at hc
  exact ⟨fun h' => YamlFile.config_unique hc h', fun e => e ▸ hs⟩

/-- A text with nothing but blank lines and comments is a config that says nothing, a pnpm-lock.yaml and a pubspec.lock without packages. -/
theorem C101_nothing (other : YamlReader) (nine : Str → Option Bool)
    (iter : SMap (Str × PubspecDescription) → SMap (Str × PubspecDescription)) (s : Str) (h : YmlDoc s none) :
    configDecode (yamlWith other) s = some {} ∧ pnpmDecode nine (yamlWith other) s = some none ∧
    parsePubspecLock (pubspecDecode (yamlWith other)) iter (some s) = some ([], false) := by
  have hr := C101_library other s _ h
  exact ⟨(C75_config_nothing _ s).1 hr, (C75_pnpm_nothing nine _ s).2 (.inl hr), (C75_pubspec_nothing _ iter s).1 hr⟩

/-- A document in the grammar is a mapping or a sequence, so never null. -/
theorem C101_not_null (s : Str) (n : YNode) (h : YmlDoc s (some n)) : ¬ YNull n := by
  rintro ⟨t, rfl⟩
  cases h with
  | some _ _ _ ht => cases ht

/-- A pnpm-lock.yaml from its text. -/
theorem C101_pnpm (other : YamlReader) (nine : Str → Option Bool) (s : Str) (n : YNode) (h : YmlDoc s (some n)) :
    ((pnpmDecode nine (yamlWith other) s).isSome ↔ PnpmShape n ∧ ∃ v, YText n [g!"lockfileVersion"] v ∧ (nine v).isSome) ∧
    ∀ l, pnpmDecode nine (yamlWith other) s = some (some l) → PnpmSays nine n l := by
  have hr := C101_library other s _ h
  refine ⟨C75_pnpm_accepted nine _ s n hr (C101_not_null s n h), fun l hl => ?_⟩
  obtain ⟨n', hn, hs⟩ := C75_pnpm_read nine _ s l hl
  rw [hr] at hn
  cases hn
  exact hs

/-- A pubspec.lock from its text. -/
theorem C101_pubspec (other : YamlReader) (iter : SMap (Str × PubspecDescription) → SMap (Str × PubspecDescription))
    (hi : ∀ l, (iter l).Perm l) (s : Str) (n : YNode) (h : YmlDoc s (some n)) :
    ((∃ ps, parsePubspecLock (pubspecDecode (yamlWith other)) iter (some s) = some (ps, false)) ↔ PubspecShape n) ∧
    ∀ ps, parsePubspecLock (pubspecDecode (yamlWith other)) iter (some s) = some (ps, false) → ∀ p, p ∈ ps ↔ PubspecSays n p := by
  have hr := C101_library other s _ h
  exact ⟨C75_pubspec_accepted _ iter s n hr, fun ps hps p => C75_pubspec_read _ iter hi s n hr ps hps p⟩

/-- Blank lines and comments before a document do not change it. -/
theorem C101_comments (l s : Str) (r : Option YNode) (hl : YmlFullLine l []) (h : YmlDoc s r) : YmlDoc (l ++ '\n' :: s) r := by
  cases h with
  | none h => exact .none (.line hl h)
  | some h hne hb ht => exact .some (.line hl h) hne hb ht

/-! The hypotheses can be met. -/

/-- A pubspec.lock. -/
def C101_sample : Str := g!"# Generated by pub\npackages:\n  shelf:\n    dependency: transitive\n    description:\n      name: shelf # x\n      url: \"https://pub.dev\"\n    version: '1.3.2'\n  flutter: {version: 0.0.0, source: sdk}\n"

example : ∃ n, YmlDoc C101_sample (some n) ∧ YAt n [g!"packages", g!"shelf", g!"description", g!"url"] (.scalar g!"https://pub.dev" false) := by
  have h : YamlScan.scan C101_sample = some (some (.map [(.scalar g!"packages" false, .map [
      (.scalar g!"shelf" false, .map [(.scalar g!"dependency" false, .scalar g!"transitive" false),
        (.scalar g!"description" false, .map [(.scalar g!"name" false, .scalar g!"shelf" false),
          (.scalar g!"url" false, .scalar g!"https://pub.dev" false)]),
        (.scalar g!"version" false, .scalar g!"1.3.2" false)]),
      (.scalar g!"flutter" false, .map [(.scalar g!"version" false, .scalar g!"0.0.0" false),
        (.scalar g!"source" false, .scalar g!"sdk" false)])])])) := by rfl
  have hd := (C101_read _ _).1 h
  have step : ∀ {l : List (YNode × YNode)} {k : Str} {ks : List Str} {v w : YNode}, (.scalar k false, v) ∈ l → YAt v ks w →
      YAt (.map l) (k :: ks) w := fun hm hv => .step ⟨_, rfl, hm⟩ hv
  exact ⟨_, hd, step (.head _) (step (.head _) (step (.tail _ (.head _)) (step (.tail _ (.head _)) (.here _))))⟩

/-- A config in which a sequence is in the column of its key, and a database begins behind its dash. -/
example : ∃ n, YmlDoc g!"ignore:\n- GHSA-1 # no\nextra-databases:\n  - url: https://x.dev/v1\n    type: 'api'\n" (some n) ∧
    ConfigSays n ⟨[g!"GHSA-1"], [{ url := g!"https://x.dev/v1", type := g!"api" }]⟩ := by
  have h : YamlScan.scan g!"ignore:\n- GHSA-1 # no\nextra-databases:\n  - url: https://x.dev/v1\n    type: 'api'\n" = some (some
    (.map [(.scalar g!"ignore" false, .seq [.scalar g!"GHSA-1" false]), (.scalar g!"extra-databases" false, .seq [
      .map [(.scalar g!"url" false, .scalar g!"https://x.dev/v1" false), (.scalar g!"type" false, .scalar g!"api" false)]])])) := by rfl
  have hd := (C101_read _ _).1 h
  exact ⟨_, hd, ((C101_config (fun _ => none) _ _ hd).2 _ rfl _).2 rfl⟩

example : YmlFullLine g!"# comment" [] := by
  refine ⟨.comment (b := []) (by simp [YmlSpaces]), YamlScan.allOk_iff.1 (by decide), by decide, by decide⟩

end Osv
