import Verif.Props.C101
import Verif.Props.C85
import Verif.Lemmas.ConfigYaml
/-!
# C102: a config that was written is read back

The text that an update writes: lines for the ignores and the databases, with every string written in some way on one line, with or
without quotes. It spells the document of C85, whatever the strings and however they are quoted. So what C29 and C85 assume of the
library holds, and with the reader of C101 they are about texts.
-/
namespace Osv
open Str Spec

/-- The text that is written spells the document. -/
theorem C102_written (style : Str → Str) (hs : YmlStyle style) (c : RawConfig) : YmlDoc (writeConfig style c) (some (encodeConfig c)) :=
  YamlScan.doc_config hs c

/-- Every string can be written, in quotes, and without quotes where that is possible. -/
theorem C102_styles : YmlStyle yamlQuoted ∧ ∀ plain, YmlStyle (yamlStyled plain) :=
  ⟨YamlScan.quoted_style, YamlScan.styled_style⟩

/-- The config is read back from the text. -/
theorem C102_read_back (style : Str → Str) (hs : YmlStyle style) (other : YamlReader) (c : RawConfig) :
    configDecode (yamlWith other) (writeConfig style c) = some c := by
  unfold configDecode
  rw [C101_library other _ _ (C102_written style hs c)]
  exact YamlFile.config_encode c

/-- Different configs have different texts. -/
theorem C102_injective (style : Str → Str) (hs : YmlStyle style) (c c' : RawConfig) (h : writeConfig style c = writeConfig style c') :
    c = c' := by
  have h1 := C102_read_back style hs (fun _ => none) c
  rw [h, C102_read_back style hs (fun _ => none) c'] at h1
  cases h1
  rfl

/-- The library with this text is one of those of C85, and so of C29. -/
def yamlLibrary (style : Str → Str) (hs : YmlStyle style) (other : YamlReader) : YamlText where
  read := yamlWith other
  write n := match yamlConfig n with
    | none => []
    | some c => writeConfig style c
  read_write c := by
    rw [YamlFile.config_encode]
    exact C101_library other _ _ (C102_written style hs c)
  read_nil := C101_library other _ _ (.none (.last ⟨.blank (by simp [YmlSpaces]), by simp, by decide, by decide⟩))

/-- An update of a text: the new text is the one of the old config with the new ignores. -/
theorem C102_update (style : Str → Str) (hs : YmlStyle style) (other : YamlReader) (text : Str) (n : YNode) (h : YmlDoc text (some n))
    (hn : ConfigShape n) (c : RawConfig) (hc : ConfigSays n c) (ignores : List Str) :
    updatedText (yamlLibrary style hs other) text ignores = some (writeConfig style { c with ignore := ignores }) := by
  obtain ⟨h1, h2⟩ := C101_config other text n h
  obtain ⟨c0, h0⟩ := Option.isSome_iff_exists.1 (h1.2 hn)
  have := (h2 c0 h0 c).1 hc
  subst this
  unfold updatedText
  show (configDecode (yamlWith other) text).map _ = _
  rw [h0, Option.map_some]
  show some (match yamlConfig (encodeConfig { c with ignore := ignores }) with
    | none => []
    | some c => writeConfig style c) = _
  rw [YamlFile.config_encode]

/-- The same on the disk: after the update the file is a config with the new ignores and the old databases. -/
theorem C102_file (style : Str → Str) (hs : YmlStyle style) (other : YamlReader) (file : Str → Option (Option Str)) (path text : Str)
    (ht : file path = some (some text)) (n : YNode) (h : YmlDoc text (some n)) (hn : ConfigShape n) (c : RawConfig) (hc : ConfigSays n c)
    (ignores : List Str) :
    (updateFiles (yamlLibrary style hs other) file path ignores .all).2 = true ∧
    configFiles (yamlWith other) (updateFiles (yamlLibrary style hs other) file path ignores .all).1 path =
      .ok { c with ignore := ignores } := by
  unfold updateFiles
  rw [ht]
  dsimp only
  rw [C102_update style hs other text n h hn c hc ignores]
  refine ⟨rfl, ?_⟩
  unfold configFiles
  dsimp only [setFile]
  rw [if_pos rfl]
  dsimp only
  rw [C102_read_back style hs other]

/-! The hypotheses can be met. -/

example : writeConfig (yamlStyled fun _ => true) ⟨[g!"GHSA-1", g!"~", g!"a: b", g!"x\ny"], [{ url := g!"https://x.dev", name := g!"x" }]⟩ =
    g!"ignore:\n  - GHSA-1\n  - \"~\"\n  - \"a: b\"\n  - \"x\\U0000000ay\"\nextra-databases:\n  - url: https://x.dev\n    name: x\n" := by rfl

example : ∃ n, YmlDoc g!"ignore: [a]\n" (some n) ∧ ConfigShape n ∧ ConfigSays n ⟨[g!"a"], []⟩ := by
  have h : YamlScan.scan g!"ignore: [a]\n" = some (some (.map [(.scalar g!"ignore" false, .seq [.scalar g!"a" false])])) := by rfl
  have hd := (C101_read _ _).1 h
  exact ⟨_, hd, (C101_config (fun _ => none) _ _ hd).1.1 rfl, ((C101_config (fun _ => none) _ _ hd).2 _ rfl _).2 rfl⟩

end Osv
