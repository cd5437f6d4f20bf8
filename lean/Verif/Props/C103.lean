import Verif.Props.C102
import Verif.Lemmas.YamlCut
/-!
# C103: what an update that was interrupted leaves

The full claim: whatever the moment at which an update stops, the config is the old one, the new one, or refused when it is loaded. The
code writes over the file, so it does not hold: the texts that are left are configs again, with fewer ignores, without databases, or
with an ignore for another advisory.
-/
namespace Osv
open Str Spec

/-- An update that stops leaves the old config, the new one, or one that is noticed. -/
def C103_full : Prop :=
  ∀ (style : Str → Str) (hs : YmlStyle style) (other : YamlReader) (file : Str → Option (Option Str)) (path text : Str) (n : YNode)
    (c : RawConfig) (ignores : List Str) (o : WriteProgress),
    file path = some (some text) → YmlDoc text (some n) → ConfigShape n → ConfigSays n c →
    let after := configFiles (yamlWith other) (updateFiles (yamlLibrary style hs other) file path ignores o).1 path
    after = .malformed ∨ after = .ok c ∨ after = .ok { c with ignore := ignores }

/-- A beginning of the new text is what an update that stops there leaves. -/
theorem C103_left (style : Str → Str) (hs : YmlStyle style) (other : YamlReader) (file : Str → Option (Option Str)) (path text : Str)
    (ht : file path = some (some text)) (n : YNode) (h : YmlDoc text (some n)) (hn : ConfigShape n) (c : RawConfig) (hc : ConfigSays n c)
    (ignores : List Str) (a b : Str) (hab : writeConfig style { c with ignore := ignores } = a ++ b) :
    ∃ m, (updateFiles (yamlLibrary style hs other) file path ignores (.wrote m)).2 = false ∧
      (updateFiles (yamlLibrary style hs other) file path ignores (.wrote m)).1 path = some (some a) := by
  refine ⟨a.length, ?_⟩
  unfold updateFiles
  rw [ht]
  dsimp only
  rw [C102_update style hs other text n h hn c hc ignores]
  refine ⟨rfl, ?_⟩
  dsimp only [setFile]
  rw [if_pos rfl, hab, List.take_left]

/-- The same, read as a config. -/
theorem C103_load (style : Str → Str) (hs : YmlStyle style) (other : YamlReader) (file : Str → Option (Option Str)) (path text : Str)
    (ht : file path = some (some text)) (n : YNode) (h : YmlDoc text (some n)) (hn : ConfigShape n) (c : RawConfig) (hc : ConfigSays n c)
    (ignores : List Str) (a b : Str) (hab : writeConfig style { c with ignore := ignores } = a ++ b) (c' : RawConfig)
    (ha : YmlDoc a (some (encodeConfig c'))) :
    ∃ m, configFiles (yamlWith other) (updateFiles (yamlLibrary style hs other) file path ignores (.wrote m)).1 path = .ok c' := by
  obtain ⟨m, -, hm⟩ := C103_left style hs other file path text ht n h hn c hc ignores a b hab
  refine ⟨m, ?_⟩
  unfold configFiles
  rw [hm]
  dsimp only
  unfold configDecode
  rw [C101_library other _ _ ha]
  dsimp only
  rw [YamlFile.config_encode]

/-- It can leave the first ignores, however many, without the databases. -/
theorem C103_ignores_partial (style : Str → Str) (hs : YmlStyle style) (other : YamlReader) (file : Str → Option (Option Str))
    (path text : Str) (ht : file path = some (some text)) (n : YNode) (h : YmlDoc text (some n)) (hn : ConfigShape n) (c : RawConfig)
    (hc : ConfigSays n c) (l l' : List Str) (hl : l ≠ []) :
    ∃ m, configFiles (yamlWith other) (updateFiles (yamlLibrary style hs other) file path (l ++ l') (.wrote m)).1 path = .ok ⟨l, []⟩ := by
  obtain ⟨b, hb⟩ := YamlScan.cut_ignores style l l' c.databases hl
  exact C103_load style hs other file path text ht n h hn c hc _ _ b hb _ (C102_written style hs _)

/-- It can leave all ignores and the first databases, however many. -/
theorem C103_databases_partial (style : Str → Str) (hs : YmlStyle style) (other : YamlReader) (file : Str → Option (Option Str))
    (path text : Str) (ht : file path = some (some text)) (n : YNode) (h : YmlDoc text (some n)) (hn : ConfigShape n) (ignores old : List Str)
    (d d' : List RawDB) (hc : ConfigSays n ⟨old, d ++ d'⟩) :
    ∃ m, configFiles (yamlWith other) (updateFiles (yamlLibrary style hs other) file path ignores (.wrote m)).1 path = .ok ⟨ignores, d⟩ := by
  obtain ⟨b, hb⟩ := YamlScan.cut_databases style ignores d d'
  exact C103_load style hs other file path text ht n h hn _ hc _ _ b hb _ (C102_written style hs _)

/-- It can leave an ignore of another advisory, if one without quotes begins with the identifier of the other. -/
theorem C103_other_partial (style : Str → Str) (hs : YmlStyle style) (other : YamlReader) (file : Str → Option (Option Str))
    (path text : Str) (ht : file path = some (some text)) (n : YNode) (h : YmlDoc text (some n)) (hn : ConfigShape n) (c : RawConfig)
    (hc : ConfigSays n c) (l l' : List Str) (p q : Str) (hp : style p = p) (hpq : style (p ++ q) = p ++ q) :
    ∃ m, configFiles (yamlWith other) (updateFiles (yamlLibrary style hs other) file path (l ++ (p ++ q) :: l') (.wrote m)).1 path =
      .ok ⟨l ++ [p], []⟩ := by
  obtain ⟨b, hb⟩ := YamlScan.cut_ignore style l l' p q c.databases hpq
  refine C103_load style hs other file path text ht n h hn c hc _ _ b hb _ (YamlScan.doc_cut ?_)
  exact YamlScan.cut_item style l p hp ▸ C102_written style hs ⟨l ++ [p], []⟩

/-- The rest of the disk is not touched, and nothing is claimed to have been written. -/
theorem C103_elsewhere (Y : YamlText) (file : Str → Option (Option Str)) (path : Str) (ignores : List Str) (m : Nat) :
    (updateFiles Y file path ignores (.wrote m)).2 = false ∧
    ∀ q, q ≠ path → (updateFiles Y file path ignores (.wrote m)).1 q = file q := by
  unfold updateFiles
  split
  · split
    · exact ⟨rfl, fun _ _ => rfl⟩
    · exact ⟨rfl, fun q hq => if_neg hq⟩
  · exact ⟨rfl, fun _ _ => rfl⟩

/-- A config with a database, in text. -/
def C103_sample : Str := g!"extra-databases:\n  - url: https://x.dev\n"

theorem C103_sample_says : ∃ n, YmlDoc C103_sample (some n) ∧ ConfigShape n ∧ ConfigSays n ⟨[], [{ url := g!"https://x.dev" }]⟩ := by
  have h : YamlScan.scan C103_sample = some (some (.map [(.scalar g!"extra-databases" false, .seq [
    .map [(.scalar g!"url" false, .scalar g!"https://x.dev" false)]])])) := by rfl
  have hd := (C101_read _ _).1 h
  exact ⟨_, hd, (C101_config (fun _ => none) _ _ hd).1.1 rfl, ((C101_config (fun _ => none) _ _ hd).2 _ rfl _).2 rfl⟩

/-- The ignores `OSV-12` and `OSV-2` are written, and the process ends. What is left ignores `OSV-1` and has no database. -/
theorem C103_counterexample : ¬ C103_full := by
  intro h
  obtain ⟨n, hd, hn, hc⟩ := C103_sample_says
  obtain ⟨m, hm⟩ := C103_other_partial (yamlStyled fun _ => true) (C102_styles.2 _) (fun _ => none) (fun _ => some (some C103_sample)) []
    C103_sample rfl n hd hn _ hc [] [g!"OSV-2"] g!"OSV-1" g!"2" rfl rfl
  have := h (yamlStyled fun _ => true) (C102_styles.2 _) (fun _ => none) (fun _ => some (some C103_sample)) [] C103_sample n _
    [g!"OSV-12", g!"OSV-2"] (.wrote m) rfl hd hn hc
  dsimp only at this
  rw [show ([g!"OSV-12", g!"OSV-2"] : List Str) = [] ++ (g!"OSV-1" ++ g!"2") :: [g!"OSV-2"] from rfl, hm] at this
  rcases this with e | e | e <;> cases e

end Osv
