import Verif.Lemmas.ConfigWrite
import Verif.Spec.ConfigWrite
import Verif.Props.C29
import Verif.Lemmas.ReportJson
/-!
# C85: updating a config rewrites the document

An update of the ignores reads the document, and writes a new one with the databases it found and the new ignores. What the config says
is kept apart from the ignores. Everything else in the document is lost: keys that the command does not know. The library only has to
read back the trees that it wrote; the encoding of the struct is part of the model.
-/
namespace Osv
open Str Spec

/-- The full property: the new document has the text of the old one everywhere but in the ignores. -/
def C85_full : Prop :=
  ∀ (Y : YamlText) (text new : Str) (ignores : List Str) (n n' : YNode), Y.read text = some (some n) →
    updatedText Y text ignores = some new → Y.read new = some (some n') → SameElsewhere n n'

/-- What is written is a config, which says what the struct holds, and nothing else. -/
theorem C85_encode (c : RawConfig) : ConfigShape (encodeConfig c) ∧ OnlyConfig (encodeConfig c) ∧
    ∀ c', ConfigSays (encodeConfig c) c' ↔ c' = c := by
  have h := YamlFile.config_encode c
  refine ⟨(YamlFile.config_isSome _).1 (by rw [h]; rfl), ⟨⟨_, rfl, ?_⟩, ?_⟩, fun c' => ⟨YamlFile.config_unique h, ?_⟩⟩
  · intro e he
    rcases List.mem_cons.1 he with rfl | he
    · exact ⟨_, by simp, rfl⟩
    · split at he
      · cases he
      · rw [List.mem_singleton] at he
        subst he
        exact ⟨_, by simp, rfl⟩
  · intro l hl d hd
    cases hl with
    | step he ha =>
      rw [Yaml.at_nil] at ha
      subst ha
      obtain ⟨es, e, hm⟩ := he
      cases e
      rcases List.mem_cons.1 hm with hm | hm
      · cases hm
      · split at hm
        · cases hm
        · rw [List.mem_singleton] at hm
          cases hm
          obtain ⟨db, _, rfl⟩ := List.mem_map.1 hd
          refine ⟨_, rfl, ?_⟩
          have opt : ∀ (k s : Str) (e : YNode × YNode), e ∈ yamlOpt k s → e.1 = .scalar k false := by
            intro k s e he
            unfold yamlOpt at he
            split at he
            · cases he
            · rw [List.mem_singleton] at he
              subst he
              rfl
          intro e he
          simp only [List.mem_cons, List.mem_append] at he
          rcases he with rfl | he | he | he
          · exact ⟨_, by simp, rfl⟩
          · exact ⟨_, by simp, opt _ _ _ he⟩
          · exact ⟨_, by simp, opt _ _ _ he⟩
          · exact ⟨_, by simp, opt _ _ _ he⟩
  · rintro rfl
    exact YamlFile.config_says h

/-- A config is rewritten: the new document is a config, says the same apart from the ignores, and holds nothing else. -/
theorem C85_partial (Y : YamlText) (text : Str) (ignores : List Str) (n : YNode) (hr : Y.read text = some (some n)) (hs : ConfigShape n)
    (c : RawConfig) (hc : ConfigSays n c) :
    ∃ new n', updatedText Y text ignores = some new ∧ Y.read new = some (some n') ∧ ConfigShape n' ∧ OnlyConfig n' ∧
      ∀ c', ConfigSays n' c' ↔ c' = { c with ignore := ignores } := by
  obtain ⟨c0, h0⟩ := Option.isSome_iff_exists.1 ((YamlFile.config_isSome n).2 hs)
  cases YamlFile.config_unique h0 hc
  refine ⟨Y.write (encodeConfig { c with ignore := ignores }), _, ?_, Y.read_write _, C85_encode _⟩
  simp [updatedText, configDecode, hr, h0]

/-- A file without a document becomes one with the ignores; a text that is not a config is not touched. -/
theorem C85_nothing (Y : YamlText) (text : Str) (ignores : List Str) :
    (Y.read text = some none → updatedText Y text ignores = some (Y.write (encodeConfig { ignore := ignores }))) ∧
    (updatedText Y text ignores = none ↔ Y.read text = none ∨ ∃ n, Y.read text = some (some n) ∧ ¬ ConfigShape n) := by
  constructor
  · intro h
    simp [updatedText, configDecode, h]
  · unfold updatedText configDecode
    match h : Y.read text with
    | none => simp
    | some none => simp
    | some (some n) =>
      have := YamlFile.config_isSome n
      cases hy : yamlConfig n with
      | none =>
        rw [hy] at this
        simp only [Option.isSome_none, Bool.false_eq_true, false_iff] at this
        simp [hy, this]
      | some c =>
        rw [hy] at this
        simp only [Option.isSome_some, true_iff] at this
        simp [hy, this]

/-- A second update with the same ignores does not change the text, and only the last of several updates counts. -/
theorem C85_again (Y : YamlText) (text new : Str) (first second : List Str) (h : updatedText Y text first = some new) :
    updatedText Y new second = updatedText Y text second ∧ updatedText Y new first = some new := by
  obtain ⟨raw, hd, rfl⟩ := Option.map_eq_some_iff.1 h
  have : ∀ ignores, updatedText Y (Y.write (encodeConfig { raw with ignore := first })) ignores =
      some (Y.write (encodeConfig { raw with ignore := ignores })) := by
    intro ignores
    simp [updatedText, YamlFile.decode_write]
  rw [this, this]
  exact ⟨by simp [updatedText, hd], rfl⟩

/-- The library with the encoding of the struct is one of the libraries of C29. -/
def YamlText.codec (Y : YamlText) : YamlCodec where
  encode c := Y.write (encodeConfig c)
  decode := configDecode Y.read
  roundtrip c := YamlFile.decode_write Y c
  decode_nil := by
    unfold configDecode
    rw [Y.read_nil]

/-- The update of the texts is the one of C29. -/
theorem C85_codec (Y : YamlText) (text : Str) (ignores : List Str) :
    contentAfter Y.codec text ignores true = (updatedText Y text ignores).getD text := by
  unfold contentAfter updatedText
  show (match configDecode Y.read text with | none => _ | some raw => _) = _
  cases configDecode Y.read text <;> rfl

/-- How far the update of the texts got, as an outcome of the update of the configs. -/
def C85_outcome (Y : YamlText) (text : Str) (ignores : List Str) : WriteProgress → UpdateOutcome
  | .notOpened => .notOpened
  | .all => .complete
  | .wrote n => .torn (match (updatedText Y text ignores).map (·.take n) with
    | none => .malformed
    | some t => match configDecode Y.read t with
      | none => .malformed
      | some raw => .ok raw)

/-- The files of the disk, read as configs, change as in the rest of the model: the update of texts refines the update of configs, also
when it stops half way. -/
theorem C85_refines (Y : YamlText) (file : Str → Option (Option Str)) (path : Str) (hp : Path.clean path = path) (text : Str)
    (ht : file path = some (some text)) (ignores : List Str) (o : WriteProgress) :
    configFiles Y.read (updateFiles Y file path ignores o).1 =
      (updateWithIgnores (configFiles Y.read file) path ignores (C85_outcome Y text ignores o)).1 ∧
    (updateFiles Y file path ignores o).2 =
      (updateWithIgnores (configFiles Y.read file) path ignores (C85_outcome Y text ignores o)).2 := by
  have hset : ∀ t, configFiles Y.read (setFile file path t) = fun q => if q = path then
      (match configDecode Y.read t with | none => .malformed | some raw => .ok raw) else configFiles Y.read file q := by
    intro t
    funext q
    unfold configFiles setFile
    by_cases hq : q = path
    · simp only [hq, if_true]
      cases configDecode Y.read t <;> rfl
    · simp [hq]
  unfold updateFiles updateWithIgnores loadRaw
  rw [hp]
  cases hd : configDecode Y.read text with
  | none => simp [ht, configFiles, updatedText, hd]
  | some raw =>
    have hf : configFiles Y.read file path = .ok raw := by simp [configFiles, ht, hd]
    have hu : updatedText Y text ignores = some (Y.write (encodeConfig { raw with ignore := ignores })) := by simp [updatedText, hd]
    simp only [ht, hf, hu]
    cases o with
    | notOpened => exact ⟨rfl, rfl⟩
    | all =>
      refine ⟨?_, rfl⟩
      show configFiles Y.read (setFile file path _) = _
      rw [hset, YamlFile.decode_write]
      rfl
    | wrote k =>
      refine ⟨?_, rfl⟩
      show configFiles Y.read (setFile file path _) = _
      rw [hset]
      simp only [C85_outcome, hu, Option.map_some]

/-- If there is no file that can be read, nothing happens in either. -/
theorem C85_refines_none (Y : YamlText) (file : Str → Option (Option Str)) (path : Str) (hp : Path.clean path = path)
    (ht : ∀ text, file path ≠ some (some text)) (ignores : List Str) (o : WriteProgress) (o' : UpdateOutcome) :
    updateFiles Y file path ignores o = (file, false) ∧
    updateWithIgnores (configFiles Y.read file) path ignores o' = (configFiles Y.read file, false) := by
  unfold updateFiles updateWithIgnores loadRaw
  rw [hp]
  match h : file path with
  | none => simp [configFiles, h]
  | some none => simp [configFiles, h]
  | some (some t) => exact absurd h (ht t)

/-! A library: JSON texts are YAML texts. -/

mutual
def C85_node : JVal → YNode
  | .null => .scalar g!"null" true
  | .bool b => .scalar (if b then g!"true" else g!"false") false
  | .num s => .scalar s false
  | .str s => .scalar s false
  | .arr l => .seq (C85_nodes l)
  | .obj m => .map (C85_entries m)
def C85_nodes : JList → List YNode
  | .nil => []
  | .cons v l => C85_node v :: C85_nodes l
def C85_entries : JMembers → List (YNode × YNode)
  | .nil => []
  | .cons k v m => (.scalar k false, C85_node v) :: C85_entries m
end

def C85_jsonDB (d : RawDB) : JVal :=
  Json.jobj ((g!"url", .str d.url) :: (Json.textIf g!"name" d.name ++ (Json.textIf g!"type" d.type ++
    Json.textIf g!"working-directory" d.workingDirectory)))

def C85_json (c : RawConfig) : JVal :=
  Json.jobj ((g!"ignore", Json.jarr (c.ignore.map .str)) ::
    (if c.databases = [] then [] else [(g!"extra-databases", Json.jarr (c.databases.map C85_jsonDB))]))

theorem C85_sample_nodes {α : Type} (f : α → JVal) (g : α → YNode) (h : ∀ a, C85_node (f a) = g a) (l : List α) :
    C85_nodes (.ofList (l.map f)) = l.map g := by
  induction l with
  | nil => rfl
  | cons a l ih => simp [JList.ofList, C85_nodes, h, ih]

theorem C85_sample_db (d : RawDB) : C85_node (C85_jsonDB d) = encodeRawDB d := by
  obtain ⟨u, n, t, w⟩ := d
  unfold C85_jsonDB encodeRawDB yamlOpt Json.textIf Json.jobj
  by_cases hn : n = [] <;> by_cases ht : t = [] <;> by_cases hw : w = [] <;>
    simp [hn, ht, hw, JMembers.ofList, C85_node, C85_entries, yamlStr]

theorem C85_sample_node (c : RawConfig) : C85_node (C85_json c) = encodeConfig c := by
  unfold C85_json encodeConfig Json.jobj Json.jarr
  by_cases h : c.databases = []
  · simp only [h, if_true, JMembers.ofList, C85_node, C85_entries, yamlStr,
      C85_sample_nodes JVal.str yamlStr (fun _ => by simp [C85_node, yamlStr])]
  · simp only [h, if_false, JMembers.ofList, C85_node, C85_entries, yamlStr,
      C85_sample_nodes JVal.str yamlStr (fun _ => by simp [C85_node, yamlStr]), C85_sample_nodes C85_jsonDB encodeRawDB C85_sample_db]

theorem C85_sample_ok (c : RawConfig) : Json.JOk (C85_json c) := by
  refine Encoded.ok_obj ?_
  intro e he
  rcases List.mem_cons.1 he with rfl | he
  · refine Encoded.ok_arr fun v hv => ?_
    obtain ⟨s, _, rfl⟩ := List.mem_map.1 hv
    trivial
  · split at he
    · cases he
    · rw [List.mem_singleton] at he
      subst he
      refine Encoded.ok_arr fun v hv => ?_
      obtain ⟨d, _, rfl⟩ := List.mem_map.1 hv
      refine Encoded.ok_obj ?_
      intro e he
      have opt : ∀ (k s : Str), e ∈ Json.textIf k s → Json.JOk e.2 := by
        intro k s he
        unfold Json.textIf at he
        split at he
        · cases he
        · rw [List.mem_singleton] at he
          subst he
          trivial
      simp only [List.mem_cons, List.mem_append] at he
      rcases he with rfl | he | he | he
      · trivial
      · exact opt _ _ he
      · exact opt _ _ he
      · exact opt _ _ he

def C85_yaml : YamlText where
  read s := if s = [] then some none else (Json.parse s).map fun v => some (C85_node v)
  write n := match yamlConfig n with
    | some c => Json.render (C85_json c)
    | none => []
  read_write c := by
    rw [YamlFile.config_encode]
    have hne : Json.render (C85_json c) ≠ [] := by simp [C85_json, Json.jobj, JMembers.ofList, Json.render]
    simp only [hne, if_false, Json.parse_render _ (C85_sample_ok c), Option.map_some, C85_sample_node]
  read_nil := rfl

def C85_text : Str := g!"{\"ignore\":[\"A\"],\"extra-databases\":[{\"url\":\"https://x\",\"note\":\"n\"}],\"owner\":\"me\"}"

/-- The text of the update. -/
theorem C85_sample_text : updatedText C85_yaml C85_text [g!"B"] =
    some g!"{\"ignore\":[\"B\"],\"extra-databases\":[{\"url\":\"https://x\"}]}" := by decide +kernel

/-- A key that the command does not know is lost. -/
theorem C85_counterexample : ¬ C85_full := by
  intro h
  have := h C85_yaml C85_text _ [g!"B"]
    (.map [(.scalar g!"ignore" false, .seq [.scalar g!"A" false]),
      (.scalar g!"extra-databases" false, .seq [.map [(.scalar g!"url" false, .scalar g!"https://x" false),
        (.scalar g!"note" false, .scalar g!"n" false)]]), (.scalar g!"owner" false, .scalar g!"me" false)])
    (encodeConfig ⟨[g!"B"], [⟨g!"https://x", [], [], []⟩]⟩) (by rfl) C85_sample_text (by rfl)
    g!"owner" [] g!"me" (by decide)
  have h1 := this.1 (.step ⟨_, rfl, by simp⟩ (.here _))
  cases h1 with
  | step he _ =>
    obtain ⟨es, e, hm⟩ := he
    cases e
    rcases List.mem_cons.1 hm with hm | hm
    · have := congrArg (fun x : YNode × YNode => ykey x) hm
      simp [ykey, yamlStr] at this
    · rw [if_neg (by decide), List.mem_singleton] at hm
      have := congrArg (fun x : YNode × YNode => ykey x) hm
      simp [ykey, yamlStr] at this

example : ConfigShape (C85_node (C85_json ⟨[g!"A"], [⟨g!"u", [], [], []⟩]⟩)) := by
  rw [C85_sample_node]
  exact (C85_encode _).1

example : Path.clean g!"a/.osv-detector.yml" = g!"a/.osv-detector.yml" := by decide

end Osv
