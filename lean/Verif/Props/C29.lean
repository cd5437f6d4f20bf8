import Verif.Model.ConfigText
import Verif.Lemmas.Json
/-!
# C29 Updating a config preserves everything but the ignores, even across a crash

The crash part is false: the file is truncated before the new text is written, and an empty file is a valid config
without databases and ignores.
-/
namespace Osv

/-- A database entry as a JSON array (a JSON document is a YAML document). -/
def sampleEncodeDB (d : RawDB) : JVal :=
  .arr (.cons (.str d.url) (.cons (.str d.name) (.cons (.str d.type) (.cons (.str d.workingDirectory) .nil))))

def sampleDecodeDB : JVal → Option RawDB
  | .arr (.cons (.str u) (.cons (.str n) (.cons (.str t) (.cons (.str w) .nil)))) => some ⟨u, n, t, w⟩
  | _ => none

def sampleEncodeList {α : Type} (g : α → JVal) : List α → JList
  | [] => .nil
  | x :: xs => .cons (g x) (sampleEncodeList g xs)

def sampleDecodeList {α : Type} (g : JVal → Option α) : JList → Option (List α)
  | .nil => some []
  | .cons v l => match g v, sampleDecodeList g l with
    | some x, some xs => some (x :: xs)
    | _, _ => none

def sampleDecodeStr : JVal → Option Str
  | .str s => some s
  | _ => none

theorem sampleDecodeList_encode {α : Type} (e : α → JVal) (d : JVal → Option α) (h : ∀ x, d (e x) = some x) (l : List α) :
    sampleDecodeList d (sampleEncodeList e l) = some l := by
  induction l with
  | nil => rfl
  | cons x xs ih => simp [sampleEncodeList, sampleDecodeList, h, ih]

theorem sampleEncodeList_ok {α : Type} (e : α → JVal) (h : ∀ x, Json.JOk (e x)) (l : List α) :
    Json.JOkL (sampleEncodeList e l) := by
  induction l with
  | nil => trivial
  | cons x xs ih => exact ⟨h x, ih⟩

def sampleEncode (c : RawConfig) : JVal :=
  .arr (.cons (.arr (sampleEncodeList .str c.ignore)) (.cons (.arr (sampleEncodeList sampleEncodeDB c.databases)) .nil))

def sampleDecode : JVal → Option RawConfig
  | .arr (.cons (.arr a) (.cons (.arr b) .nil)) =>
    match sampleDecodeList sampleDecodeStr a, sampleDecodeList sampleDecodeDB b with
    | some i, some d => some ⟨i, d⟩
    | _, _ => none
  | _ => none

theorem sampleEncode_ok (c : RawConfig) : Json.JOk (sampleEncode c) := by
  refine ⟨sampleEncodeList_ok JVal.str (fun _ => trivial) _, sampleEncodeList_ok sampleEncodeDB (fun d => ?_) _, trivial⟩
  exact ⟨trivial, trivial, trivial, trivial, trivial⟩

/-- A library that satisfies the assumptions. -/
def sampleYaml : YamlCodec where
  encode c := Json.render (sampleEncode c)
  decode s := if s = [] then some {} else (Json.parse s).bind sampleDecode
  roundtrip c := by
    have hne : Json.render (sampleEncode c) ≠ [] := by simp [sampleEncode, Json.render]
    rw [if_neg hne, Json.parse_render _ (sampleEncode_ok c)]
    simp only [Option.bind_some, sampleEncode, sampleDecode]
    rw [sampleDecodeList_encode JVal.str sampleDecodeStr (fun _ => rfl),
      sampleDecodeList_encode sampleEncodeDB sampleDecodeDB (fun _ => rfl)]
  decode_nil := rfl

/-- The full property: at every moment the file holds the old config or the new one. -/
def C29_full (Y : YamlCodec) : Prop :=
  ∀ (text : Str) (ignores : List Str) (content : Str), ContentDuring Y text ignores content →
    Y.decode content = Y.decode text ∨
    ∃ raw, Y.decode text = some raw ∧ Y.decode content = some { raw with ignore := ignores }

/-- An update that is not interrupted changes the ignores and nothing else, or (when the file is not a config or
cannot be opened) nothing at all. -/
theorem C29_update_partial (Y : YamlCodec) (text : Str) (ignores : List Str) (opens : Bool) :
    Y.decode (contentAfter Y text ignores opens) = Y.decode text ∨
    ∃ raw, Y.decode text = some raw ∧ Y.decode (contentAfter Y text ignores opens) = some { raw with ignore := ignores } := by
  unfold contentAfter
  cases h : Y.decode text with
  | none => left; simp [h]
  | some raw =>
    cases opens with
    | false => left; simp [h]
    | true => right; exact ⟨raw, rfl, by simp [Y.roundtrip]⟩

/-- In particular the extra databases are always kept by an update that is not interrupted. -/
theorem C29_databases_partial (Y : YamlCodec) (text : Str) (ignores : List Str) (opens : Bool) (raw raw' : RawConfig)
    (h : Y.decode text = some raw) (h' : Y.decode (contentAfter Y text ignores opens) = some raw') :
    raw'.databases = raw.databases := by
  rcases C29_update_partial Y text ignores opens with e | ⟨r, e1, e2⟩
  · rw [h', h] at e; cases e; rfl
  · rw [h] at e1; cases e1
    rw [h'] at e2; cases e2; rfl

/-- A crash right after the truncation leaves a config without databases and ignores, for every config that has
databases. The full property is false for every YAML library. -/
theorem C29_crash_loses_databases (Y : YamlCodec) (raw : RawConfig) (hd : raw.databases ≠ []) (ignores : List Str) :
    ContentDuring Y (Y.encode raw) ignores [] ∧ Y.decode [] ≠ Y.decode (Y.encode raw) ∧
      Y.decode [] ≠ some { raw with ignore := ignores } := by
  refine ⟨.truncated raw (Y.roundtrip raw), ?_, ?_⟩
  · rw [Y.roundtrip, Y.decode_nil]
    intro h; cases h; exact hd rfl
  · rw [Y.decode_nil]
    intro h
    have := congrArg (fun o => o.map RawConfig.databases) h
    simp only [Option.map_some, Option.some.injEq] at this
    exact hd this.symm

theorem C29_crash_counterexample (Y : YamlCodec) : ¬ C29_full Y := by
  intro h
  obtain ⟨h1, h2, h3⟩ := C29_crash_loses_databases Y { databases := [{ url := g!"https://x" }] } (by simp) []
  rcases h _ _ _ h1 with e | ⟨r, e1, e2⟩
  · exact h2 e
  · rw [Y.roundtrip] at e1; cases e1
    exact h3 e2

/-- The content of an uninterrupted update is among the contents during the update. -/
theorem C29_after_is_reached (Y : YamlCodec) (text : Str) (ignores : List Str) (opens : Bool) :
    ContentDuring Y text ignores (contentAfter Y text ignores opens) := by
  unfold contentAfter
  cases h : Y.decode text with
  | none => exact .before
  | some raw =>
    cases opens with
    | false => exact .before
    | true =>
      have := ContentDuring.writing (ignores := ignores) raw h (Y.encode { raw with ignore := ignores }).length
      rwa [List.take_length] at this

/-- The update used by the command: other files keep their content, and unless the write is torn the config is the old
one or the old one with new ignores. A torn write is the missing part. -/
theorem C29_files_partial (file : Str → ConfigFile) (path : Str) (hp : Path.clean path = path) (ignores : List Str)
    (o : UpdateOutcome) :
    (∀ q, q ≠ path → (updateWithIgnores file path ignores o).1 q = file q) ∧
    ((∀ left, o ≠ .torn left) → (updateWithIgnores file path ignores o).1 path = file path ∨
      ∃ raw, file path = .ok raw ∧ (updateWithIgnores file path ignores o).1 path = .ok { raw with ignore := ignores }) ∧
    ((updateWithIgnores file path ignores o).2 = true ↔ (∃ raw, file path = .ok raw) ∧ o = .complete) := by
  unfold updateWithIgnores loadRaw
  rw [hp]
  cases hf : file path with
  | missing => simp [hf]
  | unreadable => simp [hf]
  | malformed => simp [hf]
  | ok raw =>
    cases o with
    | notOpened => simp [hf]
    | complete => refine ⟨?_, fun _ => Or.inr ⟨raw, rfl, ?_⟩, ?_⟩ <;> simp_all
    | torn left => refine ⟨?_, fun h => absurd rfl (h left), ?_⟩ <;> simp_all

example : Path.clean g!"a/.osv-detector.yml" = g!"a/.osv-detector.yml" := by decide

example : sampleYaml.decode (contentAfter sampleYaml (sampleYaml.encode { ignore := [g!"A"], databases := [{ url := g!"u" }] })
    [g!"B"] true) = some { ignore := [g!"B"], databases := [{ url := g!"u" }] } := by
  simp [contentAfter, sampleYaml.roundtrip]

end Osv
