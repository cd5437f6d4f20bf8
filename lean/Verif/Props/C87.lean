import Verif.Lemmas.CacheFile
import Verif.Props.C82
/-!
# C87 The file of a cached archive

What is in the file after an archive was cached, and what any file there is taken for.
-/
namespace Osv
open Spec Json

/-- Base64 reads exactly the texts that spell the bytes. -/
theorem C87_base64_read (s : Str) (b : Bytes) : Base64.decode s = some b ↔ Base64Text s b := Base64.decode_iff s b

/-- Base64 writes a text that spells the bytes, without line breaks and without other bits than zeros at the end. There is only one such
text. -/
theorem C87_base64_written (b : Bytes) (s : Str) : Base64.encode b = s ↔ ∃ k, Spells s b (List.replicate k false) := by
  constructor
  · rintro rfl
    obtain ⟨k, h⟩ := Base64.encode_spells b
    exact ⟨2 * k, h⟩
  · rintro ⟨k, h⟩
    obtain ⟨k', h'⟩ := Base64.encode_spells b
    exact Base64.spells_unique h' h

/-- A cached archive is written as a JSON object with these members, in this order, and without white space. -/
theorem C87_written (c : Cache) : encodeCache (some c) = render (jobj [(g!"url", .str c.url), (g!"etag", .str c.etag),
    (g!"date", .str c.date), (g!"body", .str (Base64.encode c.body))]) := rfl

/-- What is written is a JSON document of that object. -/
theorem C87_document (c : Cache) : JsonDoc (jobj [(g!"url", .str c.url), (g!"etag", .str c.etag),
    (g!"date", .str c.date), (g!"body", .str (Base64.encode c.body))]) (encodeCache (some c)) :=
  JText.doc_of_parse (parse_render _ (toJson_ok c))

/-- An object is read as the cached archive that it describes, also if somebody else wrote it. -/
theorem C87_read (text : Str) (m : JMembers) (h : parse text = some (.obj m))
    (hp : PlainKeys [g!"url", g!"etag", g!"date", g!"body"] m) (c : Cache) : decodeCache text = some c ↔ CacheSays m c := by
  have hs := CacheFile.says m hp fun lit hn => CacheFile.parsed_numbers h hn
  unfold decodeCache
  rw [h]
  dsimp only
  rw [Option.some.injEq]
  constructor
  · rintro rfl
    exact hs
  · exact CacheFile.says_unique hp.1 hs

/-- Text that is no JSON, and `null`, count as no cache. Anything else that is no object counts as a cached archive without content. -/
theorem C87_other (text : Str) :
    (decodeCache text = none ↔ parse text = none ∨ parse text = some .null) ∧
    (∀ v, parse text = some v → v ≠ .null → (∀ m, v ≠ .obj m) → decodeCache text = some {}) := by
  unfold decodeCache
  constructor
  · cases hv : parse text with
    | none => simp
    | some v => cases v <;> simp
  · intro v hv h1 h2
    rw [hv]
    cases v with
    | null => exact absurd rfl h1
    | obj m => exact absurd rfl (h2 m)
    | _ => rfl

/-- The message about the file appears exactly if it is not an object whose values have the right types, and not `null`. -/
theorem C87_message (text : Str) (hp : ∀ m, parse text = some (.obj m) → PlainKeys [g!"url", g!"etag", g!"date", g!"body"] m) :
    cacheErr text = false ↔ parse text = some .null ∨ ∃ m, parse text = some (.obj m) ∧ CacheShape m := by
  unfold cacheErr
  cases hv : parse text with
  | none => simp
  | some v =>
    cases v with
    | obj m =>
      dsimp only
      rw [CacheFile.shape m (hp m hv) fun lit hn => CacheFile.parsed_numbers hv hn]
      simp
    | _ => simp

/-- Offline, the archive of a database is what the file at its place says, whoever wrote it. -/
theorem C87_offline (path : Str → Str) (fs : CacheFS) (r : ZipRun) (text : Str) (m : JMembers) (c : Cache) (hoff : r.offline = true)
    (hr : r.readable = true) (hf : fs (path r.url) = some text) (h : parse text = some (.obj m))
    (hp : PlainKeys [g!"url", g!"etag", g!"date", g!"body"] m) (hc : CacheSays m c) :
    (fetchZip path fs r).result = .ok c.body c.date := by
  have hd := (C87_read text m h hp c).2 hc
  have : readCache fs (path r.url) r.readable = some c := by
    rw [hr, readCache_true, cacheAt, hf]
    exact hd
  unfold fetchZip
  simp [hoff, this]

/-- Online, the same: it is asked with the ETag and the date in the file, and if nothing has changed, what it says is used. -/
theorem C87_unchanged (path : Str → Str) (fs : CacheFS) (r : ZipRun) (text : Str) (m : JMembers) (c : Cache) (e d : Str)
    (b : Option Bytes) (hoff : r.offline = false) (hu : r.urlOk = true) (hr : r.readable = true) (hf : fs (path r.url) = some text)
    (h : parse text = some (.obj m)) (hp : PlainKeys [g!"url", g!"etag", g!"date", g!"body"] m) (hc : CacheSays m c)
    (hrep : r.reply = .resp 304 e d b) :
    (fetchZip path fs r).sent = some (some (c.etag, c.date)) ∧ (fetchZip path fs r).result = .ok c.body c.date := by
  have hd := (C87_read text m h hp c).2 hc
  have : readCache fs (path r.url) r.readable = some c := by
    rw [hr, readCache_true, cacheAt, hf]
    exact hd
  unfold fetchZip
  simp [hoff, hu, this, hrep]

/-! ### Non-vacuity -/

example : Base64Text g!"AQID+g==" [1, 2, 3, 250] := (C87_base64_read _ _).1 (by decide)
/-- The bits that remain do not count when reading. -/
example : Base64Text g!"AQID+v==" [1, 2, 3, 250] ∧ Base64.encode [1, 2, 3, 250] = g!"AQID+g==" :=
  ⟨(C87_base64_read _ _).1 (by decide), by decide⟩
/-- A file that somebody else wrote. -/
example : decodeCache g!"{\"body\": [1, 255, 256, \"x\", null], \"date\": 5, \"etag\": \"e\"}" = some ⟨[], g!"e", [], [1, 255, 0, 0, 0]⟩ ∧
    cacheErr g!"{\"body\": [1, 255, 256, \"x\", null], \"date\": 5, \"etag\": \"e\"}" = true := by decide +kernel

end Osv
