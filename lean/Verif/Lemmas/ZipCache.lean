import Verif.Model.ZipCache
import Verif.Lemmas.Json
namespace Osv

theorem toJson_ok (c : Cache) : Json.JOk c.toJson := by
  simp [Cache.toJson, Json.JOk, Json.JOkM]

/-- Decoding an encoded cache. -/
theorem decode_encodeCache (c : Option Cache) : decodeCache (encodeCache c) = c := by
  cases c with
  | none => decide
  | some c =>
    rw [encodeCache, decodeCache, Json.parse_render _ (toJson_ok c)]
    simp only [Cache.toJson, JMembers.toList, List.foldl_cons, List.foldl_nil]
    have h1 : (Json.fieldOf cacheFields g!"url").getD [] = g!"url" := by decide
    have h2 : (Json.fieldOf cacheFields g!"etag").getD [] = g!"etag" := by decide
    have h3 : (Json.fieldOf cacheFields g!"date").getD [] = g!"date" := by decide
    have h4 : (Json.fieldOf cacheFields g!"body").getD [] = g!"body" := by decide
    simp [Cache.setField, h1, h2, h3, h4, Base64.decode_encode]

/-- A proper prefix of an encoded cache is no JSON text. -/
theorem parse_torn (c : Option Cache) (k : Nat) : Json.parse ((encodeCache c).dropLast.take k) = none := by
  cases c with
  | none =>
    match k with
    | 0 => rfl
    | 1 => rfl
    | 2 => rfl
    | k + 3 =>
      have : (encodeCache none).dropLast.take (k + 3) = g!"nul" := by simp [encodeCache]
      rw [this]; rfl
  | some c =>
    have hlast : ∃ q, Json.render c.toJson = '{' :: q ++ ['}'] := by
      refine ⟨?_, ?_⟩
      rotate_left
      · simp only [Cache.toJson, Json.render, Json.renderMembers]
        simp only [← List.cons_append, ← List.append_assoc]
        rfl
    obtain ⟨q, hq⟩ := hlast
    have hp := Json.parse_render _ (toJson_ok c)
    rw [encodeCache]
    rw [hq] at hp ⊢
    have hd : ('{' :: q ++ ['}']).dropLast = '{' :: q := by
      rw [List.dropLast_concat]
    rw [hd]
    refine Json.parse_proper_prefix (s := '{' :: q ++ ['}']) (c := '{') (q := q ++ ['}']) (v := c.toJson)
      ?_ (.inl rfl) hp ⟨('{' :: q).drop k ++ ['}'], by simp, ?_⟩ ?_
    · rw [List.cons_append]; exact Json.skipWs_cons _ (by decide)
    · rw [← List.append_assoc, List.take_append_drop]
    · rw [List.reverse_append, List.reverse_singleton, List.singleton_append]
      exact Json.skipWs_cons _ (by decide)

/-- A proper prefix of an encoded cache decodes to nothing. -/
theorem decode_torn (c : Option Cache) (k : Nat) : decodeCache ((encodeCache c).dropLast.take k) = none := by
  rw [decodeCache, parse_torn]

/-- What the file at `p` decodes to. -/
def cacheAt (fs : CacheFS) (p : Str) : Option Cache := (fs p).bind decodeCache

theorem readCache_true (fs : CacheFS) (p : Str) : readCache fs p true = cacheAt fs p := rfl

theorem readCache_or (fs : CacheFS) (p : Str) (b : Bool) :
    readCache fs p b = none ∨ readCache fs p b = cacheAt fs p := by
  cases b
  · exact .inl rfl
  · exact .inr rfl

theorem cacheAt_write (fs : CacheFS) (p q : Str) (c : Option Cache) (w : WriteOutcome) :
    cacheAt (writeFile fs p (encodeCache c) w) q =
      if q = p then (match w with | .complete => c | .untouched => cacheAt fs q | .torn _ => none)
      else cacheAt fs q := by
  unfold cacheAt
  cases w with
  | complete =>
    simp only [writeFile]
    split <;> simp [decode_encodeCache]
  | untouched => simp [writeFile]
  | torn k =>
    simp only [writeFile]
    split <;> simp [decode_torn]

end Osv
