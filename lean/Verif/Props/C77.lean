import Verif.Lemmas.Jsonc
import Verif.Model.LockBun
import Verif.Model.LockComposer
import Verif.Model.LockNuGet
import Verif.Model.LockPipenv
import Verif.Model.LockRenv
import Verif.Model.LockNpm
/-!
# C77 Texts of JSON lockfiles

A JSON file is accepted exactly if it is a JSON text, and then it is read as the value that it is a text of. In bun.lock there may
also be comments, and a comma behind the last element or member; they have no influence.
-/
namespace Osv
open Str Spec

/-- A text is read as a value exactly if it is a text of that value by RFC 8259. -/
theorem C77_json (s : Str) (v : JVal) : Json.parse s = some v ↔ JsonDoc v s := ⟨JText.doc_of_parse, JText.parse_doc⟩

/-- No text stands for two values. -/
theorem C77_unambiguous {s : Str} {v w : JVal} (h : JsonDoc v s) (h' : JsonDoc w s) : v = w := by
  rw [← C77_json] at h h'
  rw [h] at h'
  cases h'
  rfl

/-- A text with comments, and with commas behind the last elements and members, is read as the value that it is a text of. -/
theorem C77_jsonc {s : Str} {v : JVal} (h : JsoncDoc v s) : Json.parse (Jsonc.toJSON s) = some v :=
  JText.parse_doc (Jsonc.toJSON_jsonc h)

/-- A text without them is not changed. -/
theorem C77_plain {s : Str} {v : JVal} (h : JsonDoc v s) : Jsonc.toJSON s = s := Jsonc.toJSON_json h

theorem JText.gap_of_blank {g : Str} (h : JBlank g) : JGap g := by
  induction g with
  | nil => exact .nil
  | cons c g ih => exact .space (h c (by simp)) (ih fun x hx => h x (by simp [hx]))

mutual
theorem JText.text_jsonc (v : JVal) (s : Str) (h : JText jsonLayout v s) : JText jsoncLayout v s := by
  match v, h with
  | .null, h => exact h
  | .bool _, h => exact h
  | .num _, h => exact h
  | .str _, h => exact h
  | .arr .nil, ⟨g, hg, e⟩ => exact ⟨g, gap_of_blank hg, e⟩
  | .arr (.cons v l), ⟨g, a, b, hg, ha, hb, e⟩ => exact ⟨g, a, b, gap_of_blank hg, text_jsonc v a ha, elems_jsonc l b hb, e⟩
  | .obj .nil, ⟨g, hg, e⟩ => exact ⟨g, gap_of_blank hg, e⟩
  | .obj (.cons k v m), ⟨g, q, i, j, a, b, hg, hq, hi, hj, ha, hb, e⟩ =>
    exact ⟨g, q, i, j, a, b, gap_of_blank hg, hq, gap_of_blank hi, gap_of_blank hj, text_jsonc v a ha, membs_jsonc m b hb, e⟩
termination_by sizeOf v
theorem JText.elems_jsonc (l : JList) (s : Str) (h : JElems jsonLayout l s) : JElems jsoncLayout l s := by
  match l, h with
  | .nil, ⟨g, hg, e⟩ => exact ⟨g, .inl (gap_of_blank hg), e⟩
  | .cons v l, ⟨f, g, a, b, hf, hg, ha, hb, e⟩ =>
    exact ⟨f, g, a, b, gap_of_blank hf, gap_of_blank hg, text_jsonc v a ha, elems_jsonc l b hb, e⟩
termination_by sizeOf l
theorem JText.membs_jsonc (m : JMembers) (s : Str) (h : JMembs jsonLayout m s) : JMembs jsoncLayout m s := by
  match m, h with
  | .nil, ⟨g, hg, e⟩ => exact ⟨g, .inl (gap_of_blank hg), e⟩
  | .cons k v m, ⟨f, g, q, i, j, a, b, hf, hg, hq, hi, hj, ha, hb, e⟩ =>
    exact ⟨f, g, q, i, j, a, b, gap_of_blank hf, gap_of_blank hg, hq, gap_of_blank hi, gap_of_blank hj, text_jsonc v a ha,
      membs_jsonc m b hb, e⟩
termination_by sizeOf m
end

/-- JSON is JSON with comments. -/
theorem C77_json_jsonc {s : Str} {v : JVal} (h : JsonDoc v s) : JsoncDoc v s := by
  obtain ⟨g, a, i, hg, ha, hi, rfl⟩ := h
  exact ⟨g, a, i, [], JText.gap_of_blank hg, JText.text_jsonc v a ha, JText.gap_of_blank hi, .inl rfl, by simp⟩

/-- bun.lock: comments, white space, commas at the end and the way texts are escaped have no influence on the packages, and nor on
whether there is an error or a panic. -/
theorem C77_bun (isFloat : Str → Bool) (iter : SMap (List JVal) → SMap (List JVal)) {s t : Str} {v : JVal} (hs : JsoncDoc v s)
    (ht : JsoncDoc v t) :
    parseBunLock Jsonc.toJSON isFloat iter (some s) = parseBunLock Jsonc.toJSON isFloat iter (some t) := by
  unfold parseBunLock
  dsimp only
  rw [C77_jsonc hs, C77_jsonc ht]

/-- Other JSON lockfiles: white space and the way texts are escaped have no influence. -/
theorem C77_others {s t : Str} {v : JVal} (hs : JsonDoc v s) (ht : JsonDoc v t) :
    parseComposerLock (some s) = parseComposerLock (some t) ∧
    (∀ i, parseRenvLock i (some s) = parseRenvLock i (some t)) ∧
    (∀ i i' o, parseNpmLock i i' o (some s) = parseNpmLock i i' o (some t)) ∧
    (∀ i i' o, parseNuGetLock i i' o (some s) = parseNuGetLock i i' o (some t)) ∧
    ∀ i o, parsePipenvLock i o (some s) = parsePipenvLock i o (some t) := by
  have e : Json.parse s = Json.parse t := by rw [(C77_json s v).2 hs, (C77_json t v).2 ht]
  refine ⟨?_, fun i => ?_, fun i i' o => ?_, fun i i' o => ?_, fun i o => ?_⟩
  · unfold parseComposerLock; dsimp only; rw [e]
  · unfold parseRenvLock; dsimp only; rw [e]
  · unfold parseNpmLock; dsimp only; rw [e]
  · unfold parseNuGetLock; dsimp only; rw [e]
  · unfold parsePipenvLock; dsimp only; rw [e]

/-- What is no JSON text is an error, in every file that must be one. -/
theorem C77_rejected {s : Str} (h : ∀ v, ¬ JsonDoc v s) :
    parseComposerLock (some s) = some ([], true) ∧
    (∀ i, parseRenvLock i (some s) = some ([], true)) ∧
    (∀ i i' o, parseNpmLock i i' o (some s) = some ([], true)) ∧
    (∀ i i' o, parseNuGetLock i i' o (some s) = some ([], true)) ∧
    ∀ i o, parsePipenvLock i o (some s) = some ([], true) := by
  have e : Json.parse s = none := by
    cases hp : Json.parse s with
    | none => rfl
    | some v => exact absurd ((C77_json s v).1 hp) (h v)
  refine ⟨?_, fun i => ?_, fun i i' o => ?_, fun i i' o => ?_, fun i o => ?_⟩
  · unfold parseComposerLock; dsimp only; rw [e]; rfl
  · unfold parseRenvLock; dsimp only; rw [e]; rfl
  · unfold parseNpmLock; dsimp only; rw [e]; rfl
  · unfold parseNuGetLock; dsimp only; rw [e]; rfl
  · unfold parsePipenvLock; dsimp only; rw [e]; rfl

/-! ### Non-vacuity -/

/-- A text with all of it. -/
def sampleJsonc : Str := g!"/* lock */ {\"packages\": {\"a\": [\"a@1\", // \"b@1\"\n],},} // end"

example : JsoncDoc (.obj (.cons g!"packages" (.obj (.cons g!"a" (.arr (.cons (.str g!"a@1") .nil)) .nil)) .nil)) sampleJsonc := by
  have hs : ∀ t : Str, (∀ c ∈ t, c ≠ '"' ∧ c ≠ '\\' ∧ 0x20 ≤ c.toNat) → JString t ('"' :: (t ++ ['"'])) := by
    intro t ht
    refine ⟨t, ?_, rfl⟩
    induction t with
    | nil => exact .nil
    | cons c t ih =>
      have := ht c (by simp)
      exact .plain this.1 this.2.1 this.2.2 (ih fun x hx => ht x (by simp [hx]))
  have sp : JGap g!" " := .space (.inl rfl) .nil
  refine ⟨g!"/* lock */ ", g!"{\"packages\": {\"a\": [\"a@1\", // \"b@1\"\n],},}", g!" ", g!"// end",
    .block (t := g!" lock ") (by decide) sp, ?_, sp, .inr ⟨g!" end", by decide, rfl⟩, rfl⟩
  refine ⟨[], g!"\"packages\"", [], g!" ", g!"{\"a\": [\"a@1\", // \"b@1\"\n],}", g!",}", .nil, hs g!"packages" (by decide), .nil, sp, ?_,
    ⟨g!",", .inr ⟨[], [], .nil, .nil, rfl⟩, rfl⟩, rfl⟩
  refine ⟨[], g!"\"a\"", [], g!" ", g!"[\"a@1\", // \"b@1\"\n]", g!",}", .nil, hs g!"a" (by decide), .nil, sp, ?_,
    ⟨g!",", .inr ⟨[], [], .nil, .nil, rfl⟩, rfl⟩, rfl⟩
  exact ⟨[], g!"\"a@1\"", g!", // \"b@1\"\n]", .nil, hs g!"a@1" (by decide),
    ⟨g!", // \"b@1\"\n", .inr ⟨[], _, .nil, .space (.inl rfl) (.line (t := g!" \"b@1\"") (by decide) .nil), rfl⟩, rfl⟩, rfl⟩

example : parseBunLock Jsonc.toJSON (fun _ => true) id (some sampleJsonc) =
    some ([⟨g!"a", g!"1", [], g!"npm", g!"npm"⟩], false) := by decide +kernel

/-- Without the conversion the text would be rejected. -/
example : Json.parse sampleJsonc = none := by decide +kernel

/-- A text with escapes, among them both halves of a surrogate pair and one half without the other. -/
example : JsonDoc (.str [Char.ofNat 0x1F600, '�', '/']) g!" \"\\ud83d\\uDE00\\ud83d\\/\"\n" := by
  rw [← C77_json]
  have h : (match Json.parse g!" \"\\ud83d\\uDE00\\ud83d\\/\"\n" with
    | some (.str t) => decide (t = [Char.ofNat 0x1F600, '�', '/']) | _ => false) = true := by decide +kernel
  split at h
  · rename_i t e; rw [e, of_decide_eq_true h]
  · cases h

end Osv
