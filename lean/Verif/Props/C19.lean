import Verif.Props.C18
/-!
# C19 A crash while writing the zip cache never corrupts later results
-/
namespace Osv
open Spec

/-- **C19** (crash). Whatever was in the file system, if a run is cut short at any point while writing the
cache, every later load finds no cache: offline it fails, online it asks unconditionally and returns what the
server sends. -/
theorem C19_crash (path : Str → Str) (fs : CacheFS) (r later : ZipRun) (k : Nat) (e d : Str) (b : Bytes)
    (hoff : r.offline = false) (hok : r.urlOk = true) (hr : r.reply = .resp 200 e d (some b))
    (hw : r.write = .torn k) (hu : later.url = r.url) :
    let fs' := (fetchZip path fs r).fs
    (later.offline = true → (fetchZip path fs' later).result = .error .offlineNotFound) ∧
    (later.offline = false → later.urlOk = true → (fetchZip path fs' later).sent = some none) ∧
    (∀ e' d' b', later.offline = false → later.urlOk = true → later.reply = .resp 200 e' d' (some b') →
      (fetchZip path fs' later).result = .ok b' d') := by
  intro fs'
  have hc : cacheAt fs' (path r.url) = none := by
    rw [cacheAt_run path fs r r.url (fun _ => rfl)]
    have : storesFn r r.url = none := by
      unfold storesFn; rw [if_neg]; rw [hw]; simp
    rw [this]
    rw [if_pos (by rw [hr]; exact ⟨rfl, hoff, hok, rfl⟩), hw]
  have hread : readCache fs' (path later.url) later.readable = none := by
    rw [hu]
    rcases readCache_or fs' (path r.url) later.readable with h | h
    · exact h
    · rw [h, hc]
  refine ⟨?_, ?_, ?_⟩
  · intro ho
    unfold fetchZip
    simp [ho, hread]
  · intro ho hk
    unfold fetchZip
    simp only [ho, hk, hread, Bool.false_eq_true, if_false, Bool.not_true, Option.map_none]
    repeat' split
    all_goals rfl
  · intro e' d' b' ho hk hr'
    exact C18_download path fs' later e' d' b' ho hk hr'

/-- **C19** (prefixes). The file content after a crash is any proper prefix of the new file; none of them is
mistaken for a cache, and the complete file is the new cache. -/
theorem C19_prefix (c : Option Cache) (p rest : Str) (h : encodeCache c = p ++ rest) :
    decodeCache p = if rest = [] then c else none := by
  split
  · rename_i hr
    rw [hr, List.append_nil] at h
    rw [← h, decode_encodeCache]
  · rename_i hr
    have : p = (encodeCache c).dropLast.take p.length := by
      rw [h, List.dropLast_append_of_ne_nil hr, List.take_left']
      rfl
    rw [this, decode_torn]

/-- **C19** (history). With crashes anywhere in the history, a later offline load returns a complete saved
archive or fails; it never returns anything else. -/
theorem C19_history (path : Str → Str) (h : List ZipRun) (r : ZipRun)
    (hpath : ∀ r' ∈ h, path r'.url = path r.url → r'.url = r.url) (hoff : r.offline = true) :
    (fetchZip path (runHistory path (fun _ => none) h) r).result = .error .offlineNotFound ∨
    ∃ r' ∈ h, ∃ c, Stores r' r.url c ∧
      (fetchZip path (runHistory path (fun _ => none) h) r).result = .ok c.body c.date := by
  cases hres : (fetchZip path (runHistory path (fun _ => none) h) r).result with
  | ok body date =>
    right
    obtain ⟨c, hc, rfl, rfl⟩ := C18_offline path _ h r body date hpath hoff hres
    rcases hc with ⟨h1, r', h2, rfl, hs, -⟩ | ⟨-, hi⟩
    · exact ⟨r', by simp, c, hs, rfl⟩
    · simp at hi
  | error e =>
    left
    unfold fetchZip at hres
    simp only [hoff, if_true] at hres
    split at hres
    · cases hres; rfl
    · cases hres
  | panic =>
    unfold fetchZip at hres
    simp only [hoff, if_true] at hres
    split at hres <;> cases hres

/-! ### Non-vacuity -/

example : decodeCache ((encodeCache (some ⟨g!"u", g!"e", [], [1, 2, 3]⟩)).take 30) = none := by
  rw [C19_prefix (some ⟨g!"u", g!"e", [], [1, 2, 3]⟩) _ ((encodeCache (some ⟨g!"u", g!"e", [], [1, 2, 3]⟩)).drop 30)
    (List.take_append_drop ..).symm]
  decide
example : (fetchZip id (fetchZip id (fun _ => none) { c18r1 with write := .torn 9 }).fs c18r3).result =
    .error .offlineNotFound :=
  (C19_crash id (fun _ => none) { c18r1 with write := .torn 9 } c18r3 9 g!"e" [] [1, 2, 3, 250] rfl rfl rfl rfl
    rfl).1 rfl

end Osv
