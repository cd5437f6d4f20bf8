import Verif.Spec.Cache
import Verif.Lemmas.ZipCache
/-!
# C18 The zip cache returns only what was downloaded
-/
namespace Osv
open Spec

/-- The headers and archive of a complete 200 response. -/
def fullReply : Reply → Option (Str × Str × Bytes)
  | .resp status e d (some b) => if status = 200 then some (e, d, b) else none
  | _ => none

theorem fullReply_iff (r : Reply) (e d : Str) (b : Bytes) :
    fullReply r = some (e, d, b) ↔ r = .resp 200 e d (some b) := by
  constructor
  · intro h
    unfold fullReply at h
    split at h
    · split at h
      · rename_i hs; subst hs; cases h; rfl
      · cases h
    · cases h
  · rintro rfl; rfl

/-- Functional form of `Spec.Stores`. -/
def storesFn (r : ZipRun) (url : Str) : Option Cache :=
  if r.url = url ∧ r.offline = false ∧ r.urlOk = true ∧ r.write = .complete then
    (fullReply r.reply).bind fun x => if x.1 ≠ [] ∨ x.2.1 ≠ [] then some ⟨url, x.1, x.2.1, x.2.2⟩ else none
  else none

theorem storesFn_iff (r : ZipRun) (url : Str) (c : Cache) : storesFn r url = some c ↔ Stores r url c := by
  unfold storesFn Stores
  constructor
  · intro h
    split at h
    · rename_i h1
      rw [Option.bind_eq_some_iff] at h
      obtain ⟨⟨e, d, b⟩, heq, h⟩ := h
      rw [fullReply_iff] at heq
      split at h
      · rename_i h2
        cases h
        exact ⟨h1.1, h1.2.1, h1.2.2.1, h1.2.2.2, h2, rfl, heq⟩
      · cases h
    · cases h
  · rintro ⟨h1, h2, h3, h4, h5, h6, h7⟩
    rw [if_pos ⟨h1, h2, h3, h4⟩, (fullReply_iff ..).2 h7]
    simp only [Option.bind_some]
    rw [if_pos h5, ← h6]

/-- Functional form of `Spec.LastStored`. -/
def lastFn (url : Str) (acc : Option Cache) (h : List ZipRun) : Option Cache :=
  h.foldl (fun acc r => (storesFn r url).or acc) acc

theorem lastFn_iff (url : Str) (h : List ZipRun) (acc : Option Cache) (c : Cache) :
    lastFn url acc h = some c ↔ LastStored acc h url c := by
  induction h generalizing acc with
  | nil => simp [lastFn, LastStored]
  | cons r h ih =>
    have : lastFn url acc (r :: h) = lastFn url ((storesFn r url).or acc) h := rfl
    rw [this, ih]
    unfold LastStored
    constructor
    · rintro (⟨h1, r', h2, rfl, hs, hn⟩ | ⟨hn, hi⟩)
      · exact .inl ⟨r :: h1, r', h2, rfl, hs, hn⟩
      · cases hst : storesFn r url with
        | none =>
          rw [hst, Option.none_or] at hi
          refine .inr ⟨?_, hi⟩
          intro r' hr' c' hc'
          rcases List.mem_cons.1 hr' with rfl | hr'
          · rw [← storesFn_iff, hst] at hc'; cases hc'
          · exact hn r' hr' c' hc'
        | some c0 =>
          rw [hst, Option.some_or] at hi
          cases hi
          exact .inl ⟨[], r, h, rfl, (storesFn_iff ..).1 hst, hn⟩
    · rintro (⟨h1, r', h2, heq, hs, hn⟩ | ⟨hn, hi⟩)
      · cases h1 with
        | nil =>
          cases heq
          exact .inr ⟨hn, by rw [(storesFn_iff ..).2 hs]; rfl⟩
        | cons a h1 =>
          cases heq
          exact .inl ⟨h1, r', h2, rfl, hs, hn⟩
      · refine .inr ⟨fun r' hr' => hn r' (List.mem_cons_of_mem _ hr'), ?_⟩
        cases hst : storesFn r url with
        | none => exact hi
        | some c0 => exact absurd ((storesFn_iff ..).1 hst) (hn r (by simp) c0)

/-- The cache of `url` after one run. -/
theorem cacheAt_run (path : Str → Str) (fs : CacheFS) (r : ZipRun) (url : Str)
    (hpath : path r.url = path url → r.url = url) :
    cacheAt (fetchZip path fs r).fs (path url) =
      match storesFn r url with
      | some c => some c
      | none =>
        if r.url = url ∧ r.offline = false ∧ r.urlOk = true ∧ (fullReply r.reply).isSome = true then
          match r.write with
          | .complete => readCache fs (path url) r.readable
          | .untouched => cacheAt fs (path url)
          | .torn _ => none
        else cacheAt fs (path url) := by
  by_cases hu : r.url = url
  · subst hu
    unfold fetchZip storesFn
    by_cases hoff : r.offline = true
    · rw [hoff]
      simp only [if_true, Bool.true_eq_false, false_and, and_false, if_false]
      split <;> rfl
    have hoff' : r.offline = false := by simpa using hoff
    simp only [hoff', Bool.false_eq_true, if_false]
    by_cases hok : r.urlOk = true
    · simp only [hok, Bool.not_true, Bool.false_eq_true, if_false, true_and]
      cases hr : r.reply with
      | failed => simp [fullReply]
      | resp status etag date body =>
        by_cases h304 : status = 304
        · subst h304
          cases readCache fs (path r.url) r.readable <;> cases body <;> simp [fullReply]
        · by_cases h200 : status = 200
          · subst h200
            cases body with
            | none => simp [fullReply]
            | some b =>
              simp only [h304, if_false, ne_eq, not_true_eq_false, fullReply, if_true, Option.bind_some,
                Option.isSome_some]
              rw [cacheAt_write, if_pos rfl]
              cases hw : r.write with
              | complete =>
                simp only [if_true]
                by_cases hh : etag ≠ [] ∨ date ≠ []
                · rw [if_pos hh, if_pos hh]
                · rw [if_neg hh, if_neg hh]
              | untouched => simp
              | torn k => simp
          · cases body <;> simp [h304, h200, fullReply]
    · have hok' : r.urlOk = false := by simpa using hok
      simp [hok']
  · have hne : path url ≠ path r.url := fun h => hu (hpath h.symm)
    have hs : storesFn r url = none := by unfold storesFn; rw [if_neg (fun h => hu h.1)]
    rw [hs]
    simp only [hu, false_and, if_false]
    unfold fetchZip
    dsimp only
    repeat' split
    all_goals first
      | rfl
      | (rw [cacheAt_write, if_neg hne])

theorem cacheAt_history (path : Str → Str) (url : Str) (h : List ZipRun) (fs : CacheFS) (acc : Option Cache)
    (hpath : ∀ r ∈ h, path r.url = path url → r.url = url)
    (hinv : cacheAt fs (path url) = none ∨ cacheAt fs (path url) = acc) :
    cacheAt (runHistory path fs h) (path url) = none ∨
      cacheAt (runHistory path fs h) (path url) = lastFn url acc h := by
  induction h generalizing fs acc with
  | nil => exact hinv
  | cons r h ih =>
    show cacheAt (runHistory path (fetchZip path fs r).fs h) _ = _ ∨ _ = lastFn url ((storesFn r url).or acc) h
    apply ih _ _ (fun r' hr' => hpath r' (by simp [hr']))
    rw [cacheAt_run path fs r url (hpath r (by simp))]
    cases storesFn r url with
    | some c => exact .inr rfl
    | none =>
      simp only [Option.none_or]
      split
      · cases r.write with
        | complete =>
          rcases readCache_or fs (path url) r.readable with h | h
          · exact .inl h
          · simp only; rw [h]; exact hinv
        | untouched => exact hinv
        | torn k => exact .inl rfl
      · exact hinv

theorem cacheAt_history_exact (path : Str → Str) (url : Str) (h : List ZipRun) (fs : CacheFS)
    (hpath : ∀ r ∈ h, path r.url = path url → r.url = url)
    (hgood : ∀ r ∈ h, r.url = url → r.readable = true ∧ ∀ k, r.write ≠ .torn k) :
    cacheAt (runHistory path fs h) (path url) = lastFn url (cacheAt fs (path url)) h := by
  induction h generalizing fs with
  | nil => rfl
  | cons r h ih =>
    show cacheAt (runHistory path (fetchZip path fs r).fs h) _ =
      lastFn url ((storesFn r url).or (cacheAt fs (path url))) h
    rw [ih _ (fun r' hr' => hpath r' (by simp [hr'])) (fun r' hr' => hgood r' (by simp [hr']))]
    congr 1
    rw [cacheAt_run path fs r url (hpath r (by simp))]
    cases storesFn r url with
    | some c => rfl
    | none =>
      simp only [Option.none_or]
      split
      · rename_i hc
        obtain ⟨h1, h2⟩ := hgood r (by simp) hc.1
        cases hw : r.write with
        | complete => simp only; rw [h1]; rfl
        | untouched => rfl
        | torn k => exact absurd hw (h2 k)
      · rfl

/-- **C18** (offline). Whatever happened before, an offline load that succeeds returns the archive and the
date of the last successful save. -/
theorem C18_offline (path : Str → Str) (fs : CacheFS) (h : List ZipRun) (r : ZipRun) (body : Bytes) (date : Str)
    (hpath : ∀ r' ∈ h, path r'.url = path r.url → r'.url = r.url) (hoff : r.offline = true)
    (hok : (fetchZip path (runHistory path fs h) r).result = .ok body date) :
    ∃ c, LastStored ((fs (path r.url)).bind decodeCache) h r.url c ∧ body = c.body ∧ date = c.date := by
  unfold fetchZip at hok
  simp only [hoff, if_true] at hok
  split at hok
  · cases hok
  · rename_i c hc
    cases hok
    refine ⟨c, ?_, rfl, rfl⟩
    rw [← lastFn_iff]
    rcases readCache_or (runHistory path fs h) (path r.url) r.readable with h' | h'
    · rw [h'] at hc; cases hc
    · rw [h'] at hc
      rcases cacheAt_history path r.url h fs _ hpath (.inr rfl) with h'' | h''
      · rw [h''] at hc; cases hc
      · rw [h''] at hc; exact hc

/-- **C18** (offline, complete). If no write was cut short and the file stayed readable, an offline load
returns the last saved archive whenever there is one, and reports a missing database otherwise. -/
theorem C18_offline_exact (path : Str → Str) (fs : CacheFS) (h : List ZipRun) (r : ZipRun)
    (hpath : ∀ r' ∈ h, path r'.url = path r.url → r'.url = r.url) (hoff : r.offline = true)
    (hread : r.readable = true)
    (hgood : ∀ r' ∈ h, r'.url = r.url → r'.readable = true ∧ ∀ k, r'.write ≠ .torn k) :
    (∀ c, LastStored ((fs (path r.url)).bind decodeCache) h r.url c →
      (fetchZip path (runHistory path fs h) r).result = .ok c.body c.date) ∧
    ((∀ c, ¬ LastStored ((fs (path r.url)).bind decodeCache) h r.url c) →
      (fetchZip path (runHistory path fs h) r).result = .error .offlineNotFound) := by
  have hx := cacheAt_history_exact path r.url h fs hpath hgood
  have : (fetchZip path (runHistory path fs h) r).result =
      match lastFn r.url (cacheAt fs (path r.url)) h with
      | none => .error .offlineNotFound
      | some c => .ok c.body c.date := by
    unfold fetchZip
    simp only [hoff, if_true, hread, readCache_true, hx]
    cases lastFn r.url (cacheAt fs (path r.url)) h <;> rfl
  rw [this]
  constructor
  · intro c hc
    rw [← lastFn_iff] at hc
    unfold cacheAt
    rw [hc]
  · intro hn
    cases hl : lastFn r.url (cacheAt fs (path r.url)) h with
    | none => rfl
    | some c => exact absurd ((lastFn_iff ..).1 hl) (hn c)

/-- **C18** (not modified). If the conditional headers were sent, they are those saved with the last saved
archive, and a 304 response yields exactly that archive and its date. -/
theorem C18_not_modified (path : Str → Str) (fs : CacheFS) (h : List ZipRun) (r : ZipRun) (e d : Str)
    (hpath : ∀ r' ∈ h, path r'.url = path r.url → r'.url = r.url)
    (hsent : (fetchZip path (runHistory path fs h) r).sent = some (some (e, d))) :
    ∃ c, LastStored ((fs (path r.url)).bind decodeCache) h r.url c ∧ e = c.etag ∧ d = c.date ∧
      ∀ e' d' b, r.reply = .resp 304 e' d' b →
        (fetchZip path (runHistory path fs h) r).result = .ok c.body c.date := by
  have hcache : ∃ c, readCache (runHistory path fs h) (path r.url) r.readable = some c ∧ e = c.etag ∧
      d = c.date ∧ r.offline = false ∧ r.urlOk = true := by
    unfold fetchZip at hsent
    cases hrc : readCache (runHistory path fs h) (path r.url) r.readable with
    | none =>
      rw [hrc] at hsent
      dsimp only at hsent
      repeat' split at hsent
      all_goals simp at hsent
    | some c =>
      rw [hrc] at hsent
      refine ⟨c, rfl, ?_⟩
      cases hoff : r.offline with
      | true => simp [hoff] at hsent
      | false =>
        cases hok : r.urlOk with
        | false => simp [hoff, hok] at hsent
        | true =>
          simp only [hoff, hok, Bool.false_eq_true, if_false, Bool.not_true, Option.map_some] at hsent
          refine ⟨?_, ?_, rfl, rfl⟩
          all_goals
            repeat' split at hsent
            all_goals simp at hsent
            all_goals simp [hsent]
  obtain ⟨c, hc, rfl, rfl, hoff, hok⟩ := hcache
  refine ⟨c, ?_, rfl, rfl, ?_⟩
  · rw [← lastFn_iff]
    rcases readCache_or (runHistory path fs h) (path r.url) r.readable with h' | h'
    · rw [h'] at hc; cases hc
    · rw [h'] at hc
      rcases cacheAt_history path r.url h fs _ hpath (.inr rfl) with h'' | h''
      · rw [h''] at hc; cases hc
      · rw [h''] at hc; exact hc
  · intro e' d' b hr
    unfold fetchZip
    simp [hoff, hok, hr, hc]

/-- **C18** (download). A complete download is returned as is, whatever the cache holds and whether or not it
can be saved. -/
theorem C18_download (path : Str → Str) (fs : CacheFS) (r : ZipRun) (etag date : Str) (b : Bytes)
    (hoff : r.offline = false) (hok : r.urlOk = true) (hr : r.reply = .resp 200 etag date (some b)) :
    (fetchZip path fs r).result = .ok b date := by
  unfold fetchZip
  simp [hoff, hok, hr]

/-- A load never yields an archive in any other way: success means a complete download, a 304 answer to a
conditional request, or an offline load. -/
theorem C18_ok_cases (path : Str → Str) (fs : CacheFS) (r : ZipRun) (body : Bytes) (date : Str)
    (h : (fetchZip path fs r).result = .ok body date) :
    r.offline = true ∨ (∃ etag, r.reply = .resp 200 etag date (some body)) ∨
      ((∃ e d b, r.reply = .resp 304 e d b) ∧ ∃ hd, (fetchZip path fs r).sent = some (some hd)) := by
  unfold fetchZip at h ⊢
  cases hoff : r.offline with
  | true => exact .inl rfl
  | false =>
    right
    cases hok : r.urlOk with
    | false => simp [hoff, hok] at h
    | true =>
      simp only [hoff, hok, Bool.false_eq_true, if_false, Bool.not_true] at h ⊢
      cases hr : r.reply with
      | failed => simp [hr] at h
      | resp status etag d b =>
        simp only [hr] at h ⊢
        by_cases h304 : status = 304
        · subst h304
          simp only [if_true] at h ⊢
          cases hc : readCache fs (path r.url) r.readable with
          | none => simp [hc] at h
          | some c => exact .inr ⟨⟨_, _, _, rfl⟩, ⟨(c.etag, c.date), by simp⟩⟩
        · simp only [h304, if_false] at h ⊢
          by_cases h200 : status = 200
          · subst h200
            cases b with
            | none => simp at h
            | some b => simp at h; exact .inl ⟨etag, by simp [h]⟩
          · simp [h200] at h

/-- A 304 answer to an unconditional request crashes the program (nil dereference, `zip.go:89`), and this is
the only crash. -/
theorem C18_panic_iff (path : Str → Str) (fs : CacheFS) (r : ZipRun) :
    (fetchZip path fs r).result = .panic ↔
      (fetchZip path fs r).sent = some none ∧ ∃ e d b, r.reply = .resp 304 e d b := by
  unfold fetchZip
  cases hoff : r.offline with
  | true =>
    simp only [if_true]
    split <;> simp
  | false =>
    cases hok : r.urlOk with
    | false => simp
    | true =>
      simp only [Bool.false_eq_true, if_false, Bool.not_true]
      cases hr : r.reply with
      | failed => simp
      | resp status etag d b =>
        simp only [Reply.resp.injEq]
        by_cases h304 : status = 304
        · subst h304
          cases hc : readCache fs (path r.url) r.readable <;> simp
        · by_cases h200 : status = 200
          · subst h200
            cases b <;> simp
          · simp [h304, h200]

/-! ### Non-vacuity -/

/-- Two runs: a download with an ETag, then a 304. -/
def c18r1 : ZipRun := ⟨g!"u", false, true, true, .resp 200 g!"e" [] (some [1, 2, 3, 250]), .complete⟩
def c18r2 : ZipRun := ⟨g!"u", false, true, true, .resp 304 [] [] none, .complete⟩
def c18r3 : ZipRun := ⟨g!"u", true, true, true, .failed, .complete⟩

example : LastStored none [c18r1, c18r2] g!"u" ⟨g!"u", g!"e", [], [1, 2, 3, 250]⟩ := by
  rw [← lastFn_iff]; decide
example : (fetchZip id (runHistory id (fun _ => none) [c18r1, c18r2]) c18r3).result = .ok [1, 2, 3, 250] [] := by
  refine (C18_offline_exact id (fun _ => none) [c18r1, c18r2] c18r3 (by intro r' _ h; exact h) rfl rfl ?_).1
    ⟨g!"u", g!"e", [], [1, 2, 3, 250]⟩ ?_
  · intro r' hr' _
    simp only [List.mem_cons, List.not_mem_nil, or_false] at hr'
    rcases hr' with rfl | rfl <;> exact ⟨rfl, by simp [c18r1, c18r2]⟩
  · rw [← lastFn_iff]; decide

end Osv
