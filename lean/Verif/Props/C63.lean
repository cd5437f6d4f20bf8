import Verif.Props.C18
/-!
# C63 Loading an archive never crashes

The full statement is `C63_full`; it is false for a server that answers 304 although no condition was sent.
-/
namespace Osv

/-- The full statement: whatever the cache file holds and the server answers, fetching an archive yields the
archive or an error. -/
def C63_full : Prop :=
  ∀ (path : Str → Str) (fs : CacheFS) (h : List ZipRun) (r : ZipRun),
    (fetchZip path (runHistory path fs h) r).result ≠ .panic

/-- With a server that answers 304 only to conditional requests there is no crash after any history, whatever
the initial content of the cache. Missing: servers that answer 304 to an unconditional request. -/
theorem C63_no_crash_partial (path : Str → Str) (fs : CacheFS) (h : List ZipRun) (r : ZipRun)
    (hserver : (fetchZip path (runHistory path fs h) r).sent = some none →
      ∀ e d b, r.reply ≠ .resp 304 e d b) :
    (fetchZip path (runHistory path fs h) r).result ≠ .panic := by
  intro hp
  obtain ⟨hs, e, d, b, hr⟩ := (C18_panic_iff path _ r).1 hp
  exact hserver hs e d b hr

/-- Exactly when it crashes: the request had no condition and the answer was 304. -/
theorem C63_iff (path : Str → Str) (fs : CacheFS) (h : List ZipRun) (r : ZipRun) :
    (fetchZip path (runHistory path fs h) r).result = .panic ↔
      (fetchZip path (runHistory path fs h) r).sent = some none ∧ ∃ e d b, r.reply = .resp 304 e d b :=
  C18_panic_iff path _ r

/-- An offline load never crashes. -/
theorem C63_offline (path : Str → Str) (fs : CacheFS) (h : List ZipRun) (r : ZipRun) (hoff : r.offline = true) :
    (fetchZip path (runHistory path fs h) r).result ≠ .panic := by
  intro hp
  obtain ⟨hs, _⟩ := (C18_panic_iff path _ r).1 hp
  unfold fetchZip at hs
  rw [hoff, if_pos rfl] at hs
  split at hs <;> cases hs

/-- The full statement is false. -/
theorem C63_not_modified_without_cache : ¬ C63_full := by
  intro h
  exact h id (fun _ => none) [] c18r2 (by decide)

example : (fetchZip id (runHistory id (fun _ => none) [c18r1]) c18r2).sent = some none →
    ∀ e d b, c18r2.reply ≠ .resp 304 e d b := by
  intro h
  exact absurd h (by decide)

end Osv
